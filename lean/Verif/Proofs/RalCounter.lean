import Verif.Proofs.RalTimer
import Verif.Model.RalTrigger
import Verif.Spec.RalCounter

/-!
# Helper lemmas: counters
-/

namespace Z80.Ral
open Spec.Ral

variable {W : Type} {t : Triggers W} {i : Fin 4}

theorem counted_append (n : U8) : ∀ (l l' : List Nat) (v : U8), counted n v (l ++ l') =
    ((counted n v l).1 ++ (counted n (counted n v l).2 l').1, (counted n (counted n v l).2 l').2)
  | [], l', v => rfl
  | e :: l, l', v => by
    simp only [List.cons_append, counted]
    split
    · rw [counted_append n l l' n]; rfl
    · rw [counted_append n l l' (v - 1)]

/-- The edges that wait for a channel, up to a time; what the trigger answers is about them. -/
structure Feeds (t : Triggers W) (i : Fin 4) (rising : Bool) (inv : W → Prop) (pending : W → Nat → List Nat) :
    Prop where
  ok : ∀ ts w x w', inv w → t.nextClkTrg i rising ts w = some (.ok x, w') →
    inv w' ∧ ∀ ts', ts ≤ ts' → pending w ts' = x :: pending w' ts'
  wait : ∀ ts w x w', inv w → t.nextClkTrg i rising ts w = some (.error x, w') → inv w' ∧
    (∀ ts', ts ≤ ts' → pending w' ts' = pending w ts') ∧ ∀ ts', ts' < x ∨ ts' = ts → pending w ts' = []
  pulse : ∀ x w w', inv w → t.pulse i x w = some w' → inv w' ∧ ∀ ts', pending w' ts' = pending w ts'

/-- Counting. -/
structure Counts (c : CtcChannel) (n : U8) : Prop where
  mode : c.mode = .counter
  restart : c.restart = some n

theorem countLoop_spec {n : U8} {ts : Nat} {inv : W → Prop} {pending : W → Nat → List Nat} :
    ∀ (k : Nat) (c c' : CtcChannel) (w w' : W), Feeds t i c.rising inv pending → inv w →
      CtcChannel.countLoop t i n ts k c w = some (c', w') →
      ∃ done, inv w' ∧ (∀ ts', ts ≤ ts' → pending w ts' = done ++ pending w' ts') ∧
        (∀ seen, Records t i seen → (∀ ts w r w', t.nextClkTrg i c.rising ts w = some (r, w') → seen w' = seen w) →
          seen w' = seen w ++ (counted n c.current done).1) ∧
        c'.current = (counted n c.current done).2 ∧
        c'.intActive = (c.intActive || c.intsEnabled && !(counted n c.current done).1.isEmpty) ∧
        c'.setup = c.setup ∧
        (((counted n c.current done).1 ≠ [] ∧ c'.hint = 0) ∨
          ((counted n c.current done).1 = [] ∧ pending w' ts = [] ∧ ∀ ts', ts ≤ ts' → ts' < c'.hint → pending w' ts' = []))
  | 0, _, _, _, _, _, _, h => by cases h
  | k + 1, c, c', w, w', hf, hi, h => by
    unfold CtcChannel.countLoop at h
    split at h
    · cases h
    · rename_i x w1 hx
      obtain ⟨hi1, hp⟩ := hf.ok _ _ _ _ hi hx
      split at h
      · cases h
      · rename_i c2 w2 hd
        cases h
        simp only [CtcChannel.downcount] at hd
        split at hd
        · rename_i hz
          simp only [Option.map_eq_some_iff] at hd
          obtain ⟨w3, hw3, hd⟩ := hd
          cases hd
          have h1 : c.current = 1 := by
            have := congrArg (· + 1) hz
            simpa [BitVec.sub_add_cancel] using this
          have hcd : counted n c.current [x] = ([x], n) := by simp [counted, h1]
          obtain ⟨hi2, hpu⟩ := hf.pulse _ _ _ hi1 hw3
          refine ⟨[x], hi2, fun ts' ht => ?_, fun seen hr hs => ?_, ?_, ?_, rfl, Or.inl ⟨by simp [hcd], rfl⟩⟩
          · rw [hp ts' ht, hpu]; rfl
          · rw [hr.pulse _ _ _ hw3, hs _ _ _ _ hx, hcd]
          · rw [hcd]; rfl
          · rw [hcd]; simp [CtcChannel.setIntActive]
        · cases hd
      · rename_i c2 w2 hd
        simp only [CtcChannel.downcount] at hd
        split at hd
        · simp only [Option.map_eq_some_iff] at hd
          obtain ⟨w3, hw3, hd⟩ := hd
          cases hd
        · rename_i hz
          cases hd
          have h1 : c.current ≠ 1 := fun e => hz (by show c.current - 1 = 0; rw [e]; rfl)
          obtain ⟨done, j0, j1, j2, j3, j4, j5, j6⟩ := countLoop_spec k { c with current := c.current - 1 } c' w1 w'
            hf hi1 h
          have hcd : counted n c.current (x :: done) = counted n (c.current - 1) done := by rw [counted, if_neg h1]
          refine ⟨x :: done, j0, fun ts' ht => ?_, fun seen hr hs => ?_, ?_, ?_, j5, ?_⟩
          · rw [hp ts' ht, j1 ts' ht]; rfl
          · rw [j2 seen hr hs, hs _ _ _ _ hx, hcd]
          · rw [hcd]; exact j3
          · rw [hcd]; exact j4
          · rw [hcd]; exact j6
    · rename_i x w1 hx
      cases h
      obtain ⟨h0, h1, h2⟩ := hf.wait _ _ _ _ hi hx
      refine ⟨[], h0, fun ts' ht => (h1 ts' ht).symm, fun seen hr hs => ?_, rfl, ?_, rfl, Or.inr ⟨rfl, ?_, ?_⟩⟩
      · rw [hs _ _ _ _ hx]; simp [counted]
      · simp [counted]
      · rw [h1 ts (Nat.le_refl _), h2 ts (Or.inr rfl)]
      · intro ts' ht hlt; rw [h1 ts' ht, h2 ts' (Or.inl hlt)]

/-- A control word that resets a channel and makes it a counter, with a constant to follow. -/
theorem CtcChannel.control_counter {data : U8} {ts : Nat} {c c' : CtcChannel} (h1 : data.getLsbD 1 = true)
    (h2 : data.getLsbD 2 = true) (h6 : data.getLsbD 6 = true) (h : c.control data ts = some c') :
    c'.mode = .counter ∧ c'.restart = none ∧ c'.awaiting = true ∧ c'.intsEnabled = data.getLsbD 7 := by
  unfold control at h
  rw [h1, h2, h6] at h
  generalize data.getLsbD 7 = b7 at h ⊢
  generalize data.getLsbD 5 = b5 at h ⊢
  generalize data.getLsbD 3 = b3 at h ⊢
  obtain ⟨pr, mode, hint, lt, et, int, re, cu, aw, ext, ie, ia, ri⟩ := c
  cases b7 <;> cases mode <;> cases h <;> simp

/-! ### The external clock -/

theorem range_split {x b : Nat} (h : x ≤ b) : List.range (b + 1) = List.range x ++ x :: List.range' (x + 1) (b - x) := by
  have : b + 1 = x + (1 + (b - x)) := by omega
  rw [this, List.range_add, List.range_eq_range' (n := 1 + (b - x)), Nat.add_comm 1, List.range'_succ, List.map_cons,
    List.map_add_range']
  simp

theorem not_between {h j y : Nat} (h1 : j * h < y) (h2 : y < (j + 1) * h) : y % h ≠ 0 := by
  intro e
  obtain ⟨k, rfl⟩ := Nat.dvd_of_mod_eq_zero e
  have h0 : 0 < h := by
    cases h with
    | zero => simp at h1
    | succ n => omega
  rw [Nat.mul_comm h k] at h1 h2
  have a1 := Nat.lt_of_mul_lt_mul_right h1
  have a2 := Nat.lt_of_mul_lt_mul_right h2
  omega

theorem clockEdges_none {h j b : Nat} {r : Bool} (hb : b < (j + 1) * h) : clockEdges h r (j * h) b = [] := by
  simp only [clockEdges, List.filter_eq_nil_iff, List.mem_range, decide_eq_true_eq]
  rintro y hy ⟨h1, h2, -⟩
  exact not_between h1 (by omega) h2

theorem clockEdges_step {h j b : Nat} {r : Bool} (h0 : 0 < h) (hb : (j + 1) * h ≤ b) : clockEdges h r (j * h) b =
    (if ((j + 1) % 2 = 1 ↔ r = true) then [(j + 1) * h] else []) ++ clockEdges h r ((j + 1) * h) b := by
  have hlt : j * h < (j + 1) * h := by rw [Nat.add_mul]; omega
  simp only [clockEdges, range_split hb, List.filter_append, List.filter_cons]
  have e1 : ∀ a, j * h ≤ a → (List.range ((j + 1) * h)).filter
      (fun x => decide (a < x ∧ x % h = 0 ∧ (x / h % 2 = 1 ↔ r = true))) = [] := by
    intro a ha
    simp only [List.filter_eq_nil_iff, List.mem_range, decide_eq_true_eq]
    rintro y hy ⟨h1, h2, -⟩
    exact not_between (by omega) hy h2
  rw [e1 _ (Nat.le_refl _), e1 _ (Nat.le_of_lt hlt)]
  have e2 : (List.range' ((j + 1) * h + 1) (b - (j + 1) * h)).filter
      (fun x => decide (j * h < x ∧ x % h = 0 ∧ (x / h % 2 = 1 ↔ r = true))) =
      (List.range' ((j + 1) * h + 1) (b - (j + 1) * h)).filter
      (fun x => decide ((j + 1) * h < x ∧ x % h = 0 ∧ (x / h % 2 = 1 ↔ r = true))) := by
    apply List.filter_congr
    intro y hy
    simp only [List.mem_range'_1] at hy
    have a1 : j * h < y := by omega
    have a2 : (j + 1) * h < y := by omega
    simp [a1, a2]
  rw [e2]
  simp only [hlt, Nat.mul_mod_left, Nat.mul_div_cancel _ h0, true_and, Nat.lt_irrefl, false_and, decide_false,
    Bool.false_eq_true, if_false, List.nil_append, decide_eq_true_eq]
  split <;> rfl

theorem clockEdges_shift {h k d p b : Nat} {r : Bool} (h0 : 0 < h) (hd : d = 2 * k * h) (hp : d ≤ p) :
    clockEdges h r (p - d) b = (clockEdges h r p (b + d)).map (· - d) := by
  simp only [clockEdges]
  rw [show b + d + 1 = d + (b + 1) by omega, List.range_add (n := d) (m := b + 1), List.filter_append]
  have e1 : (List.range d).filter
      (fun x => decide (p < x ∧ x % h = 0 ∧ (x / h % 2 = 1 ↔ r = true))) = [] := by
    simp only [List.filter_eq_nil_iff, List.mem_range, decide_eq_true_eq]
    rintro y hy ⟨h1, -⟩
    omega
  rw [e1, List.nil_append, List.filter_map, List.map_map]
  have e2 : ((fun x => x - d) ∘ fun x => d + x) = id := by
    funext x; simp
  rw [e2, List.map_id]
  apply List.filter_congr
  intro x _
  have q1 : (d + x) % h = x % h := by rw [hd, Nat.mul_comm, Nat.mul_add_mod]
  have q2 : (d + x) / h % 2 = x / h % 2 := by
    rw [hd, Nat.mul_comm, Nat.mul_add_div h0]
    omega
  have q3 : (p - d < x) ↔ (p < d + x) := by omega
  simp only [Function.comp, q1, q2, q3]

/-- The clock has passed a whole number of half-periods, and its level is right. -/
def InPhase {m : Nat} (h : Nat) (a : CtcActive m) : Prop :=
  a.hclock = h ∧ 0 < h ∧ ∃ j, a.periodTs = j * h ∧ a.edgeHigh = decide (j % 2 = 1)

theorem add32_eq {a b c : Nat} (h : add32 a b = some c) : c = a + b := by
  simp only [add32] at h
  split at h
  · cases h; rfl
  · cases h

theorem active_ok {m h ts x : Nat} {r : Bool} {a a' : CtcActive m} (hi : InPhase h a)
    (e : a.nextClkTrg r ts = some (.ok x, a')) :
    InPhase h a' ∧ ∀ b, ts ≤ b → clockEdges h r a.periodTs b = x :: clockEdges h r a'.periodTs b := by
  obtain ⟨rfl, h0, j, hj, hl⟩ := hi
  have hjj : a.periodTs + a.hclock = (j + 1) * a.hclock := by rw [hj, Nat.add_mul]; omega
  simp only [CtcActive.nextClkTrg, Option.bind_eq_bind, Option.bind_eq_some_iff] at e
  obtain ⟨n1, hn1, e⟩ := e
  have := add32_eq hn1
  rw [hjj] at this
  subst this
  split at e
  · rename_i hle
    split at e
    · rename_i hr
      cases e
      refine ⟨⟨rfl, h0, j + 1, rfl, ?_⟩, fun b hb => ?_⟩
      · simp only [hl]
        rcases Nat.mod_two_eq_zero_or_one j with h | h <;> simp [h, Nat.add_mod]
      · rw [hj, clockEdges_step h0 (Nat.le_trans hle hb), if_pos]
        · rfl
        · rw [← hr, hl]
          rcases Nat.mod_two_eq_zero_or_one j with h | h <;> simp [h, Nat.add_mod]
    · rename_i hr
      simp only [Option.bind_eq_some_iff] at e
      obtain ⟨n2, hn2, e⟩ := e
      have := add32_eq hn2
      have h2 : n2 = (j + 1 + 1) * a.hclock := by rw [this, Nat.add_mul (j + 1)]; omega
      subst h2
      split at e
      · rename_i hle2
        cases e
        refine ⟨⟨rfl, h0, j + 1 + 1, rfl, ?_⟩, fun b hb => ?_⟩
        · simp only [hl]
          rcases Nat.mod_two_eq_zero_or_one j with h | h <;> simp [h, Nat.add_mod]
        · rw [hj, clockEdges_step h0 (Nat.le_trans hle hb), if_neg, clockEdges_step h0 (Nat.le_trans hle2 hb), if_pos]
          · rfl
          · rw [hl] at hr
            rcases Nat.mod_two_eq_zero_or_one j with h | h <;> cases r <;> simp_all [Nat.add_mod]
          · rw [hl] at hr
            rcases Nat.mod_two_eq_zero_or_one j with h | h <;> cases r <;> simp_all [Nat.add_mod]
      · cases e
  · cases e

theorem active_wait {m h ts x : Nat} {r : Bool} {a a' : CtcActive m} (hi : InPhase h a)
    (e : a.nextClkTrg r ts = some (.error x, a')) :
    InPhase h a' ∧ (∀ b, ts ≤ b → clockEdges h r a'.periodTs b = clockEdges h r a.periodTs b) ∧
      ∀ b, b < x ∨ b = ts → clockEdges h r a.periodTs b = [] := by
  obtain ⟨rfl, h0, j, hj, hl⟩ := hi
  have hjj : a.periodTs + a.hclock = (j + 1) * a.hclock := by rw [hj, Nat.add_mul]; omega
  simp only [CtcActive.nextClkTrg, Option.bind_eq_bind, Option.bind_eq_some_iff] at e
  obtain ⟨n1, hn1, e⟩ := e
  have := add32_eq hn1
  rw [hjj] at this
  subst this
  split at e
  · rename_i hle
    split at e
    · cases e
    · rename_i hr
      simp only [Option.bind_eq_some_iff] at e
      obtain ⟨n2, hn2, e⟩ := e
      have := add32_eq hn2
      have h2 : n2 = (j + 1 + 1) * a.hclock := by rw [this, Nat.add_mul (j + 1)]; omega
      subst h2
      have hne : ¬ ((j + 1) % 2 = 1 ↔ r = true) := by
        rw [hl] at hr
        rcases Nat.mod_two_eq_zero_or_one j with h | h <;> cases r <;> simp_all [Nat.add_mod]
      split at e
      · cases e
      · rename_i hlt
        cases e
        refine ⟨⟨rfl, h0, j + 1, rfl, ?_⟩, fun b hb => ?_, fun b hb => ?_⟩
        · simp only [hl]
          rcases Nat.mod_two_eq_zero_or_one j with h | h <;> simp [h, Nat.add_mod]
        · rw [hj, clockEdges_step h0 (Nat.le_trans hle hb), if_neg hne]; rfl
        · have hb' : b < (j + 1 + 1) * a.hclock := by omega
          rw [hj]
          by_cases hbj : b < (j + 1) * a.hclock
          · exact clockEdges_none hbj
          · rw [clockEdges_step h0 (by omega), if_neg hne, clockEdges_none hb']; rfl
  · rename_i hle
    cases e
    refine ⟨⟨rfl, h0, j, hj, hl⟩, fun _ _ => rfl, fun b hb => ?_⟩
    rw [hj]
    exact clockEdges_none (by omega)

theorem CtcActive.nextClkTrg_next {m ts : Nat} {r : Bool} {a a' : CtcActive m} {x : Except Nat Nat}
    (e : a.nextClkTrg r ts = some (x, a')) : a'.next = a.next := by
  simp only [CtcActive.nextClkTrg, Option.bind_eq_bind, Option.bind_eq_some_iff] at e
  obtain ⟨n1, hn1, e⟩ := e
  split at e
  · split at e
    · cases e; rfl
    · simp only [Option.bind_eq_some_iff] at e
      obtain ⟨n2, hn2, e⟩ := e
      split at e <;> cases e <;> rfl
  · cases e; rfl

/-- The external clock alone. -/
def CtcActive.clock {m : Nat} (a : CtcActive m) : Nat × Nat × Bool := (a.hclock, a.periodTs, a.edgeHigh)

/-! ### The collector of pulses -/

/-- The pulses a collector holds. -/
def CtcPulse.queue {m : Nat} (p : CtcPulse m) : List Nat := (List.ofFn p.ts).take p.pulses

theorem queue_shift {m : Nat} {p : CtcPulse m} (hp : p.pulses ≠ 0) (hm : 0 < m) :
    p.queue = p.ts ⟨0, hm⟩ :: (p.shift (p.pulses - 1)).queue := by
  apply List.ext_getElem
  · simp [CtcPulse.queue, CtcPulse.shift]; omega
  · intro k h1 h2
    simp only [CtcPulse.queue, List.getElem_take, List.getElem_ofFn]
    cases k with
    | zero => rfl
    | succ k =>
      simp only [List.getElem_cons_succ, List.getElem_take, List.getElem_ofFn, CtcPulse.shift]
      simp only [CtcPulse.queue, CtcPulse.shift, List.length_cons, List.length_take, List.length_ofFn] at h1 h2
      rw [dif_pos (by omega)]

theorem queue_nil {m : Nat} {p : CtcPulse m} (hp : p.pulses = 0) : p.queue = [] := by
  simp [CtcPulse.queue, hp]

theorem queue_pulse {m x : Nat} {a a' : CtcActive m} (e : a.pulse x = some a') :
    a'.next.queue = a.next.queue ++ [x] := by
  simp only [CtcActive.pulse] at e
  split at e
  · rename_i hlt
    cases e
    apply List.ext_getElem
    · simp [CtcPulse.queue]; omega
    · intro k h1 h2
      simp only [CtcPulse.queue, List.length_take, List.length_ofFn] at h1
      simp only [List.getElem_append, CtcPulse.queue, List.getElem_take, List.getElem_ofFn, List.length_take,
        List.length_ofFn]
      by_cases hk : k = a.next.pulses
      · subst hk; simp; omega
      · rw [if_neg hk, dif_pos (by omega)]
  · cases e

theorem passive_ok {m ts x : Nat} {r : Bool} {a a' : CtcActive m} (e : a.nextClkTrg' r ts = some (.ok x, a')) :
    ∀ b, ts ≤ b → pulseEdges r a.next.queue b = x :: pulseEdges r a'.next.queue b := by
  intro b hb
  simp only [CtcActive.nextClkTrg'] at e
  split at e
  · rename_i hp
    split at e
    · rename_i hm
      split at e
      · rename_i hle
        split at e
        · rename_i hr
          cases e
          subst hr
          rw [queue_shift hp hm]
          simp [pulseEdges, show a.next.ts ⟨0, hm⟩ ≤ b by omega]
        · rename_i hr
          simp only [Option.bind_eq_bind, Option.bind_eq_some_iff] at e
          obtain ⟨n2, hn2, e⟩ := e
          have := add32_eq hn2
          subst this
          split at e
          · rename_i hle2
            cases e
            rw [queue_shift hp hm]
            simp [pulseEdges, hr, show a.next.ts ⟨0, hm⟩ + 2 ≤ b by omega]
          · cases e
      · cases e
    · cases e
  · cases e

theorem passive_clock {m ts : Nat} {r : Bool} {a a' : CtcActive m} {x : Except Nat Nat}
    (e : a.nextClkTrg' r ts = some (x, a')) : a'.clock = a.clock := by
  simp only [CtcActive.nextClkTrg'] at e
  split at e
  · split at e
    · split at e
      · split at e
        · cases e; rfl
        · simp only [Option.bind_eq_bind, Option.bind_eq_some_iff] at e
          obtain ⟨n2, hn2, e⟩ := e
          split at e <;> cases e <;> rfl
      · cases e; rfl
    · cases e
  · cases e; rfl

theorem takeWhile_all {p : Nat → Bool} : ∀ {l : List Nat}, (∀ x ∈ l, p x = true) → l.takeWhile p = l
  | [], _ => rfl
  | x :: l, h => by
    rw [List.takeWhile_cons, if_pos (h x List.mem_cons_self),
      takeWhile_all fun y hy => h y (List.mem_cons_of_mem _ hy)]

theorem pulseEdges_all {r : Bool} {l : List Nat} {b : Nat} (h : ∀ x ∈ l, x + 2 ≤ b) :
    pulseEdges r l b = l.map (· + if r then 0 else 2) := by
  cases r
  · simp only [pulseEdges, Bool.false_eq_true, if_false]
    rw [takeWhile_all]
    intro x hx
    simpa using h x hx
  · simp only [pulseEdges, if_true, Nat.add_zero, List.map_id']
    rw [takeWhile_all]
    intro x hx
    have := h x hx
    simp only [decide_eq_true_eq]
    omega

theorem bound_of (ts : Nat) : ∀ l l' : List Nat, ∃ B, ts ≤ B ∧ (∀ x ∈ l, x + 2 ≤ B) ∧ ∀ x ∈ l', x + 2 ≤ B
  | [], [] => ⟨ts, Nat.le_refl _, by simp, by simp⟩
  | y :: l, l' => by
    obtain ⟨B, h0, h1, h2⟩ := bound_of ts l l'
    refine ⟨max B (y + 2), by omega, fun x hx => ?_, fun x hx => ?_⟩
    · rcases List.mem_cons.1 hx with rfl | hx
      · omega
      · have := h1 x hx; omega
    · have := h2 x hx; omega
  | [], y :: l' => by
    obtain ⟨B, h0, h1, h2⟩ := bound_of ts [] l'
    refine ⟨max B (y + 2), by omega, by simp, fun x hx => ?_⟩
    rcases List.mem_cons.1 hx with rfl | hx
    · omega
    · have := h2 x hx; omega

theorem passive_wait {m ts x : Nat} {r : Bool} {a a' : CtcActive m} (e : a.nextClkTrg' r ts = some (.error x, a')) :
    a' = a ∧ ∀ b, b < x ∨ b = ts → pulseEdges r a.next.queue b = [] := by
  simp only [CtcActive.nextClkTrg'] at e
  split at e
  · rename_i hp
    split at e
    · rename_i hm
      split at e
      · rename_i hle
        split at e
        · cases e
        · rename_i hr
          simp only [Option.bind_eq_bind, Option.bind_eq_some_iff] at e
          obtain ⟨n2, hn2, e⟩ := e
          have := add32_eq hn2
          subst this
          split at e
          · cases e
          · rename_i hle2
            cases e
            refine ⟨rfl, fun b hb => ?_⟩
            rw [queue_shift hp hm]
            have : ¬ a.next.ts ⟨0, hm⟩ + 2 ≤ b := by omega
            simp [pulseEdges, hr, this]
      · rename_i hle
        cases e
        refine ⟨rfl, fun b hb => ?_⟩
        rw [queue_shift hp hm]
        have h1 : ¬ a.next.ts ⟨0, hm⟩ ≤ b := by omega
        have h2 : ¬ a.next.ts ⟨0, hm⟩ + 2 ≤ b := by omega
        cases r <;> simp [pulseEdges, h1, h2]
    · cases e
  · rename_i hp
    cases e
    refine ⟨rfl, fun b hb => ?_⟩
    rw [queue_nil (by simpa using hp)]
    cases r <;> rfl

end Z80.Ral
