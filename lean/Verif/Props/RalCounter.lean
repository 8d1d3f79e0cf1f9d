import Verif.Props.RalTimer
import Verif.Spec.RalCounter

/-!
# C59: counters of the example computer

Like timers, counters are not run edge by edge but looked at now and then. `Feeds t i r inv pending` says what `pending`
means: in a state of the triggers that meets `inv`, the edges that channel `i` has yet to be told of, up to a time.
-/

namespace Z80.Ral
open Spec.Ral

variable {W : Type} {t : Triggers W} {i : Fin 4} {seen : W → List Nat} {inv : W → Prop} {pending : W → Nat → List Nat}

/-- **C59.** A control word (counter, reset, constant follows) written to a channel in any state, and the constant, make
it a counter of the chosen edges that shows its constant. -/
theorem C59_start {word n : U8} {ts ts' : Nat} {c c1 c2 : CtcChannel} {w w1 w2 : W} {b1 b2 : Bool}
    (ha : c.awaiting = false) (h0 : word.getLsbD 0 = true) (h1 : word.getLsbD 1 = true)
    (h2 : word.getLsbD 2 = true) (h6 : word.getLsbD 6 = true)
    (e1 : c.writeControl t i word ts w = some (b1, c1, w1)) (e2 : c1.writeControl t i n ts' w1 = some (b2, c2, w2)) :
    Counts c2 n ∧ c2.current = n ∧ c2.rising = word.getLsbD 4 ∧ c2.intsEnabled = word.getLsbD 7 ∧
      c2.awaiting = false ∧ b1 = true ∧ b2 = true := by
  simp only [CtcChannel.writeControl, Option.bind_eq_bind, Option.bind_eq_some_iff] at e1
  obtain ⟨⟨c3, w3⟩, hp, e1⟩ := e1
  have hset := CtcChannel.process_setup hp
  simp only [CtcChannel.setup, Prod.mk.injEq] at hset
  rw [hset.2.2.2.1, ha, h0, if_neg (by simp), if_pos rfl] at e1
  simp only [Option.bind_eq_some_iff] at e1
  obtain ⟨c4, hc, e1⟩ := e1
  obtain ⟨q1, q2, q3, q4⟩ := CtcChannel.control_counter h1 h2 h6 hc
  have hc1 : c1.mode = .counter ∧ c1.restart = none ∧ c1.awaiting = true ∧ c1.intsEnabled = word.getLsbD 7 ∧
      c1.rising = word.getLsbD 4 ∧ b1 = true := by
    split at e1
    · simp only [Option.bind_eq_some_iff] at e1
      obtain ⟨⟨c5, w5⟩, he, e1⟩ := e1
      cases e1
      simp only [CtcChannel.edgeChanged, q2] at he
      cases he
      exact ⟨q1, rfl, q3, q4, rfl, rfl⟩
    · rename_i hr
      cases e1
      exact ⟨q1, q2, q3, q4, by simpa using hr, rfl⟩
  obtain ⟨q1, q2, q3, q4, q5, q6⟩ := hc1
  simp only [CtcChannel.writeControl, Option.bind_eq_bind, Option.bind_eq_some_iff] at e2
  obtain ⟨⟨c6, w6⟩, hp2, e2⟩ := e2
  obtain ⟨k, hk, rfl⟩ := CtcChannel.process_idle q2 hp2
  simp only [q3, if_true, Option.bind_eq_some_iff] at e2
  obtain ⟨c7, hw, e2⟩ := e2
  cases e2
  simp only [CtcChannel.writeConstant, q1, q2, Option.isNone_none, if_true] at hw
  cases hw
  exact ⟨⟨rfl, rfl⟩, rfl, q5, q4, rfl, q6, rfl⟩

/-- One look at a counter. -/
theorem process_counts {n : U8} {ts : Nat} {c c' : CtcChannel} {w w' : W} (hf : Feeds t i c.rising inv pending)
    (hr : Records t i seen) (hs : ∀ ts w r w', t.nextClkTrg i c.rising ts w = some (r, w') → seen w' = seen w)
    (hc : Counts c n) (hi : inv w) (h : c.process t i ts w = some (c', w')) :
    ∃ done, inv w' ∧ (∀ b, ts ≤ b → pending w b = done ++ pending w' b) ∧
      seen w' = seen w ++ (counted n c.current done).1 ∧
      c'.current = (counted n c.current done).2 ∧
      c'.intActive = (c.intActive || c.intsEnabled && !(counted n c.current done).1.isEmpty) ∧
      c'.setup = c.setup ∧
      (((counted n c.current done).1 ≠ [] ∧ c'.hint = 0) ∨
        ((counted n c.current done).1 = [] ∧ pending w' ts = [] ∧
          ∀ b, ts ≤ b → b < c'.hint → pending w' b = [])) := by
  simp only [CtcChannel.process, hc.mode, hc.restart] at h
  obtain ⟨done, i0, i1, i2, i3⟩ := countLoop_spec _ _ _ _ _ hf hi h
  exact ⟨done, i0, i1, i2 seen hr hs, i3⟩

/-- **C59.** However often a counter is looked at, at times that do not go back: it counts the edges that wait for it,
each once and in order, sends a pulse with the exact time of the edge for each zero and no other, has raised its
interrupt if there was a zero and interrupts are enabled, and shows the counts still to go. After the last look no edge
is left up to then, unless the channel wants to be looked at again at once; and none comes before the time it
announces. -/
theorem C59_counts (hr : Records t i seen) {n : U8} {c' : CtcChannel} {w' : W} :
    ∀ (l : List Nat) (a : Nat) (c : CtcChannel) (w : W), Feeds t i c.rising inv pending →
      (∀ ts w r w', t.nextClkTrg i c.rising ts w = some (r, w') → seen w' = seen w) → Counts c n → inv w →
      List.Pairwise (· ≤ ·) (a :: l) → looks t i l c w = some (c', w') →
      let last := (a :: l).getLast (by simp)
      ∃ done, inv w' ∧ (∀ b, last ≤ b → pending w b = done ++ pending w' b) ∧
        seen w' = seen w ++ (counted n c.current done).1 ∧ c'.current = (counted n c.current done).2 ∧
        c'.intActive = (c.intActive || c.intsEnabled && !(counted n c.current done).1.isEmpty) ∧
        c'.setup = c.setup ∧ Counts c' n ∧
        (l = [] ∨ c'.hint = 0 ∨
          (pending w' last = [] ∧ ∀ b, last ≤ b → b < c'.hint → pending w' b = []))
  | [], a, c, w, hf, hs, hc, hi, hp, h => by
    cases h
    exact ⟨[], hi, fun _ _ => rfl, by simp [counted], rfl, by simp [counted], rfl, hc, Or.inl rfl⟩
  | ts :: l, a, c, w, hf, hs, hc, hi, hp, h => by
    intro last
    simp only [looks] at h
    split at h
    · rename_i c1 w1 h1
      obtain ⟨d1, k0, k1, k2, k3, k4, k5, k6⟩ := process_counts hf hr hs hc hi h1
      have hc1 : Counts c1 n := by
        simp only [CtcChannel.setup, Prod.mk.injEq] at k5
        exact ⟨k5.1.trans hc.mode, k5.2.2.1.trans hc.restart⟩
      have hri : c1.rising = c.rising := by
        simp only [CtcChannel.setup, Prod.mk.injEq] at k5
        exact k5.2.2.2.2.2.2
      have hie : c1.intsEnabled = c.intsEnabled := by
        simp only [CtcChannel.setup, Prod.mk.injEq] at k5
        exact k5.2.2.2.2.2.1
      have hp' := (List.pairwise_cons.1 hp).2
      obtain ⟨d2, j0, j1, j2, j3, j4, j5, j6, j7⟩ :=
        C59_counts hr l ts c1 w1 (hri ▸ hf) (hri ▸ hs) hc1 k0 hp' h
      have hlast : last = (ts :: l).getLast (by simp) := rfl
      have hle : ts ≤ last := by
        rw [hlast]
        rcases List.mem_cons.1 (List.getLast_mem (l := ts :: l) (by simp)) with e | e
        · omega
        · exact (List.pairwise_cons.1 hp').1 _ e
      refine ⟨d1 ++ d2, j0, fun b hb => ?_, ?_, ?_, ?_, j5.trans k5, j6, Or.inr ?_⟩
      · rw [k1 b (by omega), j1 b hb, List.append_assoc]
      · rw [j2, k2, counted_append, k3, List.append_assoc]
      · rw [j3, counted_append, k3]
      · rw [j4, k4, counted_append, k3, hie]
        cases c.intActive <;> cases c.intsEnabled <;> cases (counted n c.current d1).1 <;> simp
      · cases l with
        | nil =>
          cases h
          rcases k6 with ⟨-, k6⟩ | ⟨-, k6⟩
          · exact Or.inl k6
          · exact Or.inr k6
        | cons x l =>
          rcases j7 with j7 | j7
          · cases j7
          · exact j7
    · cases h

/-- **C59.** A counter that is looked at often enough has counted everything: one look more than there are edges. -/
theorem C59_all (hr : Records t i seen) {n : U8} {ts : Nat} {c' : CtcChannel} {w' : W} :
    ∀ (k : Nat) (c : CtcChannel) (w : W), Feeds t i c.rising inv pending →
      (∀ ts w r w', t.nextClkTrg i c.rising ts w = some (r, w') → seen w' = seen w) → Counts c n → inv w →
      (pending w ts).length < k → looks t i (List.replicate k ts) c w = some (c', w') →
      seen w' = seen w ++ (counted n c.current (pending w ts)).1 ∧ pending w' ts = [] ∧
        c'.current = (counted n c.current (pending w ts)).2 := by
  intro k c w hf hs hc hi hk h
  have key : ∀ (k : Nat) (c : CtcChannel) (w : W), Feeds t i c.rising inv pending →
      (∀ ts w r w', t.nextClkTrg i c.rising ts w = some (r, w') → seen w' = seen w) → Counts c n → inv w →
      (pending w ts).length < k ∨ pending w ts = [] → looks t i (List.replicate k ts) c w = some (c', w') →
      pending w' ts = [] := by
    intro k
    induction k with
    | zero =>
      intro c w hf hs hc hi hk h
      cases h
      simpa using hk
    | succ k ih =>
      intro c w hf hs hc hi hk h
      simp only [List.replicate_succ, looks] at h
      split at h
      · rename_i c1 w1 h1
        obtain ⟨d1, k0, k1, k2, k3, k4, k5, k6⟩ := process_counts hf hr hs hc hi h1
        simp only [CtcChannel.setup, Prod.mk.injEq] at k5
        have hri : c1.rising = c.rising := k5.2.2.2.2.2.2
        refine ih c1 w1 (hri ▸ hf) (hri ▸ hs) ⟨k5.1.trans hc.mode, k5.2.2.1.trans hc.restart⟩ k0 ?_ h
        have hl := k1 ts (Nat.le_refl _)
        rcases k6 with ⟨k6, -⟩ | ⟨-, k6, -⟩
        · cases d1 with
          | nil => exact absurd rfl k6
          | cons x d1 =>
            rcases hk with hk | hk
            · rw [hl] at hk; simp at hk; left; omega
            · rw [hl] at hk; simp at hk
        · exact Or.inr k6
      · cases h
  have hnil := key k c w hf hs hc hi (Or.inl hk) h
  have hpw : List.Pairwise (· ≤ ·) (ts :: List.replicate k ts) := by
    rw [← List.replicate_succ]
    exact List.pairwise_replicate.2 (Or.inr (Nat.le_refl _))
  obtain ⟨done, -, j1, j2, j3, -⟩ := C59_counts hr _ ts c w hf hs hc hi hpw h
  have hlast : (ts :: List.replicate k ts).getLast (by simp) = ts := by
    have := List.getLast_mem (l := ts :: List.replicate k ts) (by simp)
    rcases List.mem_cons.1 this with e | e
    · exact e
    · exact List.eq_of_mem_replicate e
  have hd := j1 ts (by rw [hlast]; exact Nat.le_refl _)
  rw [hnil, List.append_nil] at hd
  rw [hd]
  exact ⟨j2, hnil, j3⟩

/-! ### The triggers of the computer -/

/-- The clock or collector of a channel: channels 0 and 1 share one, and so do 2 and 3. -/
def Side (i : Fin 4) {m : Nat} (w : CtcActive m × CtcActive m) : CtcActive m := if i.val < 2 then w.1 else w.2

/-- **C59.** Channels 0 and 2 are fed by the external clock: their edges are the odd or even multiples of half its
period. -/
theorem C59_clock (bound m h : Nat) (r : Bool) (i : Fin 4) (hi : i = 0 ∨ i = 2) :
    Feeds (ralTriggers bound m) i r (fun w => InPhase h (Side i w)) fun w b => clockEdges h r (Side i w).periodTs b := by
  rcases hi with rfl | rfl <;> constructor
  · intro ts w x w' hi e
    simp only [ralTriggers, Option.map_eq_some_iff] at e
    obtain ⟨⟨y, a⟩, ha, e⟩ := e
    cases e
    exact active_ok hi ha
  · intro ts w x w' hi e
    simp only [ralTriggers, Option.map_eq_some_iff] at e
    obtain ⟨⟨y, a⟩, ha, e⟩ := e
    cases e
    exact active_wait hi ha
  · intro x w w' hi e
    simp only [ralTriggers, Option.map_eq_some_iff] at e
    obtain ⟨a, ha, e⟩ := e
    cases e
    simp only [CtcActive.pulse] at ha
    split at ha
    · cases ha; exact ⟨hi, fun _ => rfl⟩
    · cases ha
  · intro ts w x w' hi e
    simp only [ralTriggers, Option.map_eq_some_iff] at e
    obtain ⟨⟨y, a⟩, ha, e⟩ := e
    cases e
    exact active_ok hi ha
  · intro ts w x w' hi e
    simp only [ralTriggers, Option.map_eq_some_iff] at e
    obtain ⟨⟨y, a⟩, ha, e⟩ := e
    cases e
    exact active_wait hi ha
  · intro x w w' hi e
    simp only [ralTriggers, Option.map_eq_some_iff] at e
    obtain ⟨a, ha, e⟩ := e
    cases e
    simp only [CtcActive.pulse] at ha
    split at ha
    · cases ha; exact ⟨hi, fun _ => rfl⟩
    · cases ha

/-- **C59.** Channels 1 and 3 are fed by the pulses that channels 0 and 2 have sent; a pulse takes two T-states.
They leave the clock alone. -/
theorem C59_chained (bound m : Nat) (r : Bool) (k : Nat × Nat × Bool) (i : Fin 4) (hi : i = 1 ∨ i = 3) :
    Feeds (ralTriggers bound m) i r (fun w => (Side i w).clock = k) fun w b => pulseEdges r (Side i w).next.queue b := by
  rcases hi with rfl | rfl <;> constructor
  · intro ts w x w' hi e
    simp only [ralTriggers, Option.map_eq_some_iff] at e
    obtain ⟨⟨y, a⟩, ha, e⟩ := e
    cases e
    exact ⟨(passive_clock ha).trans hi, passive_ok ha⟩
  · intro ts w x w' hi e
    simp only [ralTriggers, Option.map_eq_some_iff] at e
    obtain ⟨⟨y, a⟩, ha, e⟩ := e
    cases e
    obtain ⟨rfl, h⟩ := passive_wait ha
    exact ⟨hi, fun _ _ => rfl, h⟩
  · intro x w w' hi e
    cases e
    exact ⟨hi, fun _ => rfl⟩
  · intro ts w x w' hi e
    simp only [ralTriggers, Option.map_eq_some_iff] at e
    obtain ⟨⟨y, a⟩, ha, e⟩ := e
    cases e
    exact ⟨(passive_clock ha).trans hi, passive_ok ha⟩
  · intro ts w x w' hi e
    simp only [ralTriggers, Option.map_eq_some_iff] at e
    obtain ⟨⟨y, a⟩, ha, e⟩ := e
    cases e
    obtain ⟨rfl, h⟩ := passive_wait ha
    exact ⟨hi, fun _ _ => rfl, h⟩
  · intro x w w' hi e
    cases e
    exact ⟨hi, fun _ => rfl⟩

/-- **C59.** Setting the clock back by whole periods shifts the edges to come and changes nothing else, if the channel
has been looked at since. -/
theorem C59_second {m h k : Nat} {a : CtcActive m} (hi : InPhase h a) (hk : k * (2 * h) ≤ a.periodTs) (r : Bool) (b : Nat) :
    InPhase h (a.nextSecond (k * (2 * h))) ∧ clockEdges h r (a.nextSecond (k * (2 * h))).periodTs b =
      (clockEdges h r a.periodTs (b + k * (2 * h))).map (· - k * (2 * h)) := by
  obtain ⟨hh, h0, j, hj, hl⟩ := hi
  have hd : k * (2 * h) = 2 * k * h := by rw [Nat.mul_comm 2 k, Nat.mul_assoc]
  constructor
  · refine ⟨hh, h0, j - 2 * k, ?_, ?_⟩
    · simp only [CtcActive.nextSecond, hj, hd, Nat.sub_mul]
    · rw [hj, hd] at hk
      have := Nat.le_of_mul_le_mul_right hk h0
      simp only [CtcActive.nextSecond, hl]
      congr 2
      omega
  · exact clockEdges_shift h0 hd hk

/-- Channels `i` and `j` looked at one after the other, at the given times. -/
def looks2 (t : Triggers W) (i j : Fin 4) : List Nat → CtcChannel × CtcChannel × W →
    Option (CtcChannel × CtcChannel × W)
  | [], x => some x
  | ts :: l, (c, d, w) => match c.process t i ts w with
    | some (c, w) => match d.process t j ts w with
      | some (d, w) => looks2 t i j l (c, d, w)
      | none => none
    | none => none

/-- **C59.** A counter of the pulses of another counter (channels 0 and 1, or 2 and 3): the second counts exactly the
zeros of the first, one edge for each, in order, at its time or two T-states later; what it has not counted yet is in the
collector. The first counts the edges of the clock, whatever the second does. -/
theorem C59_cascade {bound m h : Nat} {i j : Fin 4} (hij : i = 0 ∧ j = 1 ∨ i = 2 ∧ j = 3) {n n' : U8}
    {c' d' : CtcChannel} {w' : CtcActive m × CtcActive m} :
    ∀ (l : List Nat) (a : Nat) (c d : CtcChannel) (w : CtcActive m × CtcActive m), Counts c n → Counts d n' →
      InPhase h (Side i w) → List.Pairwise (· ≤ ·) (a :: l) →
      looks2 (ralTriggers bound m) i j l (c, d, w) = some (c', d', w') →
      let last := (a :: l).getLast (by simp)
      let late := if d.rising then 0 else 2
      ∃ done done', (∀ b, last ≤ b → clockEdges h c.rising (Side i w).periodTs b =
          done ++ clockEdges h c.rising (Side i w').periodTs b) ∧
        c'.current = (counted n c.current done).2 ∧
        ((Side i w).next.queue ++ (counted n c.current done).1).map (· + late) =
          done' ++ (Side i w').next.queue.map (· + late) ∧
        d'.current = (counted n' d.current done').2 ∧
        d'.intActive = (d.intActive || d.intsEnabled && !(counted n' d.current done').1.isEmpty)
  | [], a, c, d, w, hc, hd, hi, hp, e => by
    cases e
    exact ⟨[], [], fun _ _ => rfl, rfl, by simp [counted], rfl, by simp [counted]⟩
  | ts :: l, a, c, d, w, hc, hd, hi, hp, e => by
    intro last late
    simp only [looks2] at e
    split at e
    · rename_i c1 w1 e1
      split at e
      · rename_i d1 w2 e2
        have hp' := (List.pairwise_cons.1 hp).2
        have hle : ts ≤ last := by
          rcases List.mem_cons.1 (List.getLast_mem (l := ts :: l) (by simp)) with e | e
          · exact Nat.le_of_eq e.symm
          · exact (List.pairwise_cons.1 hp').1 _ e
        have hseen : Records (ralTriggers bound m) i (fun w => (Side i w).next.queue) := by
          rcases hij with ⟨rfl, -⟩ | ⟨rfl, -⟩
          · exact (C57_active bound m).1
          · exact (C57_active bound m).2
        have hkeep : ∀ ts w r w', (ralTriggers bound m).nextClkTrg i c.rising ts w = some (r, w') →
            (Side i w').next.queue = (Side i w).next.queue := by
          intro ts w r w' e
          rcases hij with ⟨rfl, -⟩ | ⟨rfl, -⟩ <;>
          · simp only [ralTriggers, Option.map_eq_some_iff] at e
            obtain ⟨⟨y, a⟩, ha, e⟩ := e
            cases e
            exact congrArg CtcPulse.queue (CtcActive.nextClkTrg_next ha)
        have hif : i = 0 ∨ i = 2 := by rcases hij with ⟨rfl, -⟩ | ⟨rfl, -⟩ <;> simp
        have hjf : j = 1 ∨ j = 3 := by rcases hij with ⟨-, rfl⟩ | ⟨-, rfl⟩ <;> simp
        have hside : ∀ w : CtcActive m × CtcActive m, Side j w = Side i w := by
          rcases hij with ⟨rfl, rfl⟩ | ⟨rfl, rfl⟩ <;> intro w <;> rfl
        obtain ⟨x1, a0, a1, a2, a3, -, a5, -⟩ := process_counts (C59_clock bound m h c.rising i hif) hseen hkeep hc hi e1
        have hd2 := hd
        simp only [CtcChannel.process, hd.mode, hd.restart] at e2
        obtain ⟨y1, b0, b1, -, b3, b4, b5, -⟩ :=
          countLoop_spec _ _ _ _ _ (C59_chained bound m d.rising (Side j w1).clock j hjf) rfl e2
        simp only [CtcChannel.setup, Prod.mk.injEq] at a5 b5
        have hc1 : Counts c1 n := ⟨a5.1.trans hc.mode, a5.2.2.1.trans hc.restart⟩
        have hd1 : Counts d1 n' := ⟨b5.1.trans hd.mode, b5.2.2.1.trans hd.restart⟩
        have hri : c1.rising = c.rising := a5.2.2.2.2.2.2
        have hrd : d1.rising = d.rising := b5.2.2.2.2.2.2
        have hie : d1.intsEnabled = d.intsEnabled := b5.2.2.2.2.2.1
        simp only [CtcActive.clock, hside, Prod.mk.injEq] at b0
        obtain ⟨z1, z2, z3⟩ := b0
        have hi2 : InPhase h (Side i w2) := by
          unfold InPhase
          rw [z1, z2, z3]
          exact a0
        obtain ⟨x2, y2, k1, k2, k3, k4, k5⟩ := C59_cascade hij l ts c1 d1 w2 hc1 hd1 hi2 hp' e
        rw [hri, z2] at k1
        rw [hrd] at k3
        have hq : (Side i w1).next.queue.map (· + late) = y1 ++ (Side i w2).next.queue.map (· + late) := by
          obtain ⟨B, hB, hB1, hB2⟩ := bound_of ts (Side i w1).next.queue (Side i w2).next.queue
          have := b1 B hB
          simp only [hside] at this
          rwa [pulseEdges_all hB1, pulseEdges_all hB2] at this
        refine ⟨x1 ++ x2, y1 ++ y2, fun b hb => ?_, ?_, ?_, ?_, ?_⟩
        · rw [a1 b (by omega), k1 b hb, List.append_assoc]
        · rw [k2, counted_append, a3]
        · rw [counted_append, ← a3, ← List.append_assoc, ← a2, List.map_append, hq, List.append_assoc,
            ← List.map_append, k3, List.append_assoc]
        · rw [k4, counted_append, b3]
        · rw [k5, b4, counted_append, b3, hie]
          cases d.intActive <;> cases d.intsEnabled <;> cases (counted n' d.current y1).1 <;> simp
      · cases e
    · cases e

/-- **C59.** A counter of the pulses of a timer: it counts exactly the zeros of the timer, whenever the two are looked
at. -/
theorem C59_timer_cascade {bound m : Nat} {i j : Fin 4} (hij : i = 0 ∧ j = 1 ∨ i = 2 ∧ j = 3) {n n' : U8}
    {c' d' : CtcChannel} {w' : CtcActive m × CtcActive m} :
    ∀ (l : List Nat) (a z : Nat) (c d : CtcChannel) (w : CtcActive m × CtcActive m), Ticks c n a z → Counts d n' →
      looks2 (ralTriggers bound m) i j l (c, d, w) = some (c', d', w') →
      let b := l.foldl max a
      let late := if d.rising then 0 else 2
      ∃ done', ((Side i w).next.queue ++ zeros z (period n c.prescaler.prescale) b).map (· + late) =
          done' ++ (Side i w').next.queue.map (· + late) ∧
        d'.current = (counted n' d.current done').2 ∧
        d'.intActive = (d.intActive || d.intsEnabled && !(counted n' d.current done').1.isEmpty)
  | [], a, z, c, d, w, hc, hd, e => by
    cases e
    refine ⟨[], ?_, rfl, by simp [counted]⟩
    rw [show List.foldl max a [] = a from rfl, zeros_lt hc.later]
    simp
  | ts :: l, a, z, c, d, w, hc, hd, e => by
    intro b late
    simp only [looks2] at e
    split at e
    · rename_i c1 w1 e1
      split at e
      · rename_i d1 w2 e2
        have hseen : Records (ralTriggers bound m) i (fun w => (Side i w).next.queue) := by
          rcases hij with ⟨rfl, -⟩ | ⟨rfl, -⟩
          · exact (C57_active bound m).1
          · exact (C57_active bound m).2
        have hjf : j = 1 ∨ j = 3 := by rcases hij with ⟨-, rfl⟩ | ⟨-, rfl⟩ <;> simp
        have hside : ∀ w : CtcActive m × CtcActive m, Side j w = Side i w := by
          rcases hij with ⟨rfl, rfl⟩ | ⟨rfl, rfl⟩ <;> intro w <;> rfl
        have hp : 0 < period n c.prescaler.prescale := period_pos n (prescale_pos _)
        obtain ⟨i1, i2, -⟩ := process_ticks hc ts e1
        have i2 := i2 _ hseen
        have hpre : c1.prescaler = c.prescaler := by
          have := CtcChannel.process_setup e1
          simp only [CtcChannel.setup, Prod.mk.injEq] at this; exact this.2.1
        simp only [CtcChannel.process, hd.mode, hd.restart] at e2
        obtain ⟨y1, -, b1, -, b3, b4, b5, -⟩ :=
          countLoop_spec _ _ _ _ _ (C59_chained bound m d.rising (Side j w1).clock j hjf) rfl e2
        simp only [CtcChannel.setup, Prod.mk.injEq] at b5
        have hd1 : Counts d1 n' := ⟨b5.1.trans hd.mode, b5.2.2.1.trans hd.restart⟩
        have hrd : d1.rising = d.rising := b5.2.2.2.2.2.2
        have hie : d1.intsEnabled = d.intsEnabled := b5.2.2.2.2.2.1
        obtain ⟨y2, k3, k4, k5⟩ := C59_timer_cascade hij l _ _ c1 d1 w2 i1 hd1 e
        rw [hrd, hpre] at k3
        have hb : max a ts ≤ b := by
          have : ∀ (l : List Nat) (x : Nat), x ≤ l.foldl max x := by
            intro l
            induction l with
            | nil => exact fun x => Nat.le_refl _
            | cons y l ih => exact fun x => Nat.le_trans (Nat.le_max_left x y) (ih _)
          exact this l _
        obtain ⟨q1, -⟩ := zeros_append (p := period n c.prescaler.prescale) hp hb _ z (Nat.le_refl _)
        have hq : (Side i w1).next.queue.map (· + late) = y1 ++ (Side i w2).next.queue.map (· + late) := by
          obtain ⟨B, hB, hB1, hB2⟩ := bound_of ts (Side i w1).next.queue (Side i w2).next.queue
          have := b1 B hB
          simp only [hside] at this
          rwa [pulseEdges_all hB1, pulseEdges_all hB2] at this
        refine ⟨y1 ++ y2, ?_, ?_, ?_⟩
        · rw [q1, ← List.append_assoc, ← i2, List.map_append, hq, List.append_assoc, ← List.map_append, List.append_assoc]
          exact congrArg (y1 ++ ·) k3
        · rw [k4, counted_append, b3]
        · rw [k5, b4, counted_append, b3, hie]
          cases d.intActive <;> cases d.intsEnabled <;> cases (counted n' d.current y1).1 <;> simp
      · cases e
    · cases e

/-- A fresh clock is in phase. -/
theorem C59_new {m p : Nat} {a : CtcActive m} (hp : 0 < p) (h : CtcActive.new m p = some a) :
    InPhase (p / 2) a ∧ a.periodTs = 0 ∧ a.next.queue = [] := by
  simp only [CtcActive.new] at h
  split at h
  · rename_i he
    cases h
    exact ⟨⟨rfl, by omega, 0, by simp, rfl⟩, rfl, by simp [CtcPulse.queue, CtcPulse.new]⟩
  · cases h

/-- The hypotheses are met: channel 0 counts rising edges of a clock with a period of 10 T-states, 3 at a time, and
channel 1 its zeros, 2 at a time. Looked at from time to time, at 100 channel 0 has counted the edges 5, 15, .. 95 and
had zeros at 25, 55, 85; channel 1 had one zero, at 55, and shows one count to go. -/
example : (do
    let a ← CtcActive.new 4 10
    let t := ralTriggers 100 4
    let (_, c, w) ← (CtcChannel.new).writeControl t 0 0xD7#8 0 (a, a)
    let (_, c, w) ← c.writeControl t 0 3#8 1 w
    let (_, d, w) ← (CtcChannel.new).writeControl t 1 0xD7#8 2 w
    let (_, d, w) ← d.writeControl t 1 2#8 3 w
    let (c, d, w) ← looks2 t 0 1 [20, 40, 41, 60, 61, 70, 90, 91, 100] (c, d, w)
    return ((c.current, c.intActive), (d.current, d.intActive), (Side 0 w).next.queue, (Side 0 w).periodTs)) =
  some ((2#8, true), (1#8, true), [], 100) := by decide +kernel

example : clockEdges 5 true 0 100 = [5, 15, 25, 35, 45, 55, 65, 75, 85, 95] ∧
    counted 3#8 3#8 (clockEdges 5 true 0 100) = ([25, 55, 85], 2#8) ∧
    counted 2#8 2#8 (pulseEdges true [25, 55, 85] 100) = ([55], 1#8) := by decide +kernel

end Z80.Ral
