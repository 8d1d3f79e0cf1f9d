import Verif.Proofs.Pace
import Verif.Props.Clock
import Verif.Props.Limit

/-! # Laps of `execute_with_limit` against a clock -/

set_option linter.constructorNameAsVariable false

namespace Z80
open Spec

section
variable {Q : Type} [Flavour Q]

/-- A larger bound on the number of iterations does not change a run that ended. -/
theorem run_le {σ : Sig} {S α : Type} {p q : Prog σ (Option α)} (h : p.Le q) (H : Handler σ S) {s s' : S}
    {a : α} (hp : p.run H s = (some a, s')) : q.run H s = (some a, s') := by
  induction p generalizing q s with
  | ret b =>
    injection hp with h1 h2
    subst h1
    rw [show q = _ from h, ← h2]
    rfl
  | call r k ih =>
    obtain ⟨k', rfl, h⟩ := h
    exact ih _ (h _) hp

/-- `execute_with_limit` on the host `H` returns with the result `e`, in the state `c'` of the CPU
and `s'` of the host, whatever (sufficient) number of iterations the model allows. -/
def ReturnsWith {S : Type} {σ : Sig} (H : Handler σ S) (l : σ.L) (c : Cpu Q) (s : S) (e : Res σ)
    (c' : Cpu Q) (s' : S) : Prop :=
  ∃ n, ∀ m, n ≤ m → (executeWithLimit m l c).run H s = (some (e, c'), s')

theorem returns_of {S : Type} {σ : Sig} {H : Handler σ S} {l : σ.L} {c : Cpu Q} {s : S} {e : Res σ}
    {c' : Cpu Q} {s' : S} {n : Nat} (h : (executeWithLimit n l c).run H s = (some (e, c'), s')) :
    ReturnsWith H l c s e c' s' := ⟨n, fun _ hm => run_le (limit_le hm l c) H h⟩

end

section
variable {σ : Sig} {Q : Type} [FlavourSpec Q]

theorem clocked_test (l : σ.L) (x : Bool) (t : List (Ev σ)) :
    clocked (⟨.isPastLimit l, x⟩ :: t) = clocked t := Nat.zero_add _

theorem laps_clocked {l : σ.L} {n : Nat} {t : List (Ev σ)} (h : Laps l n t) : 4 * n ≤ clocked t := by
  induction h with
  | part h => exact Nat.zero_le _
  | full h => have := h.lo; omega
  | past h =>
    rw [clocked_append]
    have := h.lo; omega
  | lap h _ ih =>
    rw [clocked_append, clocked_test]
    have := h.lo; omega

theorem split_at {u v a b : List (Ev σ)} {x e : Ev σ} (hu : ∀ e ∈ u, e.tests = false)
    (he : e.tests = true) (h : u ++ x :: v = a ++ e :: b) :
    a = u ∧ e = x ∧ b = v ∨ ∃ a', a = u ++ x :: a' ∧ v = a' ++ e :: b := by
  induction u generalizing a with
  | nil =>
    cases a with
    | nil => injection h with h1 h2; exact .inl ⟨rfl, h1.symm, h2.symm⟩
    | cons z a =>
      injection h with h1 h2
      subst h1
      exact .inr ⟨a, rfl, h2⟩
  | cons z u ih =>
    cases a with
    | nil =>
      injection h with h1 h2
      subst h1
      rw [hu _ (List.mem_cons_self ..)] at he
      cases he
    | cons w a =>
      injection h with h1 h2
      subst h1
      rcases ih (fun e he => hu e (List.mem_cons_of_mem _ he)) h2 with ⟨rfl, h3, h4⟩ | ⟨a', rfl, h3⟩
      · exact .inl ⟨rfl, h3, h4⟩
      · exact .inr ⟨a', rfl, h3⟩

theorem split_tested {u b d v : List (Ev σ)} {x : Ev σ} (hu : ∀ e ∈ u, e.tests = false)
    (hx : x.tests = true) (hb : ∀ e ∈ b, e.tests = false) (hd : Tested d)
    (h : u ++ x :: v = b ++ d) : b = u ∧ d = x :: v := by
  cases d with
  | nil =>
    have : x ∈ b := by
      rw [List.append_nil] at h
      rw [← h]
      simp
    rw [hb x this] at hx
    cases hx
  | cons e d =>
    rcases split_at hu (hd e d rfl) h with ⟨h1, h2, h3⟩ | ⟨a', rfl, h3⟩
    · rw [h1, h2, h3]; exact ⟨rfl, rfl⟩
    · rw [hb x (by simp)] at hx
      cases hx

theorem Took.lap {a : Nat} {u : List (Ev σ)} (h : Took a 23 2 u) : Lap u := ⟨h.hi, h.dev, h.wait⟩

theorem took_lap {k : Nat} {t : List (Ev σ)} (h : Took k 23 2 t) {x e : Ev σ}
    {a b d : List (Ev σ)} (he : e.tests = true) (ht : x :: t = a ++ e :: (b ++ d))
    (hd : Tested d) : Lap b ∧ (d ≠ [] → 4 ≤ clocked b) := by
  cases a with
  | nil =>
    injection ht with h1 h2
    subst h2
    cases d with
    | nil =>
      rw [List.append_nil] at h
      exact ⟨h.lap, fun h => absurd rfl h⟩
    | cons f d =>
      have := h.calm f (by simp)
      rw [hd f d rfl] at this
      cases this
  | cons y a =>
    injection ht with h1 h2
    have := h.calm e (by rw [h2]; simp)
    rw [he] at this
    cases this

theorem laps_lap {l : σ.L} {n : Nat} {t : List (Ev σ)} (h : Laps l n t) {x e : Ev σ}
    {a b d : List (Ev σ)} (he : e.tests = true) (ht : x :: t = a ++ e :: (b ++ d))
    (hb : ∀ e ∈ b, e.tests = false) (hd : Tested d) : Lap b ∧ (d ≠ [] → 4 ≤ clocked b) := by
  induction h generalizing x a with
  | part h => exact took_lap h he ht hd
  | full h => exact took_lap h he ht hd
  | @past u h =>
    cases a with
    | nil =>
      injection ht with h1 h2
      obtain ⟨rfl, rfl⟩ := split_tested h.calm rfl hb hd h2
      exact ⟨h.lap, fun _ => h.lo⟩
    | cons y a =>
      injection ht with h1 h2
      rcases split_at h.calm he h2 with ⟨rfl, h3, h4⟩ | ⟨a', rfl, h4⟩
      · obtain ⟨rfl, rfl⟩ := List.append_eq_nil_iff.1 h4
        exact ⟨⟨Nat.zero_le _, Nat.zero_le _, rfl⟩, fun h => absurd rfl h⟩
      · cases a' <;> cases h4
  | @lap u t n h h' ih =>
    cases a with
    | nil =>
      injection ht with h1 h2
      obtain ⟨rfl, rfl⟩ := split_tested h.calm rfl hb hd h2
      exact ⟨h.lap, fun _ => h.lo⟩
    | cons y a =>
      injection ht with h1 h2
      rcases split_at h.calm he h2 with ⟨rfl, h3, h4⟩ | ⟨a', rfl, h4⟩
      · exact ih (x := e) (a := []) (by rw [h4]; rfl)
      · exact ih (x := e) (a := e :: a') (by rw [h4]; rfl)

theorem elapsed_eq (t : List (Ev σ)) : elapsed t = clocked t + Spec.waited t := by
  induction t with
  | nil => rfl
  | cons e t ih =>
    have : elapsed (e :: t) = passes e.req + elapsed t := rfl
    rw [this, ih]
    show _ = (e.base + clocked t) + (e.waited + Spec.waited t)
    obtain ⟨r, x⟩ := e
    cases r <;> simp only [passes, Ev.base, Ev.waited] <;> omega

theorem elapsed_append (t u : List (Ev σ)) : elapsed (t ++ u) = elapsed t + elapsed u := by
  simp [elapsed]

theorem asked_le {W : Nat} {t : List (Ev σ)} (h : ∀ e ∈ t, e.asked ≤ W) :
    asked t ≤ accesses t * W := by
  induction t with
  | nil => exact Nat.zero_le _
  | cons e t ih =>
    have h1 : asked (e :: t) = e.asked + asked t := rfl
    have h2 : accesses (e :: t) = e.access + accesses t := rfl
    have h3 := ih fun e he => h e (List.mem_cons_of_mem _ he)
    have h4 : e.asked ≤ e.access * W := by
      have := h e (List.mem_cons_self ..)
      obtain ⟨r, x⟩ := e
      cases r <;> simp only [Ev.access, Ev.asked] at this ⊢ <;> omega
    rw [h1, h2, Nat.add_mul]
    omega

theorem took_elapsed {W a : Nat} {u : List (Ev σ)} (h : Took a 23 2 u) (hW : ∀ e ∈ u, e.asked ≤ W) :
    elapsed u ≤ 23 + 2 * W := by
  have h1 := asked_le hW
  have h2 := Nat.mul_le_mul_right W h.dev
  have h3 := h.hi
  rw [elapsed_eq, h.wait]
  omega

/-- While tests of the limit tell the time, laps end soon after the limit. -/
theorem laps_elapsed {l : σ.L} {n W : Nat} {t : List (Ev σ)} (h : Laps l n t)
    (hW : ∀ e ∈ t, e.asked ≤ W) {s D B : Int} (hD : s < D) (hB : D + 22 + 2 * W < B)
    (ht : ∀ a b, t = a ++ ⟨.isPastLimit l, false⟩ :: b → s + elapsed a < B → s + elapsed a < D) :
    s + elapsed t < D + 23 + 2 * W := by
  induction h generalizing s with
  | part h => have := took_elapsed h hW; omega
  | full h => have := took_elapsed h hW; omega
  | past h =>
    have := took_elapsed h fun e he => hW e (List.mem_append_left _ he)
    rw [elapsed_append]
    show s + ((elapsed _ + 0 : Nat) : Int) < _
    omega
  | @lap u t n h h' ih =>
    have h1 := took_elapsed h fun e he => hW e (List.mem_append_left _ he)
    have h2 := ht u t rfl (by omega)
    have h3 := ih (fun e he => hW e (List.mem_append_right _ (List.mem_cons_of_mem _ he)))
      (s := s + elapsed u) h2 fun a b hab hB => by
        have := ht (u ++ ⟨.isPastLimit l, false⟩ :: a) b (by rw [hab, List.append_assoc]; rfl)
        have e : elapsed (u ++ (⟨.isPastLimit l, false⟩ : Ev σ) :: a) = elapsed u + elapsed a := by
          rw [elapsed_append]
          exact congrArg (elapsed u + ·) (Nat.zero_add _)
        rw [e] at this
        omega
    rw [elapsed_append]
    have e : elapsed ((⟨.isPastLimit l, false⟩ : Ev σ) :: t) = elapsed t := Nat.zero_add _
    rw [e]
    omega

end

section
variable {w : Nat} {O R B Q : Type} [FlavourSpec Q]

/-- A counter read as an integer by `v`, while less than `M`. -/
structure TellsTime (H : Handler (tsSig w O R) (BitVec w × B)) (v : BitVec w → Int) (M : Int) : Prop where
  counts : Adds H
  lt : ∀ t, v t < M
  value : ∀ {x t : BitVec w} {n : Nat}, x.toNat = (t.toNat + n) % 2 ^ w → v t + n < M → v x = v t + n
  past : ∀ l s, (H (.isPastLimit l) s).1 = decide (v l ≤ v s.1)

theorem limit_counter_elapsed {H : Handler (tsSig w O R) (BitVec w × B)} {v : BitVec w → Int} {M : Int}
    (hH : TellsTime H v M) {W : Nat} (hW : ∀ r s, Ev.asked ⟨r, (H r s).1⟩ ≤ W) (n : Nat) (l : BitVec w)
    (c : Cpu Q) (t : BitVec w) (b : B) (h0 : 0 < n)
    (hn : v l + 23 + 2 * W ≤ v t + 4 * n) (hl : v l + 22 + 2 * W < M) :
    ∃ e c' t' b', (executeWithLimit n l c).run H (t, b) = (some (e, c'), (t', b')) ∧
      (v l ≤ v t → t' = t ∧ e = .ok) ∧ (v t < v l → v t + 4 ≤ v t' ∧ v t' < v l + 23 + 2 * W) ∧
      (e = .ok → v l ≤ v t') ∧ v t' = v t + elapsed ((executeWithLimit n l c).trace H (t, b)) := by
  have hr := Prog.runs_run H (executeWithLimit n l c) (t, b)
  have ha : ∀ e ∈ (executeWithLimit n l c).trace H (t, b), e.asked ≤ W := by
    intro e he
    obtain ⟨p, q, hpq⟩ := List.append_of_mem he
    obtain ⟨s, h1, h2⟩ := counts_trace hH.counts _ t b hpq
    rw [h2]
    exact hW _ _
  have hs := fun (p : List (Ev (tsSig w O R))) x q
      (hpq : (executeWithLimit n l c).trace H (t, b) = p ++ ⟨.isPastLimit l, x⟩ :: q)
      (hlt : v t + elapsed p < M) => show x = decide (v l ≤ v t + elapsed p) by
    obtain ⟨s, h1, h2⟩ := counts_trace hH.counts _ t b hpq
    have h3 : x = (H (.isPastLimit l) s).1 := congrArg (fun e : Ev (tsSig w O R) =>
      match e with | ⟨.isPastLimit _, y⟩ => y | _ => false) h2
    rw [h3, hH.past, hH.value h1 hlt]
  have hc := counts_run hH.counts (executeWithLimit n l c) t b
  generalize hT : (executeWithLimit n l c).trace H (t, b) = T at *
  generalize hR : (executeWithLimit n l c).run H (t, b) = Z at *
  obtain ⟨r, t', b'⟩ := Z
  dsimp only at hr hc
  rcases limit_laps (σ := tsSig w O R) n l c hr with ⟨rfl, _⟩ | ⟨rfl, h⟩ | ⟨u, rfl, h⟩
  · cases h0
  · have h1 : v l ≤ v t := by
      have := hs [] true [] rfl (by simpa [elapsed] using hH.lt t)
      simpa [elapsed] using this
    have h2 : t' = t := BitVec.eq_of_toNat_eq (hc.trans (Nat.mod_eq_of_lt t.isLt))
    rcases r with _ | ⟨e, c'⟩
    · exact absurd rfl h
    · exact ⟨e, c', t', b', rfl, fun _ => ⟨h2, (C32_reasons hr).1.2 rfl⟩, fun h => absurd h1 (by omega), fun _ => h2 ▸ h1,
        by rw [h2]; exact (Int.add_zero _).symm⟩
  · have h1 : v t < v l := by
      have := hs [] false u rfl (by simpa [elapsed] using hH.lt t)
      simpa [elapsed] using this
    have hb := fun m (h : Laps (σ := tsSig w O R) l m u) =>
      laps_elapsed h (fun e he => ha e (List.mem_cons_of_mem _ he)) h1 hl fun a b hab hlt => by
      have e : elapsed ((⟨.isPastLimit l, false⟩ : Ev (tsSig w O R)) :: a) = elapsed a := Nat.zero_add _
      have := hs (⟨.isPastLimit l, false⟩ :: a) false b (by rw [hab]; rfl) (by rw [e]; exact hlt)
      rw [e] at this
      simpa using this
    have eu : elapsed ((⟨.isPastLimit l, false⟩ : Ev (tsSig w O R)) :: u) = elapsed u :=
      Nat.zero_add _
    rw [eu] at hc
    rcases r with _ | ⟨e, c'⟩
    · obtain ⟨m, hm, h⟩ := h
      have h2 := hb m h
      have h3 := laps_clocked h
      rw [elapsed_eq] at h2
      omega
    · obtain ⟨m, hm, h⟩ := h
      have h2 := hb m h
      have h3 := hH.value hc (by omega)
      have h4 := laps_clocked h
      have h5 := elapsed_eq u
      refine ⟨e, c', t', b', rfl, fun h => absurd h1 (by omega), fun _ => by omega, ?_, by rw [eu]; exact h3⟩
      intro he
      have h4 := (C32_reasons hr).1.1 he
      obtain ⟨p, hp⟩ := List.getLast?_eq_some_iff.1 h4
      have h5 : elapsed u = elapsed p := by
        rw [← eu, hp, elapsed_append]; rfl
      have h6 := hs p true [] hp (by omega)
      rw [h3, h5]
      exact of_decide_eq_true h6.symm

theorem limit_counter {H : Handler (tsSig w O R) (BitVec w × B)} {v : BitVec w → Int} {M : Int}
    (hH : TellsTime H v M) {W : Nat} (hW : ∀ r s, Ev.asked ⟨r, (H r s).1⟩ ≤ W) (n : Nat) (l : BitVec w)
    (c : Cpu Q) (t : BitVec w) (b : B) (h0 : 0 < n)
    (hn : v l + 23 + 2 * W ≤ v t + 4 * n) (hl : v l + 22 + 2 * W < M) :
    ∃ e c' t' b', (executeWithLimit n l c).run H (t, b) = (some (e, c'), (t', b')) ∧
      (v l ≤ v t → t' = t ∧ e = .ok) ∧ (v t < v l → v t + 4 ≤ v t' ∧ v t' < v l + 23 + 2 * W) ∧
      (e = .ok → v l ≤ v t') := by
  obtain ⟨e, c', t', b', h1, h2, h3, h4, _⟩ := limit_counter_elapsed hH hW n l c t b h0 hn hl
  exact ⟨e, c', t', b', h1, h2, h3, h4⟩

theorem asked_counter {bus : Bus (tsSig w O R) B} {W : Nat}
    (hW : ∀ r b, Ev.asked ⟨r, (bus r b).1⟩ ≤ W) (r : Req (tsSig w O R)) (s : BitVec w × B) :
    Ev.asked ⟨r, (tsHost bus r s).1⟩ ≤ W := by
  cases r with
  | readIo p ts => exact hW (.readIo p ts) s.2
  | writeIo p v ts => exact hW (.writeIo p v ts) s.2
  | irqData p ts => exact hW (.irqData p ts) s.2
  | _ => exact Nat.zero_le _

/-- A `NOP` executed by the loop, with 4 T-states. -/
theorem nop_step {s : St NMOS} (hp : s.pfx = none) (hd : s.deb = false) (t : BitVec 16) :
    ∃ s', (nextInstruction s).run demo (t, program [], ()) =
        ((.cont, s'), (t + BitVec.ofNat 16 4, program [], ())) ∧
      s'.pfx = none ∧ s'.deb = false ∧ s'.cpu.iff1 = s.cpu.iff1 := by
  obtain ⟨cpu, flags, pc, pfx, deb⟩ := s
  cases hp
  cases hd
  exact ⟨_, rfl, rfl, rfl, rfl⟩

theorem nop_loop (n : Nat) {s : St NMOS} (hp : s.pfx = none) (hd : s.deb = false)
    (hi : s.cpu.iff1 = false) {t : BitVec 16} (ht : t.toNat % 4 = 0) :
    ((limitLoop (σ := tsSig 16 Unit Unit) n 0xFFFF#16 s).run demo (t, program [], ())).1 = none := by
  induction n generalizing s t with
  | zero => rfl
  | succ n ih =>
    obtain ⟨s', h1, h2, h3, h4⟩ := nop_step hp hd t
    have h5 : (t + BitVec.ofNat 16 4).toNat % 4 = 0 := by
      rw [BitVec.toNat_add, BitVec.toNat_ofNat]
      omega
    have h6 : decide ((0xFFFF : BitVec 16) ≤ t + BitVec.ofNat 16 4) = false := by
      refine decide_eq_false fun h => ?_
      have h : 0xFFFF ≤ (t + BitVec.ofNat 16 4).toNat := h
      have := (t + BitVec.ofNat 16 4).isLt
      omega
    unfold limitLoop
    show ((Prog.bind (nextInstruction s) _).run demo _).1 = _
    rw [Prog.run_bind, h1]
    show (Prog.run demo (if decide ((0xFFFF : BitVec 16) ≤ t + BitVec.ofNat 16 4) = true then
      pure (some (.limitReached, s'.store)) else Prog.bind (askIrq (isIntAllowed s'.pfx false &&
        s'.cpu.iff1)) fun i => if i then pure (some (.irq, s'.store)) else limitLoop n 0xFFFF s')
      (t + BitVec.ofNat 16 4, program [], ())).1 = none
    rw [h6, h4, hi, Bool.and_false]
    exact ih h2 h3 (h4.trans hi) h5

end
end Z80
