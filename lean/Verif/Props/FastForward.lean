import Verif.Proofs.Lap
import Verif.Props.Int

/-!
# C81: a halted CPU can be fast-forwarded

The documentation of `add_r` says that it can be used to emulate the HALT state without executing the busy
loop.
-/

namespace Z80

variable {w : Nat} {O R B Q : Type} [Flavour Q]

/-- The time `n` steps of a halted CPU after `t`. -/
def stepsLater (t : BitVec w) (n : Nat) : BitVec w := t + BitVec.ofNat w (4 * n)

/-- A halted CPU that may accept interrupts would find no request at any of the next `j` steps. -/
def NoRequest (bus : Bus (tsSig w O R) B) (c : Cpu Q) (t : BitVec w) (b : B) (j : Nat) : Prop :=
  c.iff1 = true → ∀ i < j, bus (.isIrq (stepsLater t i)) b = (false, b)

namespace FastForward

theorem later_zero (t : BitVec w) : stepsLater t 0 = t := BitVec.add_zero t

theorem later_succ (t : BitVec w) (n : Nat) : stepsLater (t + BitVec.ofNat w M1_CYCLE_TS) n = stepsLater t (n + 1) := by
  unfold stepsLater
  rw [BitVec.add_assoc, ← BitVec.ofNat_add]
  congr 2
  show 4 + 4 * n = 4 * (n + 1)
  omega

theorem addR_zero (c : Cpu Q) : c.addR (BitVec.ofNat 32 0) = c := by
  show ({ c with r := c.r + _ } : Cpu Q) = c
  rw [show (BitVec.ofNat 32 0).setWidth 8 = 0#8 from rfl, BitVec.add_zero]

theorem addR_succ (c : Cpu Q) (n : Nat) :
    c.incR.addR (BitVec.ofNat 32 n) = c.addR (BitVec.ofNat 32 (n + 1)) := by
  show ({ c with r := c.r + 1#8 + _ } : Cpu Q) = { c with r := c.r + _ }
  congr 1
  apply BitVec.eq_of_toNat_eq
  simp only [BitVec.toNat_add, BitVec.toNat_setWidth, BitVec.toNat_ofNat]
  omega

theorem noRequest_succ {bus : Bus (tsSig w O R) B} {c : Cpu Q} {t : BitVec w} {b : B} {j : Nat}
    (h : NoRequest bus c t b (j + 1)) :
    (c.iff1 = true → bus (.isIrq t) b = (false, b)) ∧
      NoRequest bus c.incR (t + BitVec.ofNat w M1_CYCLE_TS) b j := by
  refine ⟨fun hi => ?_, fun hi i hij => ?_⟩
  · have := h hi 0 (by omega)
    rwa [later_zero] at this
  · rw [later_succ]
    exact h hi (i + 1) (by omega)

/-- A poll that finds no request, and a step. -/
theorem poll_step {α : Type} {bus : Bus (tsSig w O R) B} {c : Cpu Q} {t : BitVec w} {b : B}
    (hq : c.iff1 = true → bus (.isIrq t) b = (false, b)) (q : Bool) (hi : q = true → c.iff1 = true)
    (f : Prog (tsSig w O R) α) (g : Cpu Q → Prog (tsSig w O R) α) :
    (Prog.bind (askIrq q) fun i => if i then f else Prog.bind (haltStep c) g).run (tsHost bus) (t, b) =
      (g c.incR).run (tsHost bus) (t + BitVec.ofNat w M1_CYCLE_TS, b) := by
  cases q with
  | false => rfl
  | true =>
    have h2 : tsHost bus (.isIrq t) (t, b) = (false, (t, b)) := by
      show ((bus (.isIrq t) b).1, (t, (bus (.isIrq t) b).2)) = _
      rw [hq (hi rfl)]
    have h3 : (askIrq (σ := tsSig w O R) true).run (tsHost bus) (t, b) = (false, (t, b)) := h2
    rw [Prog.run_bind, h3]
    rfl

/-- One step of the loop. -/
theorem halted_step {bus : Bus (tsSig w O R) B} {c : Cpu Q} {t l : BitVec w} {b : B} (n m : Nat)
    (hl : ¬ l ≤ t) (hq : c.iff1 = true → bus (.isIrq t) b = (false, b)) :
    (limitHalted n l (m + 1) c).run (tsHost bus) (t, b) =
      (limitHalted n l m c.incR).run (tsHost bus) (t + BitVec.ofNat w M1_CYCLE_TS, b) := by
  have h1 : tsHost bus (.isPastLimit l) (t, b) = (false, (t, b)) := by
    show (decide (l ≤ t), _) = _
    rw [decide_eq_false hl]
  rw [limitHalted]
  show Prog.run _ (Prog.bind (ask _) _) _ = _
  rw [run_ask, h1]
  exact poll_step hq c.iff1 id _ _

theorem halted_steps {bus : Bus (tsSig w O R) B} {c : Cpu Q} {t l : BitVec w} {b : B} (n m : Nat) {j : Nat}
    (hl : ∀ i < j, ¬ l ≤ stepsLater t i) (hq : NoRequest bus c t b j) :
    (limitHalted n l (j + m) c).run (tsHost bus) (t, b) =
      (limitHalted n l m (c.addR (BitVec.ofNat 32 j))).run (tsHost bus) (stepsLater t j, b) := by
  induction j generalizing c t with
  | zero => rw [addR_zero, later_zero, Nat.zero_add]
  | succ j ih =>
    obtain ⟨h1, h2⟩ := noRequest_succ hq
    have h0 := hl 0 (by omega)
    rw [later_zero] at h0
    rw [show j + 1 + m = (j + m) + 1 by omega, halted_step n _ h0 h1,
      ih (fun i hi => by rw [later_succ]; exact hl (i + 1) (by omega)) h2, later_succ, addR_succ]

theorem limit_run {bus : Bus (tsSig w O R) B} {c : Cpu Q} (hh : c.halt = true) (l : BitVec w) (n : Nat)
    (s : BitVec w × B) :
    (executeWithLimit n l c).run (tsHost bus) s = (limitHalted n l n c).run (tsHost bus) s := by
  rw [executeWithLimit, if_pos hh]

end FastForward

open FastForward

/-- C81: `j` steps of a halted CPU that find no request are skipped in `execute_with_limit` by adding `j` to R
and `4 * j` T-states to the clock, whatever happens afterwards. -/
theorem C81_skip {bus : Bus (tsSig w O R) B} {c c' : Cpu Q} (hh : c.halt = true) {t l : BitVec w} {b : B}
    {j : Nat} (hl : ∀ i < j, ¬ l ≤ stepsLater t i) (hq : NoRequest bus c t b j) {e : Res (tsSig w O R)}
    {s' : BitVec w × B} :
    ReturnsWith (tsHost bus) l c (t, b) e c' s' ↔
      ReturnsWith (tsHost bus) l (c.addR (BitVec.ofNat 32 j)) (stepsLater t j, b) e c' s' := by
  have hh' : (c.addR (BitVec.ofNat 32 j)).halt = true := hh
  constructor
  · rintro ⟨n, h⟩
    have h := h (j + n) (by omega)
    rw [limit_run hh, halted_steps _ n hl hq] at h
    refine returns_of (n := j + n) ?_
    rw [limit_run hh']
    exact run_le (halted_le (σ := tsSig w O R) (Nat.le_refl (j + n)) l (Nat.le_add_left n j) _) (tsHost bus) h
  · rintro ⟨n, h⟩
    have h := h n (Nat.le_refl _)
    refine returns_of (n := j + n) ?_
    rw [limit_run hh, halted_steps _ n hl hq]
    rw [limit_run hh'] at h
    exact run_le (halted_le (σ := tsSig w O R) (Nat.le_add_left n j) l (Nat.le_refl n) _) (tsHost bus) h

/-- C81: until the limit, if there is no request: `execute_with_limit` does nothing else. -/
theorem C81_limit {bus : Bus (tsSig w O R) B} {c : Cpu Q} (hh : c.halt = true) {t l : BitVec w} {b : B}
    (ht : t ≤ l) (hw : l.toNat + 3 < 2 ^ w)
    (hq : NoRequest bus c t b ((l.toNat - t.toNat + 3) / 4)) :
    let j := (l.toNat - t.toNat + 3) / 4
    ReturnsWith (tsHost bus) l c (t, b) .ok (c.addR (BitVec.ofNat 32 j)) (stepsLater t j, b) ∧
      (stepsLater t j).toNat = t.toNat + 4 * j ∧ l.toNat ≤ t.toNat + 4 * j ∧ t.toNat + 4 * j < l.toNat + 4 := by
  intro j
  have ht : t.toNat ≤ l.toNat := ht
  have hj : j = (l.toNat - t.toNat + 3) / 4 := rfl
  have lat : ∀ i, i ≤ j → (stepsLater t i).toNat = t.toNat + 4 * i := by
    intro i hi
    unfold stepsLater
    rw [BitVec.toNat_add, BitVec.toNat_ofNat, Nat.add_mod_mod, Nat.mod_eq_of_lt (by omega)]
  have hl : ∀ i < j, ¬ l ≤ stepsLater t i := by
    intro i hi h
    have h : l.toNat ≤ (stepsLater t i).toNat := h
    rw [lat i (by omega)] at h
    omega
  refine ⟨(C81_skip hh hl hq).2 ⟨1, fun m hm => ?_⟩, lat j (Nat.le_refl _), by omega, by omega⟩
  obtain ⟨m, rfl⟩ : ∃ k, m = k + 1 := ⟨m - 1, by omega⟩
  rw [limit_run (c := c.addR (BitVec.ofNat 32 j)) hh, limitHalted]
  have h1 : tsHost bus (.isPastLimit l) (stepsLater t j, b) = (true, (stepsLater t j, b)) := by
    show (decide (l ≤ stepsLater t j), _) = _
    rw [decide_eq_true (BitVec.le_def.2 (by rw [lat j (Nat.le_refl _)]; omega) : l ≤ stepsLater t j)]
  show Prog.run _ (Prog.bind (ask _) _) _ = _
  rw [run_ask, h1]
  rfl

/-- Repeated `execute_next`. -/
def nextRepeated {σ : Sig} (deb : Bool) : Nat → Cpu Q → Prog σ (List (Res σ) × Cpu Q)
  | 0, c => pure ([], c)
  | n + 1, c => do
    let r ← executeNext deb c
    let q ← nextRepeated deb n r.2
    pure (r.1 :: q.1, q.2)

/-- C81: the same for `execute_next`, with or without a debugger. -/
theorem C81_next {bus : Bus (tsSig w O R) B} {c : Cpu Q} (deb : Bool) (hh : c.halt = true)
    {t : BitVec w} {b : B} {j : Nat}
    (hq : NoRequest bus c t b j) :
    (nextRepeated deb j c).run (tsHost bus) (t, b) =
      ((List.replicate j .ok, c.addR (BitVec.ofNat 32 j)), (stepsLater t j, b)) := by
  induction j generalizing c t with
  | zero => rw [addR_zero, later_zero]; rfl
  | succ j ih =>
    obtain ⟨h1, h2⟩ := noRequest_succ hq
    have hs : (executeNext deb c).run (tsHost bus) (t, b) =
        ((.ok, c.incR), (t + BitVec.ofNat w M1_CYCLE_TS, b)) := by
      unfold executeNext
      rw [if_pos hh]
      exact poll_step h1 c.isIrqAllowed (fun h => (Bool.and_eq_true_iff.1 h).1) _ _
    rw [nextRepeated]
    show Prog.run _ (Prog.bind _ _) _ = _
    rw [Prog.run_bind, hs]
    show Prog.run _ (Prog.bind _ _) _ = _
    rw [Prog.run_bind, ih (c := c.incR) hh h2, later_succ, addR_succ]
    rfl

/-- A halted CPU with interrupts enabled. -/
def sleeper : Cpu NMOS := { (Cpu.new : Cpu NMOS) with halt := true, iff1 := true, iff2 := true, r := 0x7F }

/-- A host that asks for an interrupt from time 1000 on and is otherwise arbitrary. -/
def alarm (rest : Bus (tsSig 16 O R) B) : Bus (tsSig 16 O R) B
  | .isIrq ts, b => (decide (1000#16 ≤ ts), b)
  | r, b => rest r b

/-- The steps until the alarm are skipped at once; then there is a request. -/
example (rest : Bus (tsSig 16 O R) B) (b : B) :
    NoRequest (alarm rest) sleeper 3#16 b 250 ∧ (∀ i < 250, ¬ 5000#16 ≤ stepsLater 3#16 i) ∧
    stepsLater 3#16 250 = 1003#16 ∧ (sleeper.addR (BitVec.ofNat 32 250)).getR = 0x79 ∧
    alarm rest (.isIrq 1003#16) b = (true, b) := by
  have h : ∀ i < 250, decide (1000#16 ≤ stepsLater 3#16 i) = false := by decide +kernel
  refine ⟨fun _ i hi => ?_, by decide +kernel, by decide +kernel, by decide +kernel, rfl⟩
  show (decide (1000#16 ≤ stepsLater 3#16 i), b) = (false, b)
  rw [h i hi]

end Z80
