import Verif.Proofs.RalDebug
import Verif.Props.CallRet

/-!
# The records of one `execute_next`
-/

namespace Z80
open Spec

variable {σ : Sig} {Q : Type} [FlavourSpec Q]

/-- No instruction acknowledges an interrupt. -/
theorem no_ack {deb : Bool} {op : U8} {c : Cpu Q} {t : List (Ev σ)} {r : Res σ × Cpu Q}
    (h : (executeInstruction deb op c).Runs t r) : Spec.ackOf t = [] := by
  refine List.filterMap_eq_nil_iff.2 fun e he => ?_
  have := (Prog.runs_wp h (ok_instruction deb op c)).calls e he
  obtain ⟨r, x⟩ := e
  cases r <;> first | rfl | cases this

/-- What an instruction leaves: a prefix is remembered without a record, anything else has a record. -/
def Leaves (t : List (Ev σ)) (c' : Cpu Q) : Prop :=
  (records t = [] ∧ c'.halt = false ∧ c'.pfx.isSome = true) ∨ ∃ d, records t = [d] ∧ d.code ≠ []

theorem leaves_instruction {op : U8} {c : Cpu Q} {t : List (Ev σ)} {r : Res σ × Cpu Q}
    (h : (executeInstruction true op c).Runs t r) : Leaves t r.2 := by
  cases hp : Spec.isPrefix op with
  | false =>
    obtain ⟨d, l, h1, h2, -⟩ := instruction_record h hp
    refine .inr ⟨d, h1, ?_⟩
    rw [h2]
    cases pfxBytes (effective c.pfx op) <;> exact List.cons_ne_nil _ _
  | true =>
    left
    have ho : op = 0xDD#8 ∨ op = 0xFD#8 := by
      have := all8_spec (p := fun c => !Spec.isPrefix c || decide (c = 0xDD#8 ∨ c = 0xFD#8)) (by decide +kernel) op
      rw [hp] at this
      exact of_decide_eq_true this
    have key : ∀ p : Option Prefix, c.pfx = p →
        ∃ c' : Cpu Q, executeInstruction (σ := σ) true op c = .ret (.ok, c') ∧ c'.halt = false ∧ c'.pfx.isSome = true := by
      intro p hp
      obtain ⟨_, _, _, _, _, _, _, _, _, _, _, _, _, _, _, _, _, _, _, pfx, _, _⟩ := c
      cases hp
      rcases ho with rfl | rfl <;> rcases pfx with _ | _ | _ <;> exact ⟨_, rfl, rfl, rfl⟩
    obtain ⟨c', h1, h2, h3⟩ := key _ rfl
    rw [h1] at h
    obtain ⟨rfl, rfl⟩ := Prog.runs_ret h
    exact ⟨rfl, h2, h3⟩

/-- The vector of an interrupt in mode 2. -/
def Vectored (c : Cpu Q) (t : List (Ev σ)) (c' : Cpu Q) : Prop :=
  ∃ d lo hi, records t = [d] ∧ d.code = [0xC3#8, lo, hi] ∧ c'.pc = word hi lo ∧ c'.im = .mode2 ∧ c'.getI = c.getI

theorem vectored_jp {c : Cpu Q} (hp : c.pfx = none) {t : List (Ev σ)} {r : Res σ × Cpu Q} (hm : c.im = .mode2)
    (h : (executeInstruction true 0xC3#8 c).Runs t r) : Vectored c t r.2 := by
  obtain ⟨_, _, _, _, _, _, _, _, _, _, _, _, _, _, _, _, _, _, _, pfx, _, _⟩ := c
  cases hp
  cases hm
  refine Prog.runs_wp h (P := fun t r => Vectored _ t r.2) ?_
  intro ts (nn : U16) ts' x
  exact ⟨_, lo8 nn, hi8 nn, rfl, rfl, (word_hi8_lo8 nn).symm, rfl, rfl⟩

/-- An interrupt in mode 1 keeps the mode. -/
theorem rst_mode {c : Cpu Q} (hp : c.pfx = none) {t : List (Ev σ)} {r : Res σ × Cpu Q}
    (h : (executeInstruction true 0xFF#8 c).Runs t r) : r.2.im = c.im := by
  obtain ⟨_, _, _, _, _, _, _, _, _, _, _, _, _, _, _, _, _, _, _, pfx, _, _⟩ := c
  cases hp
  refine Prog.runs_wp h (P := fun t r => r.2.im = _) ?_
  intro x y ts z ts' w
  rfl

/-- The ways of an `execute_next` with a debugger. -/
def Goes (c : Cpu Q) (t : List (Ev σ)) (c' : Cpu Q) : Prop :=
  (c.halt = true ∧ c'.halt = true ∧ records t = [] ∧ Spec.ackOf t = []) ∨
  (c.halt = false ∧ Leaves t c' ∧ Spec.ackOf t = []) ∨
  (c.pfx = none ∧ (∃ v, Spec.ackOf t = [v]) ∧ if c.im = .mode2 then Vectored c t c' else
    Leaves t c' ∧ (c.im = .mode1 → c'.im = .mode1 ∧ records t ≠ []))

theorem goes_irq (c : Cpu Q) (hp : c.pfx = none) :
    (irqNoCheck (σ := σ) true c).wp fun t r => Goes c t r.2 := by
  have hw : c.disableInterrupts.incR.wake.pfx = none ∧ c.disableInterrupts.incR.wake.im = c.im ∧
      c.disableInterrupts.incR.wake.getI = c.getI := by
    unfold Cpu.wake
    split <;> exact ⟨hp, rfl, rfl⟩
  unfold irqNoCheck
  simp only []
  generalize c.disableInterrupts.incR.wake = c1 at *
  obtain ⟨hp', him, hi⟩ := hw
  refine wp_ask fun ts => wp_ask fun v => wp_askWait fun w hw => ?_
  have h1 : records (⟨.addIrq c1.pc, ts⟩ :: ⟨.irqData c1.pc ts, v⟩ :: w : List (Ev σ)) = [] ∧
      Spec.ackOf (⟨.addIrq c1.pc, ts⟩ :: ⟨.irqData c1.pc ts, v⟩ :: w : List (Ev σ)) = [v.1] := by
    constructor
    · show records w = []
      induction w with
      | nil => rfl
      | cons e w ih =>
        obtain ⟨x, _, rfl⟩ := hw e (.head _)
        exact ih fun e he => hw e (.tail _ he)
    · show v.1 :: Spec.ackOf w = [v.1]
      refine congrArg (List.cons v.1) (List.filterMap_eq_nil_iff.2 fun e he => ?_)
      obtain ⟨x, _, rfl⟩ := hw e he
      rfl
  have key : ∀ op, c1.im ≠ .mode2 → (c1.im = .mode1 → op = 0xFF#8) → (executeInstruction (σ := σ) true op c1).wp fun t r =>
      Goes c (⟨.addIrq c1.pc, ts⟩ :: ⟨.irqData c1.pc ts, v⟩ :: (w ++ t)) r.2 := by
    intro op hm ho
    refine (Prog.wp_iff _ _).2 fun u r hr => .inr (.inr ⟨hp, ⟨v.1, ?_⟩, ?_⟩)
    · show Spec.ackOf ((_ :: _ :: w) ++ u) = _
      rw [Spec.ackOf, List.filterMap_append, ← Spec.ackOf, ← Spec.ackOf, h1.2, no_ack hr]
      rfl
    · rw [if_neg (him ▸ hm)]
      refine ⟨?_, fun hm1 => ?_⟩
      · have := leaves_instruction hr
        unfold Leaves at this ⊢
        rwa [show records (⟨.addIrq c1.pc, ts⟩ :: ⟨.irqData c1.pc ts, v⟩ :: (w ++ u)) = records u by
          rw [← List.cons_append, ← List.cons_append, records_append, h1.1]; rfl]
      · rw [← him] at hm1
        cases ho hm1
        refine ⟨(rst_mode hp' hr).trans hm1, ?_⟩
        obtain ⟨d, _, h2, _⟩ := instruction_record hr (by decide)
        rw [← List.cons_append, ← List.cons_append, records_append, h1.1, h2]
        exact List.cons_ne_nil _ _
  cases hi' : c1.im with
  | mode0 => exact key _ (by rw [hi']; nofun) (by rw [hi']; nofun)
  | mode1 => exact key _ (by rw [hi']; nofun) fun _ => rfl
  | mode2 =>
    intro x ts1 x1 ts2 x2
    refine (Prog.wp_iff _ _).2 fun u r hr => .inr (.inr ⟨hp, ⟨v.1, ?_⟩, ?_⟩)
    · have h2 := no_ack hr
      show Spec.ackOf ((_ :: _ :: w) ++ (_ :: _ :: _ :: _ :: _ :: u)) = _
      rw [Spec.ackOf, List.filterMap_append, ← Spec.ackOf, h1.2]
      show v.1 :: Spec.ackOf u = [v.1]
      rw [h2]
    · rw [if_pos (him ▸ hi')]
      obtain ⟨d, lo, hi2, h3, h4, h5, h6, h7⟩ := vectored_jp (c := _) (by exact hp') (by exact hi') hr
      refine ⟨d, lo, hi2, ?_, h4, h5, h6, h7.trans hi⟩
      show records ((_ :: _ :: w) ++ (_ :: _ :: _ :: _ :: _ :: u)) = _
      rw [records_append, h1.1]
      exact h3

theorem goes_next (c : Cpu Q) : (executeNext (σ := σ) true c).wp fun t r => Goes c t r.2 := by
  have rest : ∀ q : List (Ev σ), records q = [] → Spec.ackOf q = [] →
      ((if c.halt then (haltStep c).bind fun c => pure (.ok, c) else fetchExecute true c :
        Prog σ (Res σ × Cpu Q))).wp fun t r => Goes c (q ++ t) r.2 := by
    intro q hq hq'
    by_cases hh : c.halt = true
    · rw [if_pos hh]
      intro ts
      refine .inl ⟨hh, hh, ?_, ?_⟩
      · rw [records_append, hq]
        rfl
      · rw [Spec.ackOf, List.filterMap_append, ← Spec.ackOf, hq']
        rfl
    · rw [if_neg hh]
      intro ts code
      refine (Prog.wp_iff _ _).2 fun u r hr => .inr (.inl ⟨by cases h : c.halt; rfl; exact absurd h hh, ?_, ?_⟩)
      · have := leaves_instruction hr
        unfold Leaves at this ⊢
        rwa [records_append, hq]
      · have := no_ack hr
        rw [Spec.ackOf, List.filterMap_append, ← Spec.ackOf, hq']
        exact this
  unfold executeNext
  refine wp_askIrq ?_ ?_
  · intro _
    exact rest [] rfl rfl
  · intro ts a hb
    cases a with
    | true =>
      have hp : c.pfx = none := by
        unfold Cpu.isIrqAllowed isIntAllowed at hb
        cases h : c.pfx with
        | none => rfl
        | some p => rw [h] at hb; simp at hb
      exact Prog.wp_mono (fun t r h => h) (goes_irq c hp)
    | false => exact rest [⟨.asTimestamp, ts⟩, ⟨.isIrq ts, false⟩] rfl rfl

end Z80
