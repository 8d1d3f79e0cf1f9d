import Verif.Props.Refine
import Verif.Proofs.Demo

/-!
# The machine after a method of the CPU was run on a host with memory
-/

namespace Z80
open Spec
variable {Q : Type} [FlavourSpec Q] {w : Nat} {O R I : Type}

/-- Programmer's view of the machine after a run on `ramHost`. -/
def after {α : Type} (r : (α × Cpu Q) × (BitVec w × Mem × I)) : Mach w I :=
  ⟨abs r.1.2, r.2.2.1, r.2.2.2, r.2.1⟩

theorem after_instruction (io : Handler (tsSig w O R) I) (deb : Bool) (code : U8) (c : Cpu Q)
    (t : BitVec w) (m : Mem) (i : I) :
    after ((executeInstruction deb code c).run (ramHost io) (t, m, i)) =
      (execOp (FlavourSpec.opt Q) (envOf io) code ⟨abs c, m, i, t⟩).1 :=
  (C44_execute_instruction io deb code c t m i).1

theorem after_next (io : Handler (tsSig w O R) I) (deb : Bool) (c : Cpu Q)
    (t : BitVec w) (m : Mem) (i : I) :
    after ((executeNext deb c).run (ramHost io) (t, m, i)) =
      (step (FlavourSpec.opt Q) (envOf io) ⟨abs c, m, i, t⟩).1 :=
  (C44_execute_next io deb c t m i).1

theorem abs_pfx (c : Cpu Q) (y : Option Prefix) : abs { c with pfx := y } = { abs c with idx := ixOf y } :=
  rfl

theorem abs_idx (c : Cpu Q) : (abs c).idx = ixOf c.pfx := rfl

/-- A step that executes an instruction: not halted, and no interrupt is accepted. -/
theorem step_instr {o : Opt} {v : Env w O R I} {s : Mach w I} (hh : s.r.halted = false)
    (hq : irqOk s.r = true → (v.irq s.t s.io).1 = false) :
    ∃ j, step o v s = execOp o v s.imm8 (fetch { s with io := j }) ∧
      (irqOk s.r = false → j = s.io) := by
  unfold step
  cases hi : irqOk s.r with
  | false =>
    refine ⟨s.io, ?_, fun _ => rfl⟩
    simp [hh]
  | true =>
    refine ⟨(v.irq s.t s.io).2, ?_, fun h => absurd h nofun⟩
    simp only [hq hi, if_true, Bool.false_eq_true, if_false]
    rw [hh]
    rfl

theorem wait_eq (s : Mach w I) (n : Option U16) :
    s.wait n = { s with t := s.t + BitVec.ofNat w ((n.getD 0).toNat) } := by
  cases n with
  | none =>
    show s = { s with t := s.t + BitVec.ofNat w 0 }
    rw [show s.t + BitVec.ofNat w 0 = s.t from BitVec.add_zero _]
  | some k => rfl

end Z80
