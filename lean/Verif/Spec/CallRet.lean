import Verif.Spec.Access
import Verif.Spec.Machine

/-!
# Specification: calls and returns as seen on the bus and in SP and PC
-/

namespace Z80.Spec

/-- A return: the word at SP was read and has become the program counter, SP is past it. -/
def Returned {σ : Sig} (sp sp' pc' : U16) (t : List (Ev σ)) : Prop :=
  ∃ v, traffic t = [.read16 sp v] ∧ sp' = sp + 2 ∧ pc' = v

/-- A call: the address `ret` of the following instruction was pushed, high byte first, at the end; before it at most
the destination was read. -/
def Called {σ : Sig} (ret sp sp' pc' : U16) (t : List (Ev σ)) : Prop :=
  ∃ q : List Access, traffic t = q ++ [.write (sp - 1) (ret.extractLsb' 8 8), .write (sp - 2) (ret.extractLsb' 0 8)] ∧
    (q = [] ∨ ∃ a, q = [.read16 a pc']) ∧ sp' = sp - 2

end Z80.Spec
