import Verif.Model.Basic

/-!
# Specification: bytes handed over by a parallel port
-/

namespace Z80.Spec.Ral

/-- The port takes a byte from the outside, or the program reads the port. -/
inductive Xfer
  | take (b : U8)
  | read (b : U8)
deriving DecidableEq, Repr

/-- What a byte-wise handover looks like, as a machine: the byte that was taken and not read yet, if any, and the byte
that is shown. A byte is taken only when the one before has been read; a read gets the byte taken last. -/
def hand : Option U8 × U8 → List Xfer → Option (Option U8 × U8)
  | q, [] => some q
  | (none, _), .take b :: l => hand (some b, b) l
  | (some _, _), .take _ :: _ => none
  | (_, x), .read b :: l => if b = x then hand (none, x) l else none

/-- The bytes taken. -/
def takes : List Xfer → List U8
  | [] => []
  | .take b :: l => b :: takes l
  | .read _ :: l => takes l

/-- The bytes of the first read after each byte taken. -/
def fresh : Bool → List Xfer → List U8
  | _, [] => []
  | _, .take _ :: l => fresh true l
  | true, .read b :: l => b :: fresh false l
  | false, .read _ :: l => fresh false l

end Z80.Spec.Ral
