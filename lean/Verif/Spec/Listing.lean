import Verif.Spec.Length

/-!
# Specification: listing of a piece of memory
-/

namespace Z80.Spec

/-- Do the bytes start with a DD or FD prefix that does not change the instruction that follows, or is
followed by another prefix? -/
def useless : List U8 → Bool
  | p :: op :: _ => isPrefix p && !indexed op
  | _ => false

/-- The number of bytes of the instruction that the bytes start with, a prefix included. What the
bytes do not tell any more does not make it shorter than what they do. -/
def size : List U8 → Nat
  | [] => 1
  | [b] => if isPrefix b then 2 else length false b 0
  | p :: b :: l => if isPrefix p then 1 + length true b (l.headD 0) else length false p b

/-- `Listing a bs l`: memory from address `a` on has the bytes `bs`, and `l` are the addresses and the
bytes of the instructions found, one after the other: prefixes without effect are left out, and the
listing ends before an instruction that does not fit. -/
inductive Listing : U16 → List U8 → List (U16 × List U8) → Prop
  | skip {a b bs l} (hu : useless (b :: bs) = true) (h : Listing (a + 1) bs l) :
    Listing a (b :: bs) l
  | instr {a bs l} (hu : useless bs = false) (hs : size bs ≤ bs.length)
    (h : Listing (a + BitVec.ofNat 16 (size bs)) (bs.drop (size bs)) l) :
    Listing a bs ((a, bs.take (size bs)) :: l)
  | done {a bs} (hu : useless bs = false) (hs : bs.length < size bs) : Listing a bs []

end Z80.Spec
