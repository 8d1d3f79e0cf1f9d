import Verif.Spec.Text

/-!
# Specification: a table of registers

Titles in the first line; below a title is what it names.
-/

namespace Z80.Spec

/-- The text `t` is found in the line at column `o`. -/
def Occurs (line t : String) (o : Nat) : Prop := (line.toList.drop o).take t.length = t.toList

instance (line t : String) (o : Nat) : Decidable (Occurs line t o) := inferInstanceAs (Decidable (_ = _))

/-- The title is found in the header just once, and the text is right below. -/
def Under (header line title text : String) : Prop :=
  title ≠ "" ∧ ∃ o, Occurs header title o ∧ (∀ o', Occurs header title o' → o' = o) ∧ Occurs line text o

/-- A byte as bits, the most significant one first. -/
def bits (b : U8) : String :=
  String.ofList ([7, 6, 5, 4, 3, 2, 1, 0].map fun i => if b.getLsbD i then '1' else '0')

/-- A truth value. -/
def bool01 (b : Bool) : String := if b then "1" else "0"

/-- Address, name and operands of the instruction with bytes `l` at address `a`, with `sep` after the
address. -/
def told (sep : String) (a : U16) (l : List U8) : String :=
  let opds := operands (.hex true false) (line a l).2
  hex16 true a ++ sep ++ ((line a l).1 ++ spaces (4 - (line a l).1.length)) ++ " " ++
    (opds ++ spaces (14 - opds.length)) ++ " "

/-- Bytes with so much space between them, and space for those missing up to four. -/
def dump (sep : String) (l : List U8) : String :=
  String.join (l.map fun b => hex8 true b ++ sep) ++ spaces ((4 - l.length) * (2 + sep.length))

end Z80.Spec
