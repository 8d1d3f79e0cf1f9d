import Verif.Spec.Text
import Verif.Spec.Listing

/-!
# Specification: instructions that are written alike

Some instructions have more than one encoding. `canon` gives the documented one.
-/

namespace Z80.Spec

/-- The second byte of an instruction after ED: the documented code of `NEG`, `RETN`, `IM n`, and 00 for
all codes without an effect. -/
def canonEd (b : U8) : U8 :=
  match decodeEd b with
  | .neg => 0x44 | .retn => 0x45 | .im 0 => 0x46 | .im 1 => 0x56 | .im _ => 0x5E | .nop => 0x00
  | _ => b

/-- The last byte of an instruction after DD CB or FD CB: `BIT n,(IX+d)` ignores the register field, the
documented code of which is that of (HL). -/
def canonXCb (b : U8) : U8 := if 0x40#8 ≤ b ∧ b < 0x80#8 then b / 8#8 * 8#8 + 6#8 else b

/-- The documented encoding of the instruction `l`. `LD (nn),HL` and `LD HL,(nn)` also exist after ED. -/
def canon (l : List U8) : List U8 :=
  match l with
  | [p, b] => if p = 0xED then [p, canonEd b] else l
  | [p, b, x, y] =>
    if p = 0xED then if b = 0x63 then [0x22, x, y] else if b = 0x6B then [0x2A, x, y] else l
    else if b = 0xCB then [p, b, x, canonXCb y] else l
  | _ => l

/-- One complete instruction, with a prefix only if that changes it. -/
def Complete (l : List U8) : Prop := useless l = false ∧ size l = l.length

instance (l : List U8) : Decidable (Complete l) := inferInstanceAs (Decidable (_ ∧ _))

end Z80.Spec
