import Verif.Spec.Asm

/-!
# Specification: a line of a listing

The text of a line as a function of the address and the bytes of the instruction.
-/

namespace Z80.Spec

/-- How numbers are written: decimal, or hexadecimal with upper or lower case digits, marked by `0x` in
front (`prefixed`) or by `h` behind. -/
inductive Style
  | dec
  | hex (upper prefixed : Bool)
deriving DecidableEq, Repr

/-- A hexadecimal digit. -/
def nibble (upper : Bool) (n : Nat) : Char :=
  (if upper then "0123456789ABCDEF" else "0123456789abcdef").toList.getD n '?'

/-- A byte with two digits. -/
def hex8 (upper : Bool) (b : U8) : String :=
  String.ofList [nibble upper (b.toNat / 16), nibble upper (b.toNat % 16)]

/-- A word with four digits. -/
def hex16 (upper : Bool) (w : U16) : String :=
  String.ofList [nibble upper (w.toNat / 4096), nibble upper (w.toNat / 256 % 16),
    nibble upper (w.toNat / 16 % 16), nibble upper (w.toNat % 16)]

/-- A hexadecimal number with its mark. -/
def marked (pre : Bool) (s : String) : String := if pre then "0x" ++ s else s ++ "h"

/-- A number of 8 bits. -/
def Style.num8 : Style → U8 → String
  | .dec, b => toString b.toNat
  | .hex up pre, b => marked pre (hex8 up b)

/-- A number of 16 bits. -/
def Style.num16 : Style → U16 → String
  | .dec, w => toString w.toNat
  | .hex up pre, w => marked pre (hex16 up w)

/-- A displacement with its sign: the absolute value is at most 128. -/
def Style.disp (s : Style) (d : U8) : String :=
  if d.toNat < 128 then "+" ++ s.num8 d else "-" ++ s.num8 (BitVec.ofNat 8 (256 - d.toNat))

/-- An operand. -/
def Opd.text (s : Style) : Opd → String
  | .name t => t
  | .num n => toString n
  | .byte n => s.num8 n
  | .word nn => s.num16 nn
  | .mem nn => "(" ++ s.num16 nn ++ ")"
  | .ind t => "(" ++ t ++ ")"
  | .idx t d => "(" ++ t ++ s.disp d ++ ")"
  | .port n => "(" ++ s.num8 n ++ ")"

/-- Operands separated by commas. -/
def operands (s : Style) (l : List Opd) : String := String.intercalate ", " (l.map (Opd.text s))

/-- So many spaces. -/
def spaces (n : Nat) : String := String.ofList (List.replicate n ' ')

/-- The columns of address, mnemonic and operands. -/
def columns (s : Style) (a : U16) (m : String × List Opd) : String :=
  let address := s.num16 a
  let address := if s = .dec then spaces (5 - address.length) ++ address else address
  let opds := operands s m.2
  let width := match s with | .hex _ true => 15 | _ => 14
  address ++ " " ++ (m.1 ++ spaces (4 - m.1.length)) ++ " " ++ (opds ++ spaces (width - opds.length)) ++
    " "

/-- The column of bytes. -/
def bytes (s : Style) (l : List U8) : String :=
  let byte (b : U8) : String := match s with | .dec => toString b.toNat | .hex up _ => hex8 up b
  "[" ++ String.intercalate ", " (l.map byte) ++ "]"

/-- The line for the instruction with bytes `l` at address `a`. -/
def row (s : Style) (a : U16) (l : List U8) : String := columns s a (line a l) ++ bytes s l

/-- Number of characters in front of the column of bytes. -/
def Style.indent : Style → Nat | .hex _ true => 28 | _ => 26

end Z80.Spec
