import Verif.Model.Disasm

/-!
# Debug records as text (`/repo/src/cpu/debug.rs` 138-438)

Formatting yields text or fails (`fmt::Error`), which is `none` here. Of the options of a formatter
the kind (`{}`, `{:x}`, `{:X}`), the flag `#` and the width are modelled; precision and fill are not,
they are never used by the crate itself. The pieces of text go to the formatter in one go.
-/

namespace Z80.Text

/-- `{}` of an unsigned integer (Rust standard library). -/
def dec (n : Nat) : String := n.repr

/-- `{:+}` of an `i8`, given as its byte (Rust standard library). -/
def signed (d : U8) : String :=
  if d.msb then "-" ++ dec (256 - d.toNat) else "+" ++ dec d.toNat

/-- Digits of `{:x}` (`{:X}` if `up`) of an unsigned integer, filled up to `w` with `0` (Rust standard
library). With `#` the text `0x` precedes and is counted in the width, so that `{:#06x}` is four
digits after `0x`. -/
def hex (up : Bool) (w n : Nat) : String :=
  let l := Nat.toDigits 16 n
  String.ofList (List.replicate (w - l.length) '0' ++ if up then l.map Char.toUpper else l)

/-- `Formatter::pad`, `{:w}` of a string (Rust standard library): filled with spaces on the right. -/
def pad (w : Nat) (s : String) : String := s ++ String.ofList (List.replicate (w - s.length) ' ')

/-- `{:>w}`: filled with spaces on the left. -/
def padLeft (w : Nat) (s : String) : String := String.ofList (List.replicate (w - s.length) ' ') ++ s

/-- `{:?}`, `{:02x?}` and `{:02X?}` of a byte slice (Rust standard library), where `f` is that of a
byte. -/
def slice (f : U8 → String) (l : List U8) : String :=
  "[" ++ String.intercalate ", " (l.map f) ++ "]"

/-- `write!` to an `ArrayString::<cap>` (crate `arrayvec`): an error if it does not fit. All the text is
ASCII, so that its length is that in bytes. -/
def arrayString (cap : Nat) (s : String) : Option String := if s.length ≤ cap then some s else none

/-- `Display for Prefix` (`/repo/src/cpu/parse.rs` 54-63). -/
def ofPrefix : Prefix → String
  | .xdd => "IX"
  | .yfd => "IY"

/-- `Display for Reg8` (`/repo/src/cpu/parse.rs` 114-121, 192-204). -/
def ofReg8 : Reg8 → String
  | .B => "B" | .C => "C" | .D => "D" | .E => "E" | .H => "H" | .L => "L" | .A => "A"

/-- `Reg8::format_with_prefix` (`/repo/src/cpu/parse.rs` 334-343). -/
def ofReg8P : Reg8 → Option Prefix → String
  | .H, some .xdd => "IXH"
  | .H, some .yfd => "IYH"
  | .L, some .xdd => "IXL"
  | .L, some .yfd => "IYL"
  | r, _ => ofReg8 r

/-- `Display for Reg16` (`/repo/src/cpu/parse.rs` 181-188, 220-228). -/
def ofReg16 : Reg16 → String
  | .BC => "BC" | .DE => "DE" | .HL => "HL" | .SP => "SP"

/-- `Reg16::format_with_prefix` (`/repo/src/cpu/parse.rs` 349-356). -/
def ofReg16P : Reg16 → Option Prefix → String
  | .HL, some .xdd => "IX"
  | .HL, some .yfd => "IY"
  | r, _ => ofReg16 r

/-- `Display for StkReg16` (`/repo/src/cpu/parse.rs` 181-188, 209-218). -/
def ofStk16 : StkReg16 → String
  | .BC => "BC" | .DE => "DE" | .HL => "HL" | .AF => "AF"

/-- `Display for Condition` (`/repo/src/cpu/parse.rs` 181-188, 258-271). -/
def ofCond : Cond → String
  | .NZ => "NZ" | .Z => "Z" | .NC => "NC" | .C => "C" | .PO => "PO" | .PE => "PE" | .P => "P" | .M => "M"

/-- `*m as u8` of an `InterruptMode` (`/repo/src/cpu/registers.rs` 17-26). -/
def ofMode : IntMode → Nat
  | .mode0 => 0 | .mode1 => 1 | .mode2 => 2

/-- `Display for CpuDebugAddr` (`/repo/src/cpu/debug.rs` 138-148). -/
def addrDisplay : DbgAddr → String
  | .immAddr nn => "(" ++ dec nn.toNat ++ ")"
  | .regAddr r => "(" ++ ofReg16 r ++ ")"
  | .indexAddr p (some d) => "(" ++ ofPrefix p ++ signed d ++ ")"
  | .indexAddr p none => "(" ++ ofPrefix p ++ ")"

/-- `LowerHex` and `UpperHex for CpuDebugAddr` (`/repo/src/cpu/debug.rs` 150-175, 177-202), which differ
in the case of the digits only. -/
def addrHex (up alt : Bool) : DbgAddr → String
  | .immAddr nn =>
    if alt then "(0x" ++ hex up 4 nn.toNat ++ ")" else "(" ++ hex up 4 nn.toNat ++ "h)"
  | .indexAddr p (some d) =>
    if d.msb then
      if alt then "(" ++ ofPrefix p ++ "-0x" ++ hex up 2 (0#8 - d).toNat ++ ")"
      else "(" ++ ofPrefix p ++ "-" ++ hex up 2 (0#8 - d).toNat ++ "h)"
    else
      if alt then "(" ++ ofPrefix p ++ "+0x" ++ hex up 2 d.toNat ++ ")"
      else "(" ++ ofPrefix p ++ "+" ++ hex up 2 d.toNat ++ "h)"
  | a => addrDisplay a

/-- `Display for CpuDebugPort` (`/repo/src/cpu/debug.rs` 204-212). -/
def portDisplay : DbgPort → String
  | .immPort n => "(" ++ dec n.toNat ++ ")"
  | .regPort => "(C)"

/-- `LowerHex` and `UpperHex for CpuDebugPort` (`/repo/src/cpu/debug.rs` 214-227, 229-242). -/
def portHex (up alt : Bool) : DbgPort → String
  | .immPort n => if alt then "(0x" ++ hex up 2 n.toNat ++ ")" else "(" ++ hex up 2 n.toNat ++ "h)"
  | p => portDisplay p

/-- `Display for CpuDebugArg` (`/repo/src/cpu/debug.rs` 244-262). -/
def argDisplay : DbgArg → String
  | .imm8 n => dec n.toNat
  | .bit n => dec n
  | .intMode m => dec (ofMode m)
  | .reg8 p r => ofReg8P r p
  | .imm16 nn => dec nn.toNat
  | .reg16 p r => ofReg16P r p
  | .stk16 r => ofStk16 r
  | .addr a => addrDisplay a
  | .cond c => ofCond c
  | .port p => portDisplay p
  | .regI => "I"
  | .regR => "R"

/-- `LowerHex` and `UpperHex for CpuDebugArg` (`/repo/src/cpu/debug.rs` 264-285, 287-308). -/
def argHex (up alt : Bool) : DbgArg → String
  | .imm8 n => if alt then "0x" ++ hex up 2 n.toNat else hex up 2 n.toNat ++ "h"
  | .imm16 nn => if alt then "0x" ++ hex up 4 nn.toNat else hex up 4 nn.toNat ++ "h"
  | .addr a => addrHex up alt a
  | .port p => portHex up alt p
  | a => argDisplay a

/-- `Display for CpuDebugArgs` without a width (`/repo/src/cpu/debug.rs` 336-347). -/
def argsDisplay : DbgArgs → String
  | .none => ""
  | .single a => argDisplay a
  | .double (.stk16 .AF) (.stk16 .AF) => "AF, AF'"
  | .double a b => argDisplay a ++ ", " ++ argDisplay b
  | .bitOpExt b a r => dec b ++ ", " ++ argDisplay a ++ ", " ++ ofReg8 r

/-- `LowerHex` and `UpperHex for CpuDebugArgs` without a width (`/repo/src/cpu/debug.rs` 355-376,
384-405). -/
def argsHex (up alt : Bool) : DbgArgs → String
  | .none => ""
  | .single a => argHex up alt a
  | .double (.stk16 .AF) (.stk16 .AF) => "AF, AF'"
  | .double a b => argHex up alt a ++ ", " ++ argHex up alt b
  | .bitOpExt b a r => dec b ++ ", " ++ argHex up alt a ++ ", " ++ ofReg8 r

/-- `Display for CpuDebugArgs` (`/repo/src/cpu/debug.rs` 332-349, macro `pad!` 310-317). -/
def fmtArgs (width : Option Nat) (a : DbgArgs) : Option String :=
  match width with
  | some w => (arrayString 14 (argsDisplay a)).map (pad w)
  | none => some (argsDisplay a)

/-- `LowerHex` and `UpperHex for CpuDebugArgs` (`/repo/src/cpu/debug.rs` 351-378, 380-407, macro `pad!`
318-329). -/
def fmtArgsHex (up alt : Bool) (width : Option Nat) (a : DbgArgs) : Option String :=
  match width with
  | some w => (arrayString 15 (argsHex up alt a)).map (pad w)
  | none => some (argsHex up alt a)

/-- `Display for CpuDebug` (`/repo/src/cpu/debug.rs` 409-414). -/
def fmtDebug (d : CpuDebug) : Option String :=
  (fmtArgs (some 14) d.args).map fun args =>
    padLeft 5 (dec d.pc.toNat) ++ " " ++ pad 4 d.mnemonic ++ " " ++ args ++ " " ++
      slice (fun b => dec b.toNat) d.code

/-- `LowerHex` and `UpperHex for CpuDebug` (`/repo/src/cpu/debug.rs` 416-426, 428-438). -/
def fmtDebugHex (up alt : Bool) (d : CpuDebug) : Option String :=
  if alt then
    (fmtArgsHex up true (some 15) d.args).map fun args =>
      "0x" ++ hex up 4 d.pc.toNat ++ " " ++ pad 4 d.mnemonic ++ " " ++ args ++ " " ++
        slice (fun b => hex up 2 b.toNat) d.code
  else
    (fmtArgsHex up false (some 14) d.args).map fun args =>
      hex up 4 d.pc.toNat ++ "h " ++ pad 4 d.mnemonic ++ " " ++ args ++ " " ++
        slice (fun b => hex up 2 b.toNat) d.code

end Z80.Text

namespace Z80.Disasm

variable {C : Type} [Machine C] {S : Type}

/-- The closure of `disasm_memory_write_text` (`/repo/src/disasm.rs` 107-109): `writeln!` of one record,
where `w` is the `fmt::Write` given by the user with its state. Simplified: the writer gets a line at
once, in Rust it gets it in pieces. -/
def writeLine (w : String → S → Option Unit × S) (d : CpuDebug) (s : S) : Option Unit × S :=
  match Text.fmtDebugHex false false d with
  | some t => w (t ++ "\n") s
  | none => (some (), s)

/-- `disasm_memory_write_text` (`/repo/src/disasm.rs` 101-110) with at most `n` iterations. -/
def disasmMemoryWriteText (C : Type) [Machine C] (n : Nat) (pc : U16) (mem : List U8)
    (w : String → S → Option Unit × S) (s : S) : Option (Option Unit × S) :=
  disasmMemory C n pc mem (writeLine w) s

/-- `disasm_memory_print_text` (`/repo/src/disasm.rs` 114-119) with at most `n` iterations: the text
printed. `println!` panics when formatting fails: `none` in the result. -/
def disasmMemoryPrintText (C : Type) [Machine C] (n : Nat) (pc : U16) (mem : List U8) :
    Option (Option String) :=
  (disasmMemory (E := Empty) C n pc mem (fun d (out : Option String) =>
    (none, out.bind fun o => (Text.fmtDebugHex false false d).map fun t => o ++ t ++ "\n"))
    (some "")).map (·.2)

end Z80.Disasm
