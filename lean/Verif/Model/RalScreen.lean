import Verif.Model.Fmt

/-!
# The lines of the debugger (`/repo/examples/ral1243/src/debug.rs` 24-157)

A text, or `none` where formatting fails. `{:#}` is the alternative form, in two lines.
-/

namespace Z80.Ral.Screen
open Text

/-- `HEADER` (`/repo/examples/ral1243/src/debug.rs` 27). -/
def HEADER : String :=
  "SZYHXPNC A F  B C  D E  H L  A'F' B'C' D'E' H'L'  IX   IY   SP   PC   IR  IFM MPTR"

/-- `HEADER_ALT` (`/repo/examples/ral1243/src/debug.rs` 28). -/
def HEADER_ALT : String := "SZYHXPNC A F  B C  D E  H L  IXIY SPPC IRMP"

/-- `Display for Header` (`/repo/examples/ral1243/src/debug.rs` 30-39). -/
def header (alt : Bool) : String := if alt then pad 25 "" ++ HEADER_ALT else pad 34 "" ++ HEADER

/-- `{:08b}` of a byte (Rust standard library). -/
def bin (b : U8) : String :=
  let l := Nat.toDigits 2 b.toNat
  String.ofList (List.replicate (8 - l.length) '0' ++ l)

/-- `{:04X}` of a word. -/
def word4 (v : U16) : String := hex true 4 v.toNat

/-- `b as u8` displayed. -/
def bit (b : Bool) : String := dec (if b then 1 else 0)

/-- `format_instr` (`/repo/examples/ral1243/src/debug.rs` 79-81), and the first half of `format_preview`
(83-84), which has `>` in place of the first space. -/
def formatInstr (sep : String) (d : CpuDebug) : Option String :=
  (fmtArgsHex true false (some 14) d.args).map fun a =>
    word4 d.pc ++ sep ++ pad 4 d.mnemonic ++ " " ++ a ++ " "

/-- A loop writing the same text again and again. -/
def again (n : Nat) (s : String) : String := (List.replicate n s).foldl (· ++ ·) ""

/-- `format_code` (`/repo/examples/ral1243/src/debug.rs` 88-96) with `sep = " "`; the loops in `format_debug`
(100-105) with `sep = ""`. -/
def formatCode (sep : String) (l : List U8) : String :=
  l.foldl (fun t b => t ++ (hex true 2 b.toNat ++ sep)) "" ++ again (4 - l.length) ("  " ++ sep)

/-- `format_preview` (`/repo/examples/ral1243/src/debug.rs` 83-86), `Display for Preview` (50-54). -/
def formatPreview (d : CpuDebug) : Option String :=
  (formatInstr ">" d).map fun t => t ++ formatCode " " d.code

/-- `format_debug` (`/repo/examples/ral1243/src/debug.rs` 98-127). -/
def formatDebug {Q : Type} (d : CpuDebug) (c : Cpu Q) : Option String :=
  (formatInstr " " d).map fun t =>
    t ++ formatCode "" d.code ++
    " " ++ bin c.getFlags ++
    " " ++ word4 (c.getReg16 .AF) ++
    " " ++ word4 (c.getReg16 .BC) ++
    " " ++ word4 (c.getReg16 .DE) ++
    " " ++ word4 (c.getReg16 .HL) ++
    " " ++ word4 (c.getAltReg16 .AF) ++
    " " ++ word4 (c.getAltReg16 .BC) ++
    " " ++ word4 (c.getAltReg16 .DE) ++
    " " ++ word4 (c.getAltReg16 .HL) ++
    " " ++ word4 (c.getIndex16 .xdd) ++
    " " ++ word4 (c.getIndex16 .yfd) ++
    " " ++ word4 c.getSp ++
    " " ++ word4 c.getPc ++
    " " ++ word4 c.getIr ++
    " " ++ bit c.getIffs.1 ++ bit c.getIffs.2 ++ dec c.getIm.toNum.toNat ++
    " " ++ word4 c.getMemptr

/-- `format_debug_alt` (`/repo/examples/ral1243/src/debug.rs` 129-157). -/
def formatDebugAlt {Q : Type} (d : CpuDebug) (c : Cpu Q) : Option String :=
  (formatInstr " " d).map fun t =>
    t ++ bin c.getFlags ++
    " " ++ word4 (c.getReg16 .AF) ++
    " " ++ word4 (c.getReg16 .BC) ++
    " " ++ word4 (c.getReg16 .DE) ++
    " " ++ word4 (c.getReg16 .HL) ++
    " " ++ word4 (c.getIndex16 .xdd) ++
    " " ++ word4 c.getSp ++
    " " ++ word4 c.getIr ++ "\n" ++
    word4 d.pc ++ " " ++ formatCode " " d.code ++
    "        IF" ++ bit c.getIffs.1 ++ bit c.getIffs.2 ++ " IM" ++ dec c.getIm.toNum.toNat ++
    " " ++ word4 (c.getAltReg16 .AF) ++
    " " ++ word4 (c.getAltReg16 .BC) ++
    " " ++ word4 (c.getAltReg16 .DE) ++
    " " ++ word4 (c.getAltReg16 .HL) ++
    " " ++ word4 (c.getIndex16 .yfd) ++
    " " ++ word4 c.getPc ++
    " " ++ word4 c.getMemptr

/-- `Display for Debugger` (`/repo/examples/ral1243/src/debug.rs` 70-77). -/
def debugger {Q : Type} (alt : Bool) (d : CpuDebug) (c : Cpu Q) : Option String :=
  if alt then formatDebugAlt d c else formatDebug d c

end Z80.Ral.Screen
