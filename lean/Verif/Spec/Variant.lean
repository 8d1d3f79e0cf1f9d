import Verif.Spec.Timing

/-!
# Specification: instructions on which the variants of the processor differ

NMOS, CMOS and BM1 (КР1858ВМ1) are documented to differ in the X and Y flags of SCF and CCF, in the
byte sent by `OUT (C),0`, in MEMPTR after a byte of A is stored or sent to a port, and in P/V of
`LD A,I` and `LD A,R` when an interrupt is requested.
-/

set_option linter.constructorNameAsVariable false

namespace Z80.Spec

/-- Unprefixed opcodes on which variants differ: `LD (BC),A`, `LD (DE),A`, `LD (nn),A`,
`OUT (n),A`, SCF and CCF. -/
def varies0 (op : U8) : Bool :=
  op == 0x02 || op == 0x12 || op == 0x32 || op == 0xD3 || op == 0x37 || op == 0x3F

/-- Opcodes after ED on which variants differ: `OUT (C),0`, `LD A,I` and `LD A,R`. -/
def variesEd (op : U8) : Bool := op == 0x71 || op == 0x57 || op == 0x5F

/-- A sequence of opcode bytes beginning with an instruction on which variants differ. -/
def varies : List U8 → Bool
  | op :: op2 :: _ => varies0 op || (op == 0xED && variesEd op2)
  | [op] => varies0 op
  | [] => false

/-- Opcode byte in an answer of the host: to a fetch, or in interrupt mode 0 to an interrupt
acknowledge. -/
def _root_.Z80.Ev.code? {σ : Sig} (im : Nat) : Ev σ → Option U8
  | ⟨.readOpcode _ _ _, v⟩ => some v
  | ⟨.irqData _ _, v⟩ => if im = 0 then some v.1 else none
  | _ => none
/-- The opcode bytes executed. -/
def codesOf {σ : Sig} (im : Nat) (t : List (Ev σ)) : List U8 := t.filterMap (Ev.code? im)

/-- A port write with another byte. -/
def _root_.Z80.Ev.sending {σ : Sig} (v : U8) : Ev σ → Ev σ
  | ⟨.writeIo p _ ts, x⟩ => ⟨.writeIo p v ts, x⟩
  | e => e

/-- The registers without the memory of whether the last instruction affected the flags. -/
def Regs.noQ (r : Regs) : Regs := { r with q := none }
/-- Furthermore without the X and Y flags. -/
def Regs.noXY (r : Regs) : Regs := { r with q := none, f := { r.f with x := false, y := false } }
/-- Furthermore without MEMPTR. -/
def Regs.noWz (r : Regs) : Regs := { r with q := none, wz := 0 }
/-- Furthermore without P/V. -/
def Regs.noPv (r : Regs) : Regs := { r with q := none, f := { r.f with pv := false } }

end Z80.Spec
