import Verif.Model.Basic

/-!
# Specification: instruction set and decoding

The instructions of the processor and the decoding of opcode bytes by the fields
`x = bits 7-6`, `y = bits 5-3`, `z = bits 2-0`, `p = y / 2`, `q = y % 2`, as in the public
document "Decoding Z80 opcodes". Nothing of the model is used but the byte type.
-/

set_option linter.constructorNameAsVariable false

namespace Z80.Spec

/-- Register operand by its code 0..7; `m` is the memory operand `(HL)`. -/
inductive R | b | c | d | e | h | l | m | a
deriving DecidableEq, Repr
/-- Register pair by its code 0..3. -/
inductive RP | bc | de | hl | sp
deriving DecidableEq, Repr
/-- Register pair of `PUSH` and `POP`. -/
inductive SP | bc | de | hl | af
deriving DecidableEq, Repr
/-- Condition by its code. -/
inductive Cc | nz | z | nc | c | po | pe | p | m
deriving DecidableEq, Repr
/-- Arithmetic or logic operation on the accumulator by its code. -/
inductive Alu | add | adc | sub | sbc | and | xor | or | cp
deriving DecidableEq, Repr
/-- Rotate or shift by its code. -/
inductive Sh | rlc | rrc | rl | rr | sla | sra | sll | srl
deriving DecidableEq, Repr
/-- Block instruction group. -/
inductive Blk | ld | cp | inp | out
deriving DecidableEq, Repr

/-- Table `r`. -/
def r8 (n : Nat) : R :=
  match n with | 0 => .b | 1 => .c | 2 => .d | 3 => .e | 4 => .h | 5 => .l | 6 => .m | _ => .a
/-- Table `rp`. -/
def rp (n : Nat) : RP := match n with | 0 => .bc | 1 => .de | 2 => .hl | _ => .sp
/-- Table `rp2`. -/
def rp2 (n : Nat) : SP := match n with | 0 => .bc | 1 => .de | 2 => .hl | _ => .af
/-- Table `cc`. -/
def cc (n : Nat) : Cc :=
  match n with | 0 => .nz | 1 => .z | 2 => .nc | 3 => .c | 4 => .po | 5 => .pe | 6 => .p | _ => .m
/-- Table `alu`. -/
def alu (n : Nat) : Alu :=
  match n with
  | 0 => .add | 1 => .adc | 2 => .sub | 3 => .sbc | 4 => .and | 5 => .xor | 6 => .or | _ => .cp
/-- Table `rot`. -/
def rot (n : Nat) : Sh :=
  match n with
  | 0 => .rlc | 1 => .rrc | 2 => .rl | 3 => .rr | 4 => .sla | 5 => .sra | 6 => .sll | _ => .srl

/-- Unprefixed instructions. -/
inductive I0
  | nop | exAf | djnz | jr | jrCc (c : Cc)
  | ldRpNn (p : RP) | addHl (p : RP)
  | ldRpA (p : RP) | ldARp (p : RP) | ldNnHl | ldHlNn | ldNnA | ldANn
  | incRp (p : RP) | decRp (p : RP) | incR (r : R) | decR (r : R) | ldRN (r : R)
  | accRot (k : Sh) | daa | cpl | scf | ccf
  | halt | ldRR (d s : R)
  | aluR (k : Alu) (r : R)
  | retCc (c : Cc) | pop (p : SP) | ret | exx | jpHl | ldSpHl | jpCc (c : Cc) | jp
  | cb | outNA | inAN | exSpHl | exDeHl | di | ei | callCc (c : Cc) | push (p : SP) | call
  | dd | ed | fd | aluN (k : Alu) | rst (y : Nat)
deriving DecidableEq, Repr

/-- Instructions after CB. -/
inductive ICb
  | rot (k : Sh) (r : R) | bit (n : Nat) (r : R) | res (n : Nat) (r : R) | set (n : Nat) (r : R)
deriving DecidableEq, Repr

/-- Instructions after ED. `r = m` in `inC` and `outC` means no register. -/
inductive IEd
  | nop | inC (r : R) | outC (r : R) | sbcHl (p : RP) | adcHl (p : RP)
  | ldNnRp (p : RP) | ldRpNn (p : RP) | neg | retn | reti | im (n : Nat)
  | ldIA | ldRA | ldAI | ldAR | rrd | rld
  | blk (k : Blk) (dec rep : Bool)
deriving DecidableEq, Repr

/-- Decoding of an unprefixed opcode from its fields. -/
def dec0 (x y z : Nat) : I0 :=
  match x with
  | 0 => match z with
    | 0 => match y with
      | 0 => .nop | 1 => .exAf | 2 => .djnz | 3 => .jr | _ => .jrCc (cc (y - 4))
    | 1 => if y % 2 = 0 then .ldRpNn (rp (y / 2)) else .addHl (rp (y / 2))
    | 2 => match y with
      | 0 => .ldRpA .bc | 1 => .ldARp .bc | 2 => .ldRpA .de | 3 => .ldARp .de
      | 4 => .ldNnHl | 5 => .ldHlNn | 6 => .ldNnA | _ => .ldANn
    | 3 => if y % 2 = 0 then .incRp (rp (y / 2)) else .decRp (rp (y / 2))
    | 4 => .incR (r8 y)
    | 5 => .decR (r8 y)
    | 6 => .ldRN (r8 y)
    | _ => match y with
      | 0 => .accRot .rlc | 1 => .accRot .rrc | 2 => .accRot .rl | 3 => .accRot .rr
      | 4 => .daa | 5 => .cpl | 6 => .scf | _ => .ccf
  | 1 => if z = 6 ∧ y = 6 then .halt else .ldRR (r8 y) (r8 z)
  | 2 => .aluR (alu y) (r8 z)
  | _ => match z with
    | 0 => .retCc (cc y)
    | 1 => if y % 2 = 0 then .pop (rp2 (y / 2)) else
      match y / 2 with | 0 => .ret | 1 => .exx | 2 => .jpHl | _ => .ldSpHl
    | 2 => .jpCc (cc y)
    | 3 => match y with
      | 0 => .jp | 1 => .cb | 2 => .outNA | 3 => .inAN
      | 4 => .exSpHl | 5 => .exDeHl | 6 => .di | _ => .ei
    | 4 => .callCc (cc y)
    | 5 => if y % 2 = 0 then .push (rp2 (y / 2)) else
      match y / 2 with | 0 => .call | 1 => .dd | 2 => .ed | _ => .fd
    | 6 => .aluN (alu y)
    | _ => .rst y

/-- Decoding of an opcode following CB. -/
def decCb (x y z : Nat) : ICb :=
  match x with
  | 0 => .rot (rot y) (r8 z) | 1 => .bit y (r8 z) | 2 => .res y (r8 z) | _ => .set y (r8 z)

/-- Decoding of an opcode following ED. -/
def decEd (x y z : Nat) : IEd :=
  match x with
  | 1 => match z with
    | 0 => .inC (r8 y)
    | 1 => .outC (r8 y)
    | 2 => if y % 2 = 0 then .sbcHl (rp (y / 2)) else .adcHl (rp (y / 2))
    | 3 => if y % 2 = 0 then .ldNnRp (rp (y / 2)) else .ldRpNn (rp (y / 2))
    | 4 => .neg
    | 5 => if y = 1 then .reti else .retn
    | 6 => .im (match y with | 2 => 1 | 6 => 1 | 3 => 2 | 7 => 2 | _ => 0)
    | _ => match y with
      | 0 => .ldIA | 1 => .ldRA | 2 => .ldAI | 3 => .ldAR | 4 => .rrd | 5 => .rld | _ => .nop
  | 2 =>
    if 4 ≤ y ∧ z ≤ 3 then
      .blk (match z with | 0 => .ld | 1 => .cp | 2 => .inp | _ => .out) (y % 2 = 1) (6 ≤ y)
    else .nop
  | _ => .nop

/-- Field `x` of an opcode. -/
def fx (op : U8) : Nat := op.toNat / 64
/-- Field `y` of an opcode. -/
def fy (op : U8) : Nat := op.toNat / 8 % 8
/-- Field `z` of an opcode. -/
def fz (op : U8) : Nat := op.toNat % 8

/-- Decode an unprefixed opcode. -/
def decode (op : U8) : I0 := dec0 (fx op) (fy op) (fz op)
/-- Decode the byte after CB. -/
def decodeCb (op : U8) : ICb := decCb (fx op) (fy op) (fz op)
/-- Decode the byte after ED. -/
def decodeEd (op : U8) : IEd := decEd (fx op) (fy op) (fz op)

end Z80.Spec
