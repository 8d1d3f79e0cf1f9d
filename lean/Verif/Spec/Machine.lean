import Verif.Spec.Alu

/-!
# Specification: the programmer's view of the processor

One step of a Z80 with 64K of memory and a set of I/O devices, as documented in the "Z80 CPU
User Manual" and, for the undocumented parts, in "The Undocumented Z80 Documented" and the
MEMPTR notes. T-states are literal numbers of the published tables. Nothing of the model of
the crate is used but the byte and word types.
-/

set_option linter.constructorNameAsVariable false

namespace Z80.Spec

/-- Which register plays the part of HL. -/
inductive Ix | hl | ix | iy
deriving DecidableEq, Repr

/-- Differences between variants of the processor. -/
structure Opt where
  /-- byte sent by `OUT (C),0` -/
  outC0 : U8
  /-- a pending interrupt clears P/V of `LD A,I` and `LD A,R` -/
  early : Bool
  /-- high byte of MEMPTR after a store from A is zero instead of A -/
  wzHi0 : Bool

/-- Registers and control state visible to the programmer. -/
structure Regs where
  a : U8
  f : Fl
  b : U8
  c : U8
  d : U8
  e : U8
  h : U8
  l : U8
  a' : U8
  f' : Fl
  b' : U8
  c' : U8
  d' : U8
  e' : U8
  h' : U8
  l' : U8
  ixh : U8
  ixl : U8
  iyh : U8
  iyl : U8
  sp : U16
  pc : U16
  /-- MEMPTR -/
  wz : U16
  i : U8
  r : U8
  iff1 : Bool
  iff2 : Bool
  /-- interrupt mode 0, 1 or 2 -/
  im : Nat
  halted : Bool
  /-- the last instruction was EI -/
  ei : Bool
  /-- pending DD (ix) or FD (iy) prefix -/
  idx : Ix
  /-- whether the last instruction changed the flags, if the variant remembers it -/
  q : Option Bool
deriving DecidableEq, Repr

/-- I/O devices: answers and new device state; `BitVec w` is the time of the access. -/
structure Env (w : Nat) (O R I : Type) where
  /-- read a port: byte and wait states -/
  inp : U16 → BitVec w → I → (U8 × Option U16) × I
  /-- write a port: request to stop, and wait states -/
  out : U16 → U8 → BitVec w → I → (Option O × Option U16) × I
  /-- is an interrupt requested -/
  irq : BitVec w → I → Bool × I
  /-- interrupt acknowledge: byte on the bus and wait states -/
  ack : U16 → BitVec w → I → (U8 × Option U16) × I
  /-- notice of RETI: request to stop -/
  reti : U16 → BitVec w → I → Option R × I

/-- The machine: processor, memory, devices, time. -/
structure Mach (w : Nat) (I : Type) where
  r : Regs
  mem : U16 → U8
  io : I
  t : BitVec w

/-- What an executed instruction reports. -/
inductive Out (O R : Type)
  | ok
  | halt
  | writeIo (o : O)
  | reti (r : R)

/-! ### Operands -/

namespace Regs
variable (s : Regs)

/-- BC -/
def bc : U16 := word s.b s.c
/-- DE -/
def de : U16 := word s.d s.e
/-- HL -/
def hl : U16 := word s.h s.l
/-- HL, IX or IY. -/
def xhl (x : Ix) : U16 :=
  match x with | .hl => word s.h s.l | .ix => word s.ixh s.ixl | .iy => word s.iyh s.iyl
/-- Assign BC. -/
def setBc (v : U16) : Regs := { s with b := hi8 v, c := lo8 v }
/-- Assign DE. -/
def setDe (v : U16) : Regs := { s with d := hi8 v, e := lo8 v }
/-- Assign HL, IX or IY. -/
def setXhl (x : Ix) (v : U16) : Regs :=
  match x with
  | .hl => { s with h := hi8 v, l := lo8 v }
  | .ix => { s with ixh := hi8 v, ixl := lo8 v }
  | .iy => { s with iyh := hi8 v, iyl := lo8 v }

/-- 8-bit register; H and L are halves of HL, IX or IY. -/
def get (x : Ix) (k : R) : U8 :=
  match k with
  | .b => s.b | .c => s.c | .d => s.d | .e => s.e | .a => s.a
  | .h => match x with | .hl => s.h | .ix => s.ixh | .iy => s.iyh
  | .l => match x with | .hl => s.l | .ix => s.ixl | .iy => s.iyl
  | .m => 0
/-- Assign an 8-bit register. -/
def set (x : Ix) (k : R) (v : U8) : Regs :=
  match k with
  | .b => { s with b := v } | .c => { s with c := v } | .d => { s with d := v }
  | .e => { s with e := v } | .a => { s with a := v }
  | .h => match x with
    | .hl => { s with h := v } | .ix => { s with ixh := v } | .iy => { s with iyh := v }
  | .l => match x with
    | .hl => { s with l := v } | .ix => { s with ixl := v } | .iy => { s with iyl := v }
  | .m => s

/-- 16-bit register. -/
def getRp (x : Ix) (k : RP) : U16 :=
  match k with | .bc => s.bc | .de => s.de | .hl => s.xhl x | .sp => s.sp
/-- Assign a 16-bit register. -/
def setRp (x : Ix) (k : RP) (v : U16) : Regs :=
  match k with
  | .bc => s.setBc v | .de => s.setDe v | .hl => s.setXhl x v | .sp => { s with sp := v }

/-- Register pair of the stack instructions. -/
def getSp2 (x : Ix) (k : SP) : U16 :=
  match k with | .bc => s.bc | .de => s.de | .hl => s.xhl x | .af => word s.a s.f.byte
/-- Assign a register pair of the stack instructions. -/
def setSp2 (x : Ix) (k : SP) (v : U16) : Regs :=
  match k with
  | .bc => s.setBc v | .de => s.setDe v | .hl => s.setXhl x v
  | .af => { s with a := hi8 v, f := Fl.of (lo8 v) }

/-- Refresh counter: bits 0 to 6 count, bit 7 stays. -/
def bumpR : Regs :=
  { s with r := BitVec.ofNat 8 (s.r.toNat / 128 * 128 + (s.r.toNat % 128 + 1) % 128) }

/-- The condition of a conditional instruction. -/
def holds (k : Cc) : Bool :=
  match k with
  | .nz => !s.f.z | .z => s.f.z | .nc => !s.f.c | .c => s.f.c
  | .po => !s.f.pv | .pe => s.f.pv | .p => !s.f.s | .m => s.f.s

end Regs

/-- Arithmetic on the accumulator. -/
def aluOp (k : Alu) (a v : U8) (f : Fl) : U8 × Fl :=
  match k with
  | .add => add8 a v false
  | .adc => add8 a v f.c
  | .sub => sub8 a v false
  | .sbc => sub8 a v f.c
  | .and => and8 a v
  | .xor => xor8 a v
  | .or => or8 a v
  | .cp => (a, cp8 a v)

/-- Sign extension of a displacement. -/
def disp (d : U8) : U16 := BitVec.ofInt 16 d.toInt

variable {w : Nat} {O R I : Type}

namespace Mach
variable (s : Mach w I)

/-- Change registers. -/
def upd (f : Regs → Regs) : Mach w I := { s with r := f s.r }
/-- Store a byte. -/
def store (a : U16) (v : U8) : Mach w I :=
  { s with mem := fun x => if x = a then v else s.mem x }
/-- The word at an address, low byte first. -/
def load16 (a : U16) : U16 := word (s.mem (a + 1)) (s.mem a)
/-- The byte at PC. -/
def imm8 : U8 := s.mem s.r.pc
/-- The word at PC. -/
def imm16 : U16 := s.load16 s.r.pc
/-- Advance PC. -/
def skip (n : Nat) : Mach w I := s.upd fun r => { r with pc := r.pc + BitVec.ofNat 16 n }
/-- Set PC. -/
def jump (a : U16) : Mach w I := s.upd fun r => { r with pc := a }
/-- Set MEMPTR. -/
def wz (a : U16) : Mach w I := s.upd fun r => { r with wz := a }
/-- MEMPTR after a store from A to an address whose low byte is `lo`. -/
def wzStore (o : Opt) (lo : U8) : Mach w I :=
  s.upd fun r => { r with wz := word (if o.wzHi0 then 0 else r.a) (lo + 1) }
/-- Push a word: high byte at SP − 1, low byte at SP − 2. -/
def push (v : U16) : Mach w I :=
  ((s.store (s.r.sp - 1) (hi8 v)).store (s.r.sp - 2) (lo8 v)).upd fun r =>
    { r with sp := r.sp - 2 }
/-- The word on the top of the stack. -/
def top : U16 := s.load16 s.r.sp
/-- Drop the top of the stack. -/
def drop : Mach w I := s.upd fun r => { r with sp := r.sp + 2 }
/-- Set A and the flags. -/
def setAF (p : U8 × Fl) : Mach w I := s.upd fun r => { r with a := p.1, f := p.2 }
/-- Set the flags. -/
def setF (f : Fl) : Mach w I := s.upd fun r => { r with f := f }
/-- Spend time. -/
def tick (n : Nat) : Mach w I := { s with t := s.t + BitVec.ofNat w n }
/-- Wait states requested by a device. -/
def wait (n : Option U16) : Mach w I :=
  match n with | none => s | some k => s.tick k.toNat

/-- Address of a memory operand: HL, or IX/IY plus the displacement at PC, which then also
goes to MEMPTR. -/
def ea (x : Ix) : U16 :=
  match x with | .hl => s.r.hl | _ => s.r.xhl x + disp s.imm8
/-- State after forming that address. -/
def eaNext (x : Ix) : Mach w I :=
  match x with | .hl => s | _ => (s.wz (s.ea x)).skip 1

end Mach

/-- Effect of an instruction: state, whether a condition was met (or a block instruction
repeats), and what is reported. -/
abbrev Eff (w : Nat) (O R I : Type) := Mach w I × Bool × Out O R

/-- An unconditional instruction. -/
def done (s : Mach w I) : Eff w O R I := (s, false, .ok)

/-- `JR`-like branch to PC + 1 + displacement. -/
def relJump (s : Mach w I) : Mach w I :=
  let a := s.r.pc + 1 + disp s.imm8
  (s.jump a).wz a

/-- Instructions after CB, operand `(HL)` or a register. -/
def execCb (k : ICb) (s : Mach w I) : Mach w I :=
  match k with
  | .rot k .m =>
    let p := k.op (s.mem s.r.hl) s.r.f.c
    (s.store s.r.hl p.1).setF p.2
  | .rot k r =>
    let p := k.op (s.r.get .hl r) s.r.f.c
    (s.upd fun g => g.set .hl r p.1).setF p.2
  | .bit n .m => s.setF (bit8 n (s.mem s.r.hl) (hi8 s.r.wz) s.r.f.c)
  | .bit n r => s.setF (bit8 n (s.r.get .hl r) (s.r.get .hl r) s.r.f.c)
  | .res n .m => s.store s.r.hl (res8 n (s.mem s.r.hl))
  | .res n r => s.upd fun g => g.set .hl r (res8 n (g.get .hl r))
  | .set n .m => s.store s.r.hl (set8 n (s.mem s.r.hl))
  | .set n r => s.upd fun g => g.set .hl r (set8 n (g.get .hl r))

/-- Instructions after DD CB d or FD CB d: the operand is the byte at `a`; the result also goes
to the register of the opcode, if any. -/
def execXCb (k : ICb) (a : U16) (s : Mach w I) : Mach w I :=
  match k with
  | .rot k r =>
    let p := k.op (s.mem a) s.r.f.c
    ((s.store a p.1).upd fun g => g.set .hl r p.1).setF p.2
  | .bit n _ => s.setF (bit8 n (s.mem a) (hi8 a) s.r.f.c)
  | .res n r => (s.store a (res8 n (s.mem a))).upd fun g => g.set .hl r (res8 n (s.mem a))
  | .set n r => (s.store a (set8 n (s.mem a))).upd fun g => g.set .hl r (set8 n (s.mem a))

/-- A pointer moved by a block instruction. -/
def stepPtr (dec : Bool) (v : U16) : U16 := if dec then v - 1 else v + 1

/-- Block instructions. `rep` asks to repeat: PC goes back to the instruction. -/
def execBlk (v : Env w O R I) (k : Blk) (dec rep : Bool) (s : Mach w I) : Eff w O R I :=
  let again (s : Mach w I) : Mach w I := s.jump (s.r.pc - 2)
  match k with
  | .ld =>
    let x := s.mem s.r.hl
    let n := s.r.bc - 1
    let s1 := (s.store s.r.de x).upd fun r =>
      { ((r.setBc n).setDe (stepPtr dec r.de)).setXhl .hl (stepPtr dec r.hl) with
        f := ldxFl r.a x (n ≠ 0) r.f }
    if rep ∧ n ≠ 0 then ((again s1).wz (s.r.pc - 1), true, .ok) else (s1, false, .ok)
  | .cp =>
    let x := s.mem s.r.hl
    let n := s.r.bc - 1
    let s1 := s.upd fun r =>
      { (r.setBc n).setXhl .hl (stepPtr dec r.hl) with f := cpxFl r.a x (n ≠ 0) r.f }
    if rep ∧ n ≠ 0 ∧ s.r.a ≠ x then ((again s1).wz (s.r.pc - 1), true, .ok)
    else (s1.wz (stepPtr dec s.r.wz), false, .ok)
  | .inp =>
    let p := v.inp s.r.bc (s.t + BitVec.ofNat w 6) s.io
    let x := p.1.1
    let n := s.r.b - 1
    let s1 := ({ s with io := p.2 }.store s.r.hl x).upd fun r =>
      { r.setXhl .hl (stepPtr dec r.hl) with
        b := n
        f := ioxFl x n (if dec then r.c - 1 else r.c + 1)
        wz := stepPtr dec r.bc }
    let s2 := s1.wait p.1.2
    if rep ∧ n ≠ 0 then (again s2, true, .ok) else (s2, false, .ok)
  | .out =>
    let x := s.mem s.r.hl
    let n := s.r.b - 1
    let port := word n s.r.c
    let p := v.out port x (s.t + BitVec.ofNat w 9) s.io
    let s1 := { s with io := p.2 }.upd fun r =>
      { r.setXhl .hl (stepPtr dec r.hl) with
        b := n
        f := ioxFl x n (lo8 (stepPtr dec r.hl))
        wz := stepPtr dec port }
    let s2 := s1.wait p.1.2
    let o : Out O R := match p.1.1 with | some o => .writeIo o | none => .ok
    if rep ∧ n ≠ 0 then (again s2, true, o) else (s2, false, o)

/-- Return from interrupt. -/
def execRet (s : Mach w I) : Mach w I := ((s.drop).jump s.top).wz s.top

/-- Instructions after ED. -/
def execEd (o : Opt) (v : Env w O R I) (k : IEd) (s : Mach w I) : Eff w O R I :=
  match k with
  | .nop => done s
  | .inC r =>
    let p := v.inp s.r.bc (s.t + BitVec.ofNat w 5) s.io
    done (({ s with io := p.2 }.upd fun g =>
      { g.set .hl r p.1.1 with f := inFl p.1.1 g.f.c, wz := g.bc + 1 }).wait p.1.2)
  | .outC r =>
    let x := if r = .m then o.outC0 else s.r.get .hl r
    let p := v.out s.r.bc x (s.t + BitVec.ofNat w 5) s.io
    (({ s with io := p.2 }.wz (s.r.bc + 1)).wait p.1.2, false,
      match p.1.1 with | some o => .writeIo o | none => .ok)
  | .sbcHl p =>
    let x := sbc16 s.r.hl (s.r.getRp .hl p) s.r.f.c
    done ((s.upd fun r => { r.setXhl .hl x.1 with f := x.2 }).wz (s.r.hl + 1))
  | .adcHl p =>
    let x := adc16 s.r.hl (s.r.getRp .hl p) s.r.f.c
    done ((s.upd fun r => { r.setXhl .hl x.1 with f := x.2 }).wz (s.r.hl + 1))
  | .ldNnRp p =>
    let a := s.imm16
    let x := s.r.getRp .hl p
    done ((((s.store a (lo8 x)).store (a + 1) (hi8 x)).wz (a + 1)).skip 2)
  | .ldRpNn p =>
    let a := s.imm16
    done (((s.upd fun r => r.setRp .hl p (s.load16 a)).wz (a + 1)).skip 2)
  | .neg => done (s.setAF (neg8 s.r.a))
  | .retn => done (execRet (s.upd fun r => { r with iff1 := r.iff2 }))
  | .reti =>
    let p := v.reti s.r.pc (s.t + BitVec.ofNat w 4) s.io
    (execRet ({ s with io := p.2 }.upd fun r => { r with iff1 := r.iff2 }), false,
      match p.1 with | some x => .reti x | none => .ok)
  | .im n => done (s.upd fun r => { r with im := n })
  | .ldIA => done (s.upd fun r => { r with i := r.a })
  | .ldRA => done (s.upd fun r => { r with r := r.a })
  | .ldAI =>
    if o.early && s.r.iff1 && s.r.iff2 then
      let p := v.irq (s.t + BitVec.ofNat w 5) s.io
      done ({ s with io := p.2 }.setAF (s.r.i, ldAIrFl s.r.i (!p.1) s.r.f.c))
    else done (s.setAF (s.r.i, ldAIrFl s.r.i s.r.iff2 s.r.f.c))
  | .ldAR =>
    if o.early && s.r.iff1 && s.r.iff2 then
      let p := v.irq (s.t + BitVec.ofNat w 5) s.io
      done ({ s with io := p.2 }.setAF (s.r.r, ldAIrFl s.r.r (!p.1) s.r.f.c))
    else done (s.setAF (s.r.r, ldAIrFl s.r.r s.r.iff2 s.r.f.c))
  | .rld =>
    let x := rld8 s.r.a (s.mem s.r.hl) s.r.f.c
    done (((s.store s.r.hl x.2.1).setAF (x.1, x.2.2)).wz (s.r.hl + 1))
  | .rrd =>
    let x := rrd8 s.r.a (s.mem s.r.hl) s.r.f.c
    done (((s.store s.r.hl x.2.1).setAF (x.1, x.2.2)).wz (s.r.hl + 1))
  | .blk k dec rep => execBlk v k dec rep s

/-- Value with X/Y source for SCF and CCF. -/
def xySource (r : Regs) : U8 :=
  match r.q with
  | some false => r.a ||| r.f.byte
  | _ => r.a

/-- Unprefixed instructions (other than the prefix bytes), with `x` in the place of HL. -/
def exec0 (o : Opt) (v : Env w O R I) (x : Ix) (k : I0) (s : Mach w I) : Eff w O R I :=
  match k with
  | .nop => done s
  | .exAf => done (s.upd fun r => { r with a := r.a', f := r.f', a' := r.a, f' := r.f })
  | .djnz =>
    let s1 := s.upd fun r => { r with b := r.b - 1 }
    if s.r.b - 1 ≠ 0 then (relJump s1, true, .ok) else (s1.skip 1, false, .ok)
  | .jr => (relJump s, true, .ok)
  | .jrCc c => if s.r.holds c then (relJump s, true, .ok) else (s.skip 1, false, .ok)
  | .ldRpNn p => done ((s.upd fun r => r.setRp x p s.imm16).skip 2)
  | .addHl p =>
    let y := add16 (s.r.xhl x) (s.r.getRp x p) s.r.f
    done ((s.upd fun r => { r.setXhl x y.1 with f := y.2 }).wz (s.r.xhl x + 1))
  | .ldRpA p =>
    done ((s.store (s.r.getRp .hl p) s.r.a).wzStore o (lo8 (s.r.getRp .hl p)))
  | .ldARp p =>
    done ((s.upd fun r => { r with a := s.mem (r.getRp .hl p) }).wz (s.r.getRp .hl p + 1))
  | .ldNnHl =>
    let a := s.imm16
    done ((((s.store a (lo8 (s.r.xhl x))).store (a + 1) (hi8 (s.r.xhl x))).wz (a + 1)).skip 2)
  | .ldHlNn =>
    let a := s.imm16
    done (((s.upd fun r => r.setXhl x (s.load16 a)).wz (a + 1)).skip 2)
  | .ldNnA => done (((s.store s.imm16 s.r.a).wzStore o (lo8 s.imm16)).skip 2)
  | .ldANn =>
    done (((s.upd fun r => { r with a := s.mem s.imm16 }).wz (s.imm16 + 1)).skip 2)
  | .incRp p => done (s.upd fun r => r.setRp x p (r.getRp x p + 1))
  | .decRp p => done (s.upd fun r => r.setRp x p (r.getRp x p - 1))
  | .incR .m =>
    let p := inc8 (s.mem (s.ea x)) s.r.f
    done (((s.eaNext x).store (s.ea x) p.1).setF p.2)
  | .incR r =>
    let p := inc8 (s.r.get x r) s.r.f
    done ((s.upd fun g => g.set x r p.1).setF p.2)
  | .decR .m =>
    let p := dec8 (s.mem (s.ea x)) s.r.f
    done (((s.eaNext x).store (s.ea x) p.1).setF p.2)
  | .decR r =>
    let p := dec8 (s.r.get x r) s.r.f
    done ((s.upd fun g => g.set x r p.1).setF p.2)
  | .ldRN .m =>
    let s1 := s.eaNext x
    done ((s1.store (s.ea x) s1.imm8).skip 1)
  | .ldRN r => done ((s.upd fun g => g.set x r s.imm8).skip 1)
  | .accRot k => done (s.setAF (k.accOp s.r.a s.r.f))
  | .daa => done (s.setAF (daa8 s.r.a s.r.f))
  | .cpl => done (s.setAF (cpl8 s.r.a s.r.f))
  | .scf => done (s.setF (scf8 (xySource s.r) s.r.f))
  | .ccf => done (s.setF (ccf8 (xySource s.r) s.r.f))
  | .halt => ((s.jump (s.r.pc - 1)).upd fun r => { r with halted := true }, false, .halt)
  | .ldRR .m r => done ((s.eaNext x).store (s.ea x) (s.r.get .hl r))
  | .ldRR r .m => done ((s.eaNext x).upd fun g => g.set .hl r (s.mem (s.ea x)))
  | .ldRR d r => done (s.upd fun g => g.set x d (g.get x r))
  | .aluR k .m => done ((s.eaNext x).setAF (aluOp k s.r.a (s.mem (s.ea x)) s.r.f))
  | .aluR k r => done (s.setAF (aluOp k s.r.a (s.r.get x r) s.r.f))
  | .aluN k => done ((s.setAF (aluOp k s.r.a s.imm8 s.r.f)).skip 1)
  | .retCc c => if s.r.holds c then (execRet s, true, .ok) else (s, false, .ok)
  | .ret => done (execRet s)
  | .pop p => done ((s.drop).upd fun r => r.setSp2 x p s.top)
  | .push p => done (s.push (s.r.getSp2 x p))
  | .exx => done (s.upd fun r =>
      { r with b := r.b', c := r.c', d := r.d', e := r.e', h := r.h', l := r.l',
               b' := r.b, c' := r.c, d' := r.d, e' := r.e, h' := r.h, l' := r.l })
  | .jpHl => done (s.jump (s.r.xhl x))
  | .ldSpHl => done (s.upd fun r => { r with sp := r.xhl x })
  | .jp => done ((s.jump s.imm16).wz s.imm16)
  | .jpCc c => done (((if s.r.holds c then s.jump s.imm16 else s.skip 2)).wz s.imm16)
  | .call => done ((((s.skip 2).push (s.r.pc + 2)).jump s.imm16).wz s.imm16)
  | .callCc c =>
    if s.r.holds c then ((((s.skip 2).push (s.r.pc + 2)).jump s.imm16).wz s.imm16, true, .ok)
    else ((s.skip 2).wz s.imm16, false, .ok)
  | .rst y =>
    let a := BitVec.ofNat 16 (8 * y)
    done (((s.push s.r.pc).jump a).wz a)
  | .outNA =>
    let p := v.out (word s.r.a s.imm8) s.r.a (s.t + BitVec.ofNat w 4) s.io
    (((({ s with io := p.2 }.wzStore o s.imm8).skip 1).wait p.1.2), false,
      match p.1.1 with | some o => .writeIo o | none => .ok)
  | .inAN =>
    let port := word s.r.a s.imm8
    let p := v.inp port (s.t + BitVec.ofNat w 4) s.io
    done ((({ s with io := p.2 }.upd fun r => { r with a := p.1.1, wz := port + 1 }).skip 1).wait
      p.1.2)
  | .exSpHl =>
    let a := s.r.sp
    done ((((s.store (a + 1) (hi8 (s.r.xhl x))).store a (lo8 (s.r.xhl x))).upd
      fun r => r.setXhl x s.top).wz s.top)
  | .exDeHl => done (s.upd fun r => { r with d := r.h, e := r.l, h := r.d, l := r.e })
  | .di => done (s.upd fun r => { r with iff1 := false, iff2 := false })
  | .ei => done (s.upd fun r => { r with iff1 := true, iff2 := true, ei := true })
  | .cb | .dd | .ed | .fd => done s

/-! ### Published T-states -/

/-- CB group. -/
def tCb : ICb → Nat
  | .bit _ .m => 12
  | .rot _ .m | .res _ .m | .set _ .m => 15
  | _ => 8
/-- DD CB and FD CB groups. -/
def tXCb : ICb → Nat
  | .bit _ _ => 20
  | _ => 23
/-- ED group; the flag tells that a block instruction repeats. -/
def tEd (k : IEd) (again : Bool) : Nat :=
  match k with
  | .nop | .neg | .im _ => 8
  | .inC _ | .outC _ => 12
  | .sbcHl _ | .adcHl _ => 15
  | .ldNnRp _ | .ldRpNn _ => 20
  | .retn | .reti => 14
  | .ldIA | .ldRA | .ldAI | .ldAR => 9
  | .rrd | .rld => 18
  | .blk _ _ _ => if again then 21 else 16
/-- Unprefixed group; the flag tells that the condition was met. -/
def t0 (k : I0) (taken : Bool) : Nat :=
  match k with
  | .djnz => if taken then 13 else 8
  | .jr => 12
  | .jrCc _ => if taken then 12 else 7
  | .ldRpNn _ => 10
  | .addHl _ => 11
  | .ldRpA _ | .ldARp _ => 7
  | .ldNnHl | .ldHlNn => 16
  | .ldNnA | .ldANn => 13
  | .incRp _ | .decRp _ => 6
  | .incR .m | .decR .m => 11
  | .ldRN .m => 10
  | .ldRN _ => 7
  | .ldRR .m _ | .ldRR _ .m => 7
  | .aluR _ .m => 7
  | .aluN _ => 7
  | .retCc _ => if taken then 11 else 5
  | .pop _ | .ret => 10
  | .ldSpHl => 6
  | .jp | .jpCc _ => 10
  | .outNA | .inAN => 11
  | .exSpHl => 19
  | .call => 17
  | .callCc _ => if taken then 17 else 10
  | .push _ | .rst _ => 11
  | _ => 4
/-- DD or FD followed by an unprefixed opcode, total with the prefix. -/
def tX (k : I0) (taken : Bool) : Nat :=
  match k with
  | .incR .m | .decR .m => 23
  | .ldRN .m | .ldRR .m _ | .ldRR _ .m | .aluR _ .m => 19
  | k => 4 + t0 k taken

/-! ### Instructions that count as changing the flags -/

/-- CB groups. -/
def fCb : ICb → Bool | .rot _ _ | .bit _ _ => true | _ => false
/-- ED group. -/
def fEd : IEd → Bool
  | .inC _ | .sbcHl _ | .adcHl _ | .neg | .ldAI | .ldAR | .rrd | .rld | .blk _ _ _ => true
  | _ => false
/-- Unprefixed group. -/
def f0 : I0 → Bool
  | .addHl _ | .incR _ | .decR _ | .accRot _ | .daa | .cpl | .scf | .ccf | .aluR _ _
  | .aluN _ => true
  | _ => false

/-! ### Steps -/

/-- End of an instruction: no prefix pending, flag history, time beyond the opcode fetch. -/
def Eff.finish (e : Eff w O R I) (flags : Bool) (t : Nat) : Mach w I × Out O R :=
  ((e.1.upd fun r => { r with idx := .hl, q := r.q.map fun _ => flags }).tick t, e.2.2)

/-- Execute the instruction whose first opcode byte `op` has been fetched, with `x` the pending
prefix. PC points past the byte. -/
def execOp (o : Opt) (v : Env w O R I) (op : U8) (s : Mach w I) : Mach w I × Out O R :=
  let x := s.r.idx
  let s := s.upd fun r => { r with ei := false, halted := false }
  match decode op with
  | .dd => (s.upd fun r => { r with idx := .ix, q := r.q.map fun _ => false }, .ok)
  | .fd => (s.upd fun r => { r with idx := .iy, q := r.q.map fun _ => false }, .ok)
  | .ed =>
    let k := decodeEd s.imm8
    let e := execEd o v k (s.skip 1 |>.upd Regs.bumpR)
    Eff.finish e (fEd k) (tEd k e.2.1 - 4)
  | .cb =>
    match x with
    | .hl =>
      let k := decodeCb s.imm8
      Eff.finish (done (execCb k (s.skip 1 |>.upd Regs.bumpR))) (fCb k) (tCb k - 4)
    | x =>
      let k := decodeCb (s.skip 1).imm8
      Eff.finish (done (execXCb k (s.ea x) ((s.eaNext x).skip 1))) (fCb k) (tXCb k - 8)
  | k =>
    let e := exec0 o v x k s
    Eff.finish e (f0 k) (if x = .hl then t0 k e.2.1 - 4 else tX k e.2.1 - 8)

/-- Opcode fetch: 4 T-states, R advances. -/
def fetch (s : Mach w I) : Mach w I := ((s.skip 1).upd Regs.bumpR).tick 4

/-- Leave the halted state: PC moves past HALT. -/
def wake (r : Regs) : Regs := if r.halted then { r with halted := false, pc := r.pc + 1 } else r

/-- Maskable interrupt: acknowledge takes 6 T-states plus wait states. -/
def interrupt (o : Opt) (v : Env w O R I) (s : Mach w I) : Mach w I × Out O R :=
  let s := s.upd fun r => wake { r with iff1 := false, iff2 := false, ei := false }.bumpR
  let p := v.ack s.r.pc (s.t + BitVec.ofNat w 2) s.io
  let s := ({ s with io := p.2 }.tick 6).wait p.1.2
  match s.r.im with
  | 0 => execOp o v p.1.1 s
  | 1 => Eff.finish (done (((s.push s.r.pc).jump 0x38).wz 0x38)) false 7
  | _ =>
    let s1 := s.push s.r.pc
    let a := s1.load16 (word s.r.i p.1.1)
    Eff.finish (done ((s1.jump a).wz a)) false 13

/-- Non-maskable interrupt. -/
def nmi (s : Mach w I) : Mach w I :=
  let s := s.upd fun r => wake { r with iff1 := false, ei := false }.bumpR
  ((s.push s.r.pc).jump 0x66 |>.upd fun r => { r with q := r.q.map fun _ => false }).tick 11

/-- Whether a maskable interrupt may be accepted. -/
def irqOk (r : Regs) : Bool := r.iff1 && r.idx == .hl && !r.ei
/-- Whether a non-maskable interrupt may be accepted. -/
def nmiOk (r : Regs) : Bool := r.idx == .hl && !r.ei

/-- One step: interrupt, halted cycle, or instruction (or prefix byte). -/
def step (o : Opt) (v : Env w O R I) (s : Mach w I) : Mach w I × Out O R :=
  let go (s : Mach w I) : Mach w I × Out O R :=
    if s.r.halted then ((s.upd Regs.bumpR).tick 4, .ok)
    else execOp o v s.imm8 (fetch s)
  if irqOk s.r then
    let p := v.irq s.t s.io
    if p.1 then interrupt o v { s with io := p.2 } else go { s with io := p.2 }
  else go s

end Z80.Spec
