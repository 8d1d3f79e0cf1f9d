import Verif.Spec.Machine

/-!
# Specification: bus cycles

Every instruction as the tree of its bus cycles, in order, with their addresses, and the
registers left at the end of every branch, for any memory and any devices: a node of a reading
cycle has one child for every byte that may be read. The cycles are those of the published
machine cycle tables (e.g. the "contended memory" tables of the ZX Spectrum documentation, where
`ir:1` is one T-state with IR on the address bus and `(hl):3` a memory cycle at HL).
Nothing of the model of the crate is used but the byte and word types.
-/

set_option linter.constructorNameAsVariable false

namespace Z80.Spec

/-- A tree of bus cycles ending in a value. -/
inductive Tree (O R α : Type)
  | done (a : α)
  /-- opcode fetch at an address, with IR on the bus afterwards: 4 T-states -/
  | m1 (a ir : U16) (k : U8 → Tree O R α)
  /-- opcode fetch cycle whose byte is ignored: 4 T-states -/
  | idleM1 (a : U16) (k : Tree O R α)
  /-- memory read: 3 T-states -/
  | rd (a : U16) (k : U8 → Tree O R α)
  /-- two memory reads at `a` and `a + 1`, low byte first: 6 T-states -/
  | rd16 (a : U16) (k : U16 → Tree O R α)
  /-- memory read cycle whose byte is ignored: 3 T-states -/
  | skip (a : U16) (k : Tree O R α)
  /-- memory write: 3 T-states -/
  | wr (a : U16) (v : U8) (k : Tree O R α)
  /-- `n` T-states with an address on the bus and no request -/
  | idle (a : U16) (n : Nat) (k : Tree O R α)
  /-- port read: 4 T-states and the wait states of the device -/
  | inp (p : U16) (k : U8 → Tree O R α)
  /-- port write: 4 T-states and the wait states of the device, which may ask to stop -/
  | out (p : U16) (v : U8) (k : Option O → Tree O R α)
  /-- devices see a `RETI`, and may ask to stop -/
  | reti (pc : U16) (k : Option R → Tree O R α)
  /-- the interrupt request line is sampled -/
  | irq (k : Bool → Tree O R α)
  /-- interrupt acknowledge: 6 T-states and the wait states of the device -/
  | ack (pc : U16) (k : U8 → Tree O R α)

namespace Tree
variable {O R α β : Type}

/-- Continue at every end. -/
def bind : Tree O R α → (α → Tree O R β) → Tree O R β
  | .done a, f => f a
  | .m1 a ir k, f => .m1 a ir fun v => (k v).bind f
  | .idleM1 a k, f => .idleM1 a (k.bind f)
  | .rd a k, f => .rd a fun v => (k v).bind f
  | .rd16 a k, f => .rd16 a fun v => (k v).bind f
  | .skip a k, f => .skip a (k.bind f)
  | .wr a v k, f => .wr a v (k.bind f)
  | .idle a n k, f => .idle a n (k.bind f)
  | .inp p k, f => .inp p fun v => (k v).bind f
  | .out p v k, f => .out p v fun o => (k o).bind f
  | .reti pc k, f => .reti pc fun x => (k x).bind f
  | .irq k, f => .irq fun b => (k b).bind f
  | .ack pc k, f => .ack pc fun v => (k v).bind f

end Tree

variable {O R : Type}

/-- Registers, whether a condition was met (or a block instruction repeats), and what is
reported. -/
abbrev Res' (O R : Type) := Regs × Bool × Out O R

/-- Cycles of an instruction. -/
abbrev Cycles (O R : Type) := Tree O R (Res' O R)

/-- End of an unconditional instruction. -/
def fin (r : Regs) : Cycles O R := .done (r, false, .ok)

/-- IR as it is put on the address bus. -/
def Regs.ir (r : Regs) : U16 := word r.i r.r
/-- PC moved on. -/
def Regs.skip (r : Regs) (n : Nat) : Regs := { r with pc := r.pc + BitVec.ofNat 16 n }
/-- A and the flags set. -/
def Regs.setAF (r : Regs) (p : U8 × Fl) : Regs := { r with a := p.1, f := p.2 }
/-- PC and MEMPTR set. -/
def Regs.goto (r : Regs) (a : U16) : Regs := { r with pc := a, wz := a }
/-- MEMPTR after a store from A to an address whose low byte is `lo`. -/
def Regs.wzStore (r : Regs) (o : Opt) (lo : U8) : Regs :=
  { r with wz := word (if o.wzHi0 then 0 else r.a) (lo + 1) }

/-- The address of a memory operand: HL, or IX or IY with the displacement that follows the
opcode, which takes a memory read and 5 T-states, and is left in MEMPTR. -/
def operand (x : Ix) (r : Regs) (k : U16 → Regs → Cycles O R) : Cycles O R :=
  match x with
  | .hl => k r.hl r
  | x => .rd r.pc fun d => .idle r.pc 5
      (k (r.xhl x + disp d) { r with pc := r.pc + 1, wz := r.xhl x + disp d })

/-- A taken relative jump. -/
def relCycles (r : Regs) : Cycles O R :=
  .rd r.pc fun d => .idle r.pc 5 (.done (r.goto (r.pc + 1 + disp d), true, .ok))

/-- Push a word: high byte first. -/
def pushCycles (v : U16) (r : Regs) (k : Regs → Cycles O R) : Cycles O R :=
  .wr (r.sp - 1) (hi8 v) (.wr (r.sp - 2) (lo8 v) (k { r with sp := r.sp - 2 }))

/-- Pop a word. -/
def popCycles (r : Regs) (k : U16 → Regs → Cycles O R) : Cycles O R :=
  .rd16 r.sp fun v => k v { r with sp := r.sp + 2 }

/-- Read, one T-state, write back. -/
def modifyCycles (a : U16) (k : U8 → U8 × Regs) : Cycles O R :=
  .rd a fun v => .idle a 1 (.wr a (k v).1 (fin (k v).2))

/-- Instructions after CB, operand `(HL)` or a register. -/
def cbCycles (k : ICb) (r : Regs) : Cycles O R :=
  match k with
  | .rot k .m => modifyCycles r.hl fun v => ((k.op v r.f.c).1, { r with f := (k.op v r.f.c).2 })
  | .rot k g =>
    let p := k.op (r.get .hl g) r.f.c
    fin { r.set .hl g p.1 with f := p.2 }
  | .bit n .m => .rd r.hl fun v => .idle r.hl 1 (fin { r with f := bit8 n v (hi8 r.wz) r.f.c })
  | .bit n g => fin { r with f := bit8 n (r.get .hl g) (r.get .hl g) r.f.c }
  | .res n .m => modifyCycles r.hl fun v => (res8 n v, r)
  | .res n g => fin (r.set .hl g (res8 n (r.get .hl g)))
  | .set n .m => modifyCycles r.hl fun v => (set8 n v, r)
  | .set n g => fin (r.set .hl g (set8 n (r.get .hl g)))

/-- Instructions after DD CB d or FD CB d with the operand at `a`. -/
def xcbCycles (k : ICb) (a : U16) (r : Regs) : Cycles O R :=
  match k with
  | .rot k g => modifyCycles a fun v =>
    ((k.op v r.f.c).1, { r.set .hl g (k.op v r.f.c).1 with f := (k.op v r.f.c).2 })
  | .bit n _ => .rd a fun v => .idle a 1 (fin { r with f := bit8 n v (hi8 a) r.f.c })
  | .res n g => modifyCycles a fun v => (res8 n v, r.set .hl g (res8 n v))
  | .set n g => modifyCycles a fun v => (set8 n v, r.set .hl g (set8 n v))

/-- End of a block instruction: 5 T-states more and PC back at the instruction to repeat. -/
def repeatCycles (again : Bool) (a : U16) (r : Regs) (o : Out O R) : Cycles O R :=
  if again then .idle a 5 (.done ({ r with pc := r.pc - 2 }, true, o)) else .done (r, false, o)

/-- What is reported after a port write. -/
def outOf : Option O → Out O R
  | some o => .writeIo o
  | none => .ok

/-- What is reported after a `RETI`. -/
def retOf : Option R → Out O R
  | some x => .reti x
  | none => .ok

/-- Block instructions. -/
def blkCycles (k : Blk) (dec rep : Bool) (r : Regs) : Cycles O R :=
  match k with
  | .ld =>
    let n := r.bc - 1
    let again := rep && decide (n ≠ 0)
    .rd r.hl fun v => .wr r.de v (.idle r.de 2 (repeatCycles again r.de
      { ((r.setBc n).setDe (stepPtr dec r.de)).setXhl .hl (stepPtr dec r.hl) with
        f := ldxFl r.a v (n ≠ 0) r.f
        wz := if again then r.pc - 1 else r.wz } .ok))
  | .cp =>
    let n := r.bc - 1
    .rd r.hl fun v =>
      let again := rep && decide (n ≠ 0) && decide (r.a ≠ v)
      .idle r.hl 5 (repeatCycles again r.hl
        { (r.setBc n).setXhl .hl (stepPtr dec r.hl) with
          f := cpxFl r.a v (n ≠ 0) r.f
          wz := if again then r.pc - 1 else stepPtr dec r.wz } .ok)
  | .inp =>
    let n := r.b - 1
    .idle r.ir 1 (.inp r.bc fun v => .wr r.hl v (repeatCycles (rep && decide (n ≠ 0)) r.hl
      { r.setXhl .hl (stepPtr dec r.hl) with
        b := n
        f := ioxFl v n (if dec then r.c - 1 else r.c + 1)
        wz := stepPtr dec r.bc } .ok))
  | .out =>
    let n := r.b - 1
    .idle r.ir 1 (.rd r.hl fun v => .out (word n r.c) v fun o =>
      repeatCycles (rep && decide (n ≠ 0)) (word n r.c)
        { r.setXhl .hl (stepPtr dec r.hl) with
          b := n
          f := ioxFl v n (lo8 (stepPtr dec r.hl))
          wz := stepPtr dec (word n r.c) } (outOf o))

/-- `LD A,I` and `LD A,R`. -/
def ldAIrCycles (o : Opt) (v : U8) (r : Regs) : Cycles O R :=
  .idle r.ir 1 (if o.early && r.iff1 && r.iff2 then
      .irq fun b => fin (r.setAF (v, ldAIrFl v (!b) r.f.c))
    else fin (r.setAF (v, ldAIrFl v r.iff2 r.f.c)))

/-- Instructions after ED. -/
def edCycles (o : Opt) (k : IEd) (r : Regs) : Cycles O R :=
  match k with
  | .nop => fin r
  | .inC g => .inp r.bc fun v => fin { r.set .hl g v with f := inFl v r.f.c, wz := r.bc + 1 }
  | .outC g => .out r.bc (if g = .m then o.outC0 else r.get .hl g) fun x =>
      .done ({ r with wz := r.bc + 1 }, false, outOf x)
  | .sbcHl p =>
    let x := sbc16 r.hl (r.getRp .hl p) r.f.c
    .idle r.ir 7 (fin { r.setXhl .hl x.1 with f := x.2, wz := r.hl + 1 })
  | .adcHl p =>
    let x := adc16 r.hl (r.getRp .hl p) r.f.c
    .idle r.ir 7 (fin { r.setXhl .hl x.1 with f := x.2, wz := r.hl + 1 })
  | .ldNnRp p =>
    .rd16 r.pc fun a => .wr a (lo8 (r.getRp .hl p)) (.wr (a + 1) (hi8 (r.getRp .hl p))
      (fin { r.skip 2 with wz := a + 1 }))
  | .ldRpNn p =>
    .rd16 r.pc fun a => .rd16 a fun v => fin { (r.setRp .hl p v).skip 2 with wz := a + 1 }
  | .neg => fin (r.setAF (neg8 r.a))
  | .retn => popCycles r fun v r => fin { r.goto v with iff1 := r.iff2 }
  | .reti => .reti r.pc fun x => popCycles r fun v r =>
      .done ({ r.goto v with iff1 := r.iff2 }, false, retOf x)
  | .im n => fin { r with im := n }
  | .ldIA => .idle r.ir 1 (fin { r with i := r.a })
  | .ldRA => .idle r.ir 1 (fin { r with r := r.a })
  | .ldAI => ldAIrCycles o r.i r
  | .ldAR => ldAIrCycles o r.r r
  | .rld => .rd r.hl fun v =>
      let x := rld8 r.a v r.f.c
      .idle r.hl 4 (.wr r.hl x.2.1 (fin { r.setAF (x.1, x.2.2) with wz := r.hl + 1 }))
  | .rrd => .rd r.hl fun v =>
      let x := rrd8 r.a v r.f.c
      .idle r.hl 4 (.wr r.hl x.2.1 (fin { r.setAF (x.1, x.2.2) with wz := r.hl + 1 }))
  | .blk k dec rep => blkCycles k dec rep r

/-- Unprefixed instructions (other than the prefix bytes), with `x` in the place of HL. -/
def cycles0 (o : Opt) (x : Ix) (k : I0) (r : Regs) : Cycles O R :=
  match k with
  | .nop => fin r
  | .exAf => fin { r with a := r.a', f := r.f', a' := r.a, f' := r.f }
  | .djnz =>
    .idle r.ir 1 (if r.b - 1 ≠ 0 then relCycles { r with b := r.b - 1 }
      else .skip r.pc (fin { r.skip 1 with b := r.b - 1 }))
  | .jr => relCycles r
  | .jrCc c => if r.holds c then relCycles r else .skip r.pc (fin (r.skip 1))
  | .ldRpNn p => .rd16 r.pc fun v => fin ((r.setRp x p v).skip 2)
  | .addHl p =>
    let y := add16 (r.xhl x) (r.getRp x p) r.f
    .idle r.ir 7 (fin { r.setXhl x y.1 with f := y.2, wz := r.xhl x + 1 })
  | .ldRpA p => .wr (r.getRp .hl p) r.a (fin (r.wzStore o (lo8 (r.getRp .hl p))))
  | .ldARp p => .rd (r.getRp .hl p) fun v => fin { r with a := v, wz := r.getRp .hl p + 1 }
  | .ldNnHl =>
    .rd16 r.pc fun a => .wr a (lo8 (r.xhl x)) (.wr (a + 1) (hi8 (r.xhl x))
      (fin { r.skip 2 with wz := a + 1 }))
  | .ldHlNn => .rd16 r.pc fun a => .rd16 a fun v => fin { (r.setXhl x v).skip 2 with wz := a + 1 }
  | .ldNnA => .rd16 r.pc fun a => .wr a r.a (fin ((r.wzStore o (lo8 a)).skip 2))
  | .ldANn => .rd16 r.pc fun a => .rd a fun v => fin { r.skip 2 with a := v, wz := a + 1 }
  | .incRp p => .idle r.ir 2 (fin (r.setRp x p (r.getRp x p + 1)))
  | .decRp p => .idle r.ir 2 (fin (r.setRp x p (r.getRp x p - 1)))
  | .incR .m => operand x r fun a r =>
      modifyCycles a fun v => ((inc8 v r.f).1, { r with f := (inc8 v r.f).2 })
  | .incR g => fin { r.set x g (inc8 (r.get x g) r.f).1 with f := (inc8 (r.get x g) r.f).2 }
  | .decR .m => operand x r fun a r =>
      modifyCycles a fun v => ((dec8 v r.f).1, { r with f := (dec8 v r.f).2 })
  | .decR g => fin { r.set x g (dec8 (r.get x g) r.f).1 with f := (dec8 (r.get x g) r.f).2 }
  | .ldRN .m =>
    match x with
    | .hl => .rd r.pc fun v => .wr r.hl v (fin (r.skip 1))
    | x => .rd r.pc fun d => .rd (r.pc + 1) fun v => .idle (r.pc + 1) 2
        (.wr (r.xhl x + disp d) v (fin { r.skip 2 with wz := r.xhl x + disp d }))
  | .ldRN g => .rd r.pc fun v => fin ((r.set x g v).skip 1)
  | .accRot k => fin (r.setAF (k.accOp r.a r.f))
  | .daa => fin (r.setAF (daa8 r.a r.f))
  | .cpl => fin (r.setAF (cpl8 r.a r.f))
  | .scf => fin { r with f := scf8 (xySource r) r.f }
  | .ccf => fin { r with f := ccf8 (xySource r) r.f }
  | .halt => .done ({ r with pc := r.pc - 1, halted := true }, false, .halt)
  | .ldRR .m g => operand x r fun a r' => .wr a (r.get .hl g) (fin r')
  | .ldRR g .m => operand x r fun a r => .rd a fun v => fin (r.set .hl g v)
  | .ldRR d g => fin (r.set x d (r.get x g))
  | .aluR k .m => operand x r fun a r => .rd a fun v => fin (r.setAF (aluOp k r.a v r.f))
  | .aluR k g => fin (r.setAF (aluOp k r.a (r.get x g) r.f))
  | .aluN k => .rd r.pc fun v => fin ((r.setAF (aluOp k r.a v r.f)).skip 1)
  | .retCc c =>
    .idle r.ir 1 (if r.holds c then popCycles r fun v r => .done (r.goto v, true, .ok) else fin r)
  | .ret => popCycles r fun v r => fin (r.goto v)
  | .pop p => popCycles r fun v r => fin (r.setSp2 x p v)
  | .push p => .idle r.ir 1 (pushCycles (r.getSp2 x p) r fin)
  | .exx => fin { r with b := r.b', c := r.c', d := r.d', e := r.e', h := r.h', l := r.l',
                         b' := r.b, c' := r.c, d' := r.d, e' := r.e, h' := r.h, l' := r.l }
  | .jpHl => fin { r with pc := r.xhl x }
  | .ldSpHl => .idle r.ir 2 (fin { r with sp := r.xhl x })
  | .jp => .rd16 r.pc fun v => fin (r.goto v)
  | .jpCc c => .rd16 r.pc fun v => fin (if r.holds c then r.goto v else { r.skip 2 with wz := v })
  | .call => .rd16 r.pc fun v => .idle (r.pc + 1) 1
      (pushCycles (r.pc + 2) r fun r => fin (r.goto v))
  | .callCc c => .rd16 r.pc fun v =>
      if r.holds c then .idle (r.pc + 1) 1
        (pushCycles (r.pc + 2) r fun r => .done (r.goto v, true, .ok))
      else fin { r.skip 2 with wz := v }
  | .rst y => .idle r.ir 1 (pushCycles r.pc r fun r => fin (r.goto (BitVec.ofNat 16 (8 * y))))
  | .outNA => .rd r.pc fun n => .out (word r.a n) r.a fun x =>
      .done ((r.wzStore o n).skip 1, false, outOf x)
  | .inAN => .rd r.pc fun n => .inp (word r.a n) fun v =>
      fin { r.skip 1 with a := v, wz := word r.a n + 1 }
  | .exSpHl => .rd16 r.sp fun v => .idle (r.sp + 1) 1 (.wr (r.sp + 1) (hi8 (r.xhl x))
      (.wr r.sp (lo8 (r.xhl x)) (.idle r.sp 2 (fin { r.setXhl x v with wz := v }))))
  | .exDeHl => fin { r with d := r.h, e := r.l, h := r.d, l := r.e }
  | .di => fin { r with iff1 := false, iff2 := false }
  | .ei => fin { r with iff1 := true, iff2 := true, ei := true }
  | .cb | .dd | .ed | .fd => fin r

/-- End of an instruction: no prefix pending, flag history. -/
def endCycles (flags : Bool) (c : Cycles O R) : Cycles O R :=
  c.bind fun e => .done ({ e.1 with idx := .hl, q := e.1.q.map fun _ => flags }, e.2)

/-- The instruction whose first opcode byte `op` has been fetched, with PC past the byte. -/
def opCycles (o : Opt) (op : U8) (r : Regs) : Cycles O R :=
  let x := r.idx
  let r := { r with ei := false, halted := false }
  match decode op with
  | .dd => fin { r with idx := .ix, q := r.q.map fun _ => false }
  | .fd => fin { r with idx := .iy, q := r.q.map fun _ => false }
  | .ed =>
    let r1 := r.bumpR
    .m1 r1.pc r1.ir fun c => endCycles (fEd (decodeEd c)) (edCycles o (decodeEd c) (r1.skip 1))
  | .cb =>
    match x with
    | .hl =>
      let r1 := r.bumpR
      .m1 r1.pc r1.ir fun c => endCycles (fCb (decodeCb c)) (cbCycles (decodeCb c) (r1.skip 1))
    | x => .rd r.pc fun d => .rd (r.pc + 1) fun c => .idle (r.pc + 1) 2
        (endCycles (fCb (decodeCb c)) (xcbCycles (decodeCb c) (r.xhl x + disp d)
          { r.skip 2 with wz := r.xhl x + disp d }))
  | k => endCycles (f0 k) (cycles0 o x k r)

/-- Fetch an opcode and execute. -/
def fetchCycles (o : Opt) (r : Regs) : Cycles O R :=
  .m1 r.pc r.bumpR.ir fun op => opCycles o op (r.bumpR.skip 1)

/-- Acceptance of a maskable interrupt. -/
def irqCycles (o : Opt) (r : Regs) : Cycles O R :=
  let r := wake { r with iff1 := false, iff2 := false, ei := false }.bumpR
  .ack r.pc fun v =>
    match r.im with
    | 0 => opCycles o v r
    | 1 => endCycles false (.idle r.ir 1 (pushCycles r.pc r fun r => fin (r.goto 0x38)))
    | _ => .idle r.ir 1 (pushCycles r.pc r fun r => .rd16 (word r.i v) fun a =>
        endCycles false (fin (r.goto a)))

/-- Acceptance of a non-maskable interrupt. -/
def nmiCycles (r : Regs) : Cycles O R :=
  let r := wake { r with iff1 := false, ei := false }.bumpR
  .idleM1 r.pc (.idle r.ir 1 (pushCycles r.pc r fun r =>
    fin { r with pc := 0x66, q := r.q.map fun _ => false }))

/-- One step: interrupt, halted cycle, or instruction (or prefix byte). -/
def stepCycles (o : Opt) (r : Regs) : Cycles O R :=
  let go : Cycles O R :=
    if r.halted then .idleM1 r.pc (fin r.bumpR) else fetchCycles o r
  if irqOk r then .irq fun b => if b then irqCycles o r else go else go

end Z80.Spec
