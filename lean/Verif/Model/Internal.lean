import Verif.Model.Exec

/-!
# Instruction helpers (`/repo/src/z80/internal.rs`)

Arguments `control`, `tsc` and `flags: &mut CpuFlags` are implicit in the monad. A call such
as `control.read_mem(a, tsc.add_mreq(a))` is `let ts ← addMreq a; readMem a ts`: the
argument is evaluated first.
-/

namespace Z80
open Ex

variable {σ : Sig} {Q : Type}

section hostcalls
/-! Host calls, one per trait method. -/
/-- `Clock::add_mreq` (`/repo/src/host.rs` 209). -/
def addMreq (a : U16) : Ex σ Q σ.Ts := call (.addMreq a)
/-- `Clock::add_m1` (`/repo/src/host.rs` 205). -/
def addM1 (a : U16) : Ex σ Q σ.Ts := call (.addM1 a)
/-- `Clock::add_no_mreq` (`/repo/src/host.rs` 200). -/
def addNoMreq (a : U16) (n : U8) : Ex σ Q Unit := call (.addNoMreq a n)
/-- `Clock::add_io` (`/repo/src/host.rs` 212). -/
def addIo (p : U16) : Ex σ Q σ.Ts := call (.addIo p)
/-- `Clock::add_wait_states` (`/repo/src/host.rs` 216) under `if let Some(ws) = ws`. -/
def addWaitOpt (bus : U16) (ws : Option U16) : Ex σ Q Unit := fun s =>
  match ws with
  | none => .ret ((), s)
  | some w => call (.addWait bus w) s
/-- `Clock::as_timestamp` (`/repo/src/host.rs` 218). -/
def asTimestamp : Ex σ Q σ.Ts := call .asTimestamp
/-- `Memory::read_mem` (`/repo/src/host.rs` 332-334). -/
def readMem (a : U16) (ts : σ.Ts) : Ex σ Q U8 := call (.readMem a ts)
/-- `Memory::read_mem16` (`/repo/src/host.rs` 346-350). -/
def readMem16 (a : U16) (ts : σ.Ts) : Ex σ Q U16 := call (.readMem16 a ts)
/-- `Memory::read_opcode` (`/repo/src/host.rs` 364-367). -/
def readOpcode (pc ir : U16) (ts : σ.Ts) : Ex σ Q U8 := call (.readOpcode pc ir ts)
/-- `Memory::write_mem` (`/repo/src/host.rs` 375). -/
def writeMem (a : U16) (v : U8) (ts : σ.Ts) : Ex σ Q Unit := call (.writeMem a v ts)
/-- `Memory::read_debug` (`/repo/src/host.rs` 384-386). -/
def readDebug (a : U16) : Ex σ Q U8 := call (.readDebug a)
/-- `Io::read_io` (`/repo/src/host.rs` 244-246). -/
def readIo (p : U16) (ts : σ.Ts) : Ex σ Q (U8 × Option U16) := call (.readIo p ts)
/-- `Io::write_io` (`/repo/src/host.rs` 263-265). -/
def writeIo (p : U16) (v : U8) (ts : σ.Ts) : Ex σ Q (Option σ.O × Option U16) :=
  call (.writeIo p v ts)
/-- `Io::is_irq` (`/repo/src/host.rs` 274-276). -/
def isIrq (ts : σ.Ts) : Ex σ Q Bool := call (.isIrq ts)
/-- `Io::irq_data` (`/repo/src/host.rs` 292-294). -/
def irqData (pc : U16) (ts : σ.Ts) : Ex σ Q (U8 × Option U16) := call (.irqData pc ts)
/-- `Io::reti` (`/repo/src/host.rs` 310-312). -/
def retiCall (pc : U16) (ts : σ.Ts) : Ex σ Q (Option σ.R) := call (.reti pc ts)
/-- `Clock::is_past_limit` (`/repo/src/host.rs` 190). -/
def isPastLimit (l : σ.L) : Ex σ Q Bool := call (.isPastLimit l)
end hostcalls

/-- `cpu_debug!` (`/repo/src/z80/macros.rs` 42-170): calls the debugger, if given, with the
record built from the current prefix and program counter. -/
def dbg (codes : List U8) (mnemonic : String) (args : DbgArgs) : Ex σ Q Unit := fun s =>
  if s.deb then
    call (.debug (debugInstruction mnemonic args s.pfx codes s.pc)) s
  else .ret ((), s)

/-- `NO_MREQ_X1` .. `NO_MREQ_X7` (`/repo/src/z80/internal.rs` 20-26). -/
def X1 : U8 := 1#8
@[inherit_doc X1] def X2 : U8 := 2#8
@[inherit_doc X1] def X4 : U8 := 4#8
@[inherit_doc X1] def X5 : U8 := 5#8
@[inherit_doc X1] def X7 : U8 := 7#8

/-- `BlockDelta` (`/repo/src/z80/internal.rs` 31-36). -/
inductive BlockDelta | inc | dec
deriving DecidableEq, Repr
/-- `delta as u16`. -/
def BlockDelta.w : BlockDelta → U16 | .inc => 1#16 | .dec => 0xFFFF#16
/-- `delta as u8`. -/
def BlockDelta.b : BlockDelta → U8 | .inc => 1#8 | .dec => 0xFF#8

/-- `Rot::op` (`/repo/src/z80/internal.rs` 55-67). -/
def Rot.op (r : Rot) (v flags : U8) : U8 × U8 :=
  match r with
  | .RLC => Ops.rlc v flags
  | .RRC => Ops.rrc v flags
  | .RL => Ops.rl v flags
  | .RR => Ops.rr v flags
  | .SLA => Ops.sla v flags
  | .SRA => Ops.sra v flags
  | .SLL => Ops.sll v flags
  | .SRL => Ops.srl v flags

/-- `indexed_address!` (`/repo/src/z80/macros.rs` 36-40). -/
def indexedAddress (ii : U16) (d : U8) : U16 := ii + sext16 d
/-- `relative_jump_address!` (`/repo/src/z80/macros.rs` 439-443). -/
def relAddress (pc : U16) (e : U8) : U16 := pc + sext16 e

/-- `if let Some(n) = NonZeroU8::new(ADD) { tsc.add_no_mreq(a, n) }`, as in
`/repo/src/z80/internal.rs` 91-95. -/
def addNoMreqOpt (a : U16) (n : U8) : Ex σ Q Unit := when (n != 0#8) (addNoMreq a n)

/-- `fetch_next_opcode` (`/repo/src/z80/internal.rs` 74-82); the caller's assignment of `pc`
is included. -/
def fetchOpcode : Ex σ Q U8 := do
  modC Cpu.incR
  let pc ← getPc
  let c ← getC
  let ts ← addM1 pc
  let code ← readOpcode pc c.getIr ts
  setPc (pc + 1#16)
  pure code

/-- `fetch_next_imm8` (`/repo/src/z80/internal.rs` 85-97). -/
def fetchImm8 (add : U8) : Ex σ Q U8 := do
  let pc ← getPc
  let ts ← addMreq pc
  let code ← readMem pc ts
  addNoMreqOpt pc add
  setPc (pc + 1#16)
  pure code

/-- `fetch_next_imm16` (`/repo/src/z80/internal.rs` 100-114). -/
def fetchImm16 (add : U8) : Ex σ Q U16 := do
  let pc ← getPc
  let ts ← addMreq pc
  let nn ← readMem16 pc ts
  let _ ← addMreq (pc + 1#16)
  addNoMreqOpt (pc + 1#16) add
  setPc (pc + 2#16)
  pure nn

/-- `self.flavour.flags_modified()` (`flags_op!`, `/repo/src/z80/macros.rs` 431-435). -/
def flagsOp [Flavour Q] : Ex σ Q Unit :=
  modC fun c => { c with flavour := Flavour.flagsModified c.flavour }

/-- Set `flags` and report the modification, the usual ending of an arithmetic operation. -/
def setFlagsOp [Flavour Q] (f : U8) : Ex σ Q Unit := do
  setF f
  flagsOp

/-- `ex_de_hl` (`/repo/src/z80/internal.rs` 117-119). -/
def exDeHl : Ex σ Q Unit := modC fun c => { c with de := c.hl, hl := c.de }

/-- `ex_af_af_with_flags` (`/repo/src/z80/internal.rs` 122-127) and the assignment of its
result to `flags`. -/
def exAfAfWithFlags : Ex σ Q Unit := do
  let flags ← getF
  modC fun c => { c with af := c.afAlt, afAlt := ⟨c.af.hi, flags⟩ }
  let c ← getC
  setF c.getFlags

/-- `load_reg` (`/repo/src/z80/internal.rs` 130-132). -/
def loadReg (dst src : Reg8) (p : Option Prefix) : Ex σ Q Unit :=
  modC fun c => c.setReg dst p (c.getReg src p)

/-- `pop16` (`/repo/src/z80/internal.rs` 196-204). -/
def pop16 : Ex σ Q U16 := do
  let c ← getC
  let sp := c.sp
  let ts ← addMreq sp
  let val ← readMem16 sp ts
  let _ ← addMreq (sp + 1#16)
  modC fun c => c.setSp (sp + 2#16)
  pure val

/-- `push2` (`/repo/src/z80/internal.rs` 215-223). -/
def push2 (vhi vlo : U8) : Ex σ Q Unit := do
  let c ← getC
  let sp := c.sp - 1#16
  let ts ← addMreq sp
  writeMem sp vhi ts
  let sp := sp - 1#16
  let ts ← addMreq sp
  writeMem sp vlo ts
  modC fun c => c.setSp sp

/-- `push16` (`/repo/src/z80/internal.rs` 207-212). -/
def push16 (val : U16) : Ex σ Q Unit := push2 (hi8 val) (lo8 val)

/-- The register value pushed by `push_ss` (`/repo/src/z80/internal.rs` 230-235). -/
def stkSource (c : Cpu Q) (flags : U8) : StkReg16 → RegPair
  | .BC => c.bc
  | .DE => c.de
  | .HL => c.hl
  | .AF => ⟨c.af.hi, flags⟩

/-- `push_ss` (`/repo/src/z80/internal.rs` 225-238). -/
def pushSs (ss : StkReg16) : Ex σ Q Unit := do
  let c ← getC
  addNoMreq c.getIr X1
  let flags ← getF
  push2 (stkSource c flags ss).hi (stkSource c flags ss).lo

/-- `pop_ss` (`/repo/src/z80/internal.rs` 240-254). -/
def popSs (ss : StkReg16) : Ex σ Q Unit := do
  let val ← pop16
  match ss with
  | .BC => modC fun c => { c with bc := .of16 val }
  | .DE => modC fun c => { c with de := .of16 val }
  | .HL => modC fun c => { c with hl := .of16 val }
  | .AF => do
    setF (lo8 val)
    modC fun c => { c with af := .of16 val }

/-- `apply_reg8` (`/repo/src/z80/internal.rs` 278-285) with an operation that also updates
flags. -/
def applyReg8 (tgt : Reg8) (p : Option Prefix) (op : U8 → U8 → U8 × U8) : Ex σ Q Unit := do
  let c ← getC
  let flags ← getF
  setF (op (c.getReg tgt p) flags).2
  modC fun c' => c'.setReg tgt p (op (c.getReg tgt p) flags).1

/-- `block_transfer` (`/repo/src/z80/internal.rs` 364-391). `rep` tells whether `pc` was
passed (`Some(pc)`); the caller's `if let Some(pc) = .. { $pc = pc }` is included. -/
def blockTransfer [Flavour Q] (delta : BlockDelta) (rep : Bool) : Ex σ Q Unit := do
  let c ← getC
  let hl := c.hl.get16
  let de := c.de.get16
  let ts ← addMreq hl
  let val ← readMem hl ts
  let ts ← addMreq de
  writeMem de val ts
  addNoMreq de X2
  let bc := c.bc.get16 - 1#16
  modC fun c => { c with hl := .of16 (hl + delta.w), de := .of16 (de + delta.w), bc := .of16 bc }
  let isOver := bc == 0#16
  let flags ← getF
  setFlagsOp (Ops.ldx c.af.hi val isOver flags)
  when (rep && !isOver) do
    addNoMreq de X5
    let pc ← getPc
    modC fun c => c.setMemptr (pc - 1#16)
    setPc (pc - 2#16)

/-- `block_search` (`/repo/src/z80/internal.rs` 394-419). -/
def blockSearch [Flavour Q] (delta : BlockDelta) (rep : Bool) : Ex σ Q Unit := do
  let c ← getC
  let hl := c.hl.get16
  let ts ← addMreq hl
  let val ← readMem hl ts
  addNoMreq hl X5
  let bc := c.bc.get16 - 1#16
  modC fun c => { c with hl := .of16 (hl + delta.w), bc := .of16 bc }
  let flags ← getF
  let res := Ops.cpx c.af.hi val (bc == 0#16) flags
  setFlagsOp res.2
  ifElse (rep && !res.1) (do
      addNoMreq hl X5
      let pc ← getPc
      modC fun c => c.setMemptr (pc - 1#16)
      setPc (pc - 2#16))
    (modC fun c => c.setMemptr (c.memptr + delta.w))

/-- `block_in` (`/repo/src/z80/internal.rs` 422-449). -/
def blockIn [Flavour Q] (delta : BlockDelta) (rep : Bool) : Ex σ Q Unit := do
  let c ← getC
  addNoMreq c.getIr X1
  let bc := c.bc.get16
  let ts ← addIo bc
  let res ← readIo bc ts
  addWaitOpt bc res.2
  let hl := c.hl.get16
  let ts ← addMreq hl
  writeMem hl res.1 ts
  modC fun c => c.setMemptr (bc + delta.w)
  let b := hi8 bc - 1#8
  let flags ← getF
  setFlagsOp (Ops.iox res.1 b (lo8 bc + delta.b) flags)
  modC fun c => { c with bc := { c.bc with hi := b }, hl := .of16 (hl + delta.w) }
  when (rep && b != 0#8) do
    addNoMreq hl X5
    let pc ← getPc
    setPc (pc - 2#16)

/-- `block_out` (`/repo/src/z80/internal.rs` 452-484). -/
def blockOut [Flavour Q] (delta : BlockDelta) (rep : Bool) : Ex σ Q (Option σ.O) := do
  let c ← getC
  addNoMreq c.getIr X1
  let hl := c.hl.get16
  let ts ← addMreq hl
  let data ← readMem hl ts
  let hl1 := hl + delta.w
  let b := c.bc.hi - 1#8
  let flags ← getF
  setFlagsOp (Ops.iox data b (lo8 hl1) flags)
  let bc := word b c.bc.lo
  modC fun c => c.setMemptr (bc + delta.w)
  let ts ← addIo bc
  let res ← writeIo bc data ts
  addWaitOpt bc res.2
  modC fun c => { c with bc := { c.bc with hi := b }, hl := .of16 hl1 }
  when (rep && b != 0#8) do
    addNoMreq bc X5
    let pc ← getPc
    setPc (pc - 2#16)
  pure res.1

/-- The match of `op8` (`/repo/src/z80/internal.rs` 488-497): new accumulator and flags. -/
def op8Fn (op : Ops8) (a val flags : U8) : U8 × U8 :=
  match op with
  | .ADD => Ops.add a val flags
  | .ADC => Ops.adc a val flags
  | .SUB => Ops.sub a val flags
  | .SBC => Ops.sbc a val flags
  | .AND => Ops.and a val flags
  | .XOR => Ops.xor a val flags
  | .OR => Ops.or a val flags
  | .CP => (a, Ops.cp a val flags)

/-- `op8` (`/repo/src/z80/internal.rs` 487-499). -/
def op8 [Flavour Q] (op : Ops8) (val : U8) : Ex σ Q Unit := do
  let c ← getC
  let flags ← getF
  modC fun c' => c'.setAcc (op8Fn op c.af.hi val flags).1
  setFlagsOp (op8Fn op c.af.hi val flags).2

/-- `read_mem8_hl` (`/repo/src/z80/internal.rs` 755-766). -/
def readMem8Hl (add : U8) : Ex σ Q U8 := do
  let c ← getC
  let ts ← addMreq c.hl.get16
  let val ← readMem c.hl.get16 ts
  addNoMreqOpt c.hl.get16 add
  pure val

/-- `op8_with_arg` (`/repo/src/z80/internal.rs` 502-513). -/
def op8WithArg [Flavour Q] (op : Ops8) (arg : Option Reg8) : Ex σ Q Unit :=
  match arg with
  | some src => do
    let c ← getC
    op8 op (c.getReg src none)
  | none => do
    let val ← readMem8Hl 0#8
    op8 op val

/-- `ld_a_from_mem8` (`/repo/src/z80/internal.rs` 516-523). -/
def ldAFromMem8 (addr : U16) : Ex σ Q Unit := do
  modC fun c => c.setMemptr (addr + 1#16)
  let ts ← addMreq addr
  let n ← readMem addr ts
  modC fun c => c.setAcc n

/-- `self.memptr = Q::memptr_mix(msb, lsb).into()` (`/repo/src/z80/internal.rs` 531, 728, 800). -/
def setMemptrMix [Flavour Q] (msb lsb : U8) : Ex σ Q Unit :=
  modC fun c => c.setMemptr
    (word (Flavour.memptrMix Q msb lsb).1 (Flavour.memptrMix Q msb lsb).2)

/-- `ld_mem8_from_a` (`/repo/src/z80/internal.rs` 526-533). -/
def ldMem8FromA [Flavour Q] (addr : U16) : Ex σ Q Unit := do
  let c ← getC
  setMemptrMix c.af.hi (lo8 addr)
  let ts ← addMreq addr
  writeMem addr c.af.hi ts

/-- `ex_sp_nn` (`/repo/src/z80/internal.rs` 536-554). -/
def exSpNn (v : RegPair) : Ex σ Q U16 := do
  let c ← getC
  let sp := c.sp
  let ts ← addMreq sp
  let val ← readMem16 sp ts
  let _ ← addMreq (sp + 1#16)
  addNoMreq (sp + 1#16) X1
  let ts ← addMreq (sp + 1#16)
  writeMem (sp + 1#16) v.hi ts
  let ts ← addMreq sp
  writeMem sp v.lo ts
  addNoMreq sp X2
  modC fun c => c.setMemptr val
  pure val

/-- `instr_rxd` (`/repo/src/z80/internal.rs` 557-574). -/
def instrRxd [Flavour Q] (rxd : U8 → U8 → U8 → U8 × U8 × U8) : Ex σ Q Unit := do
  let c ← getC
  let hl := c.hl.get16
  modC fun c => c.setMemptr (hl + 1#16)
  let ts ← addMreq hl
  let val ← readMem hl ts
  addNoMreq hl X4
  let flags ← getF
  let res := rxd c.af.hi val flags
  let ts ← addMreq hl
  writeMem hl res.2.1 ts
  modC fun c => c.setAcc res.1
  setFlagsOp res.2.2

/-- `op16_reg16` (`/repo/src/z80/internal.rs` 576-590). -/
def op16Reg16 [Flavour Q] (op16 : U16 → U16 → U8 → RegPair × U8) (v nn : U16) :
    Ex σ Q RegPair := do
  let c ← getC
  addNoMreq c.getIr X7
  modC fun c => c.setMemptr (v + 1#16)
  let flags ← getF
  setFlagsOp (op16 v nn flags).2
  pure (op16 v nn flags).1

/-- `write_mem16_addr16` (`/repo/src/z80/internal.rs` 593-604). -/
def writeMem16Addr16 (addr : U16) (vhi vlo : U8) : Ex σ Q Unit := do
  let ts ← addMreq addr
  writeMem addr vlo ts
  modC fun c => c.setMemptr (addr + 1#16)
  let ts ← addMreq (addr + 1#16)
  writeMem (addr + 1#16) vhi ts

/-- `read_mem16_addr16` (`/repo/src/z80/internal.rs` 607-617). -/
def readMem16Addr16 (addr : U16) : Ex σ Q U16 := do
  let ts ← addMreq addr
  let val ← readMem16 addr ts
  modC fun c => c.setMemptr (addr + 1#16)
  let _ ← addMreq (addr + 1#16)
  pure val

/-- `r_op_w_mem8` (`/repo/src/z80/internal.rs` 620-630), with an operation that also updates
flags. -/
def rOpWMem8 (op : U8 → U8 → U8 × U8) : Ex σ Q Unit := do
  let c ← getC
  let hl := c.hl.get16
  let ts ← addMreq hl
  let val ← readMem hl ts
  let flags ← getF
  setF (op val flags).2
  addNoMreq hl X1
  let ts ← addMreq hl
  writeMem hl (op val flags).1 ts

/-- `instr_inc_dec8` (`/repo/src/z80/internal.rs` 633-646). -/
def instrIncDec8 [Flavour Q] (arg : Option Reg8) (op : U8 → U8 → U8 × U8) : Ex σ Q Unit := do
  match arg with
  | some src => do
    applyReg8 src none op
    flagsOp
  | none => do
    rOpWMem8 op
    flagsOp

/-- `instr_inc_dec_x_mem8` (`/repo/src/z80/internal.rs` 649-666). -/
def instrIncDecXMem8 [Flavour Q] (p : Prefix) (d : U8) (op : U8 → U8 → U8 × U8) :
    Ex σ Q Unit := do
  let c ← getC
  let iid := indexedAddress (c.getIndex16 p) d
  let ts ← addMreq iid
  let v ← readMem iid ts
  let flags ← getF
  setFlagsOp (op v flags).2
  addNoMreq iid X1
  modC fun c => c.setMemptr iid
  let ts ← addMreq iid
  writeMem iid (op v flags).1 ts

/-- `instr_ld_a_from_ir` (`/repo/src/z80/internal.rs` 669-693). `&&` short-circuits, so
`is_irq` is called only when `iff2`, the flavour constant and `iff1` all hold. -/
def instrLdAFromIr [Flavour Q] (i : Bool) : Ex σ Q Unit := do
  let c ← getC
  let ir := c.getIr
  addNoMreq ir X1
  let val := if i then hi8 ir else lo8 ir
  let iff2 ← ifElse (c.iff2 && (Flavour.early Q && c.iff1)) (do
      let ts ← asTimestamp
      let irq ← isIrq ts
      pure (!irq))
    (pure c.iff2)
  let flags ← getF
  setFlagsOp (Ops.ldAIr val iff2 flags)
  modC fun c => c.setAcc val

/-- `instr_ld_ir_from_a` (`/repo/src/z80/internal.rs` 696-708). -/
def instrLdIrFromA (i : Bool) : Ex σ Q Unit := do
  let c ← getC
  addNoMreq c.getIr X1
  modC fun c => if i then c.setI c.af.hi else c.setR c.af.hi

/-- `if BC { self.regs.bc } else { self.regs.de }` (`/repo/src/z80/internal.rs` 714, 726). -/
def rpOf (c : Cpu Q) (bc : Bool) : U16 := if bc then c.bc.get16 else c.de.get16

/-- `instr_ld_a_from_rp` (`/repo/src/z80/internal.rs` 711-719). -/
def instrLdAFromRp (bc : Bool) : Ex σ Q Unit := do
  let c ← getC
  let rp := rpOf c bc
  modC fun c => c.setMemptr (rp + 1#16)
  let ts ← addMreq rp
  let n ← readMem rp ts
  modC fun c => c.setAcc n

/-- `instr_ld_rp_from_a` (`/repo/src/z80/internal.rs` 722-732). -/
def instrLdRpFromA [Flavour Q] (bc : Bool) : Ex σ Q Unit := do
  let c ← getC
  let rp := rpOf c bc
  setMemptrMix c.af.hi (lo8 rp)
  let ts ← addMreq rp
  writeMem rp c.af.hi ts

/-- `write_mem8_hl` (`/repo/src/z80/internal.rs` 735-740). -/
def writeMem8Hl (val : U8) : Ex σ Q Unit := do
  let c ← getC
  let ts ← addMreq c.hl.get16
  writeMem c.hl.get16 val ts

/-- `write_mem8_ii_d` (`/repo/src/z80/internal.rs` 743-752). -/
def writeMem8IiD (p : Prefix) (d val : U8) : Ex σ Q Unit := do
  let c ← getC
  let iid := indexedAddress (c.getIndex16 p) d
  modC fun c => c.setMemptr iid
  let ts ← addMreq iid
  writeMem iid val ts

/-- `read_mem8_ii_d` (`/repo/src/z80/internal.rs` 769-778). -/
def readMem8IiD (p : Prefix) (d : U8) : Ex σ Q U8 := do
  let c ← getC
  let iid := indexedAddress (c.getIndex16 p) d
  modC fun c => c.setMemptr iid
  let ts ← addMreq iid
  readMem iid ts

/-- `io_a_inp_an` (`/repo/src/z80/internal.rs` 781-792). -/
def ioAInpAn (n : U8) : Ex σ Q Unit := do
  let c ← getC
  let port := word c.af.hi n
  modC fun c => c.setMemptr (port + 1#16)
  let ts ← addIo port
  let res ← readIo port ts
  addWaitOpt port res.2
  modC fun c => c.setAcc res.1

/-- `io_a_out_an` (`/repo/src/z80/internal.rs` 795-807). -/
def ioAOutAn [Flavour Q] (n : U8) : Ex σ Q (Option σ.O) := do
  let c ← getC
  setMemptrMix c.af.hi n
  let port := word c.af.hi n
  let ts ← addIo port
  let res ← writeIo port c.af.hi ts
  addWaitOpt port res.2
  pure res.1

/-- `io_r_inp_bc` (`/repo/src/z80/internal.rs` 810-827). -/
def ioRInpBc [Flavour Q] (arg : Option Reg8) : Ex σ Q Unit := do
  let c ← getC
  let bc := c.bc.get16
  let ts ← addIo bc
  let res ← readIo bc ts
  addWaitOpt bc res.2
  let flags ← getF
  setFlagsOp (Ops.io res.1 flags)
  modC fun c => c.setMemptr (bc + 1#16)
  match arg with
  | some dst => modC fun c => c.setReg dst none res.1
  | none => pure ()

/-- The value sent by `io_r_out_bc` (`/repo/src/z80/internal.rs` 838-845). -/
def outValue [Flavour Q] (c : Cpu Q) : Option Reg8 → U8
  | some src => c.getReg src none
  | none => Flavour.constOut Q

/-- `io_r_out_bc` (`/repo/src/z80/internal.rs` 830-851). -/
def ioROutBc [Flavour Q] (arg : Option Reg8) : Ex σ Q (Option σ.O) := do
  let c ← getC
  let bc := c.bc.get16
  modC fun c => c.setMemptr (bc + 1#16)
  let ts ← addIo bc
  let res ← writeIo bc (outValue c arg) ts
  addWaitOpt bc res.2
  pure res.1

/-- An operation that leaves flags alone. -/
def noFlags (f : U8 → U8) : U8 → U8 → U8 × U8 := fun v flags => (f v, flags)

/-- `bitops` (`/repo/src/z80/internal.rs` 854-905). -/
def bitops [Flavour Q] (b : BitOps) : Ex σ Q Unit :=
  match b with
  | .rot rot (some reg) => do
    applyReg8 reg none rot.op
    flagsOp
  | .rot rot none => do
    rOpWMem8 rot.op
    flagsOp
  | .bit n (some reg) => do
    let c ← getC
    let flags ← getF
    setFlagsOp (Ops.bit n (c.getReg reg none) flags)
  | .bit n none => do
    let val ← readMem8Hl X1
    let c ← getC
    let flags ← getF
    setFlagsOp (Ops.bitMp n val (hi8 c.memptr) flags)
  | .res n (some reg) => applyReg8 reg none (noFlags (Ops.res n))
  | .res n none => rOpWMem8 (noFlags (Ops.res n))
  | .set n (some reg) => applyReg8 reg none (noFlags (Ops.set n))
  | .set n none => rOpWMem8 (noFlags (Ops.set n))

/-- `write_mem` and register copy ending `bitops_qq` (`/repo/src/z80/internal.rs` 938-942). -/
def bitopsQqEnd (iid : U16) (result : U8) (arg : Option Reg8) : Ex σ Q Unit := do
  let ts ← addMreq iid
  writeMem iid result ts
  match arg with
  | some reg => modC fun c => c.setReg reg none result
  | none => pure ()

/-- `bitops_qq` (`/repo/src/z80/internal.rs` 908-944). -/
def bitopsQq [Flavour Q] (b : BitOps) (p : Prefix) (d : U8) : Ex σ Q Unit := do
  let c ← getC
  let iid := indexedAddress (c.getIndex16 p) d
  modC fun c => c.setMemptr iid
  let ts ← addMreq iid
  let val ← readMem iid ts
  addNoMreq iid X1
  let flags ← getF
  match b with
  | .rot rot arg => do
    setFlagsOp (rot.op val flags).2
    bitopsQqEnd iid (rot.op val flags).1 arg
  | .bit n _ => setFlagsOp (Ops.bitMp n val (hi8 iid) flags)
  | .res n arg => bitopsQqEnd iid (Ops.res n val) arg
  | .set n arg => bitopsQqEnd iid (Ops.set n val) arg

end Z80
