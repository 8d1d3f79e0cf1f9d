import Verif.Model.Internal
import Verif.Model.Decode

/-!
# Instruction bodies (`run_mnemonic!`, `/repo/src/z80/instructions.rs`)

Line numbers in arm comments refer to `/repo/src/z80/instructions.rs`. A body returns
`.cont` when it falls through and the loop exit reason when it executes `break $main ..`.
-/

namespace Z80
open Ex

variable {σ : Sig} {Q : Type} [Flavour Q]

/-- Shorthands for the argument forms of `cpu_debug!` (`/repo/src/z80/macros.rs` 122-168). -/
def dA : DbgArg := .reg8 none .A
@[inherit_doc dA] def dR (r : Reg8) : DbgArg := .reg8 none r
@[inherit_doc dA] def dRR (r : Reg16) : DbgArg := .reg16 none r
@[inherit_doc dA] def dAddr (r : Reg16) : DbgArg := .addr (.regAddr r)
@[inherit_doc dA] def dNN (nn : U16) : DbgArg := .addr (.immAddr nn)
@[inherit_doc dA] def dIid (p : Prefix) (d : U8) : DbgArg := .addr (.indexAddr p (some d))
@[inherit_doc dA] def dII (p : Prefix) : DbgArg := .reg16 (some p) .HL
@[inherit_doc dA] def dRAddr : Option Reg8 → DbgArg
  | some r => dR r
  | none => dAddr .HL

/-- `stringify!` of the operation names (`/repo/src/cpu/parse.rs`, `Display` derives). -/
def Ops8.toStr : Ops8 → String
  | .ADD => "ADD" | .ADC => "ADC" | .SUB => "SUB" | .SBC => "SBC"
  | .AND => "AND" | .XOR => "XOR" | .OR => "OR" | .CP => "CP"
@[inherit_doc Ops8.toStr] def Rot.toStr : Rot → String
  | .RLC => "RLC" | .RRC => "RRC" | .RL => "RL" | .RR => "RR"
  | .SLA => "SLA" | .SRA => "SRA" | .SLL => "SLL" | .SRL => "SRL"

/-- `op8(..)` debug arguments (`/repo/src/z80/macros.rs` 69-77). -/
def op8Args (op : Ops8) (a : DbgArg) : DbgArgs :=
  match op with
  | .ADD | .ADC | .SBC => .double dA a
  | _ => .single a

/-- `bitops(..)` mnemonic and arguments (`/repo/src/z80/macros.rs` 79-88). -/
def bitopsDbg : BitOps → String × DbgArgs
  | .rot r arg => (r.toStr, .single (dRAddr arg))
  | .bit b arg => ("BIT", .double (.bit b) (dRAddr arg))
  | .res b arg => ("RES", .double (.bit b) (dRAddr arg))
  | .set b arg => ("SET", .double (.bit b) (dRAddr arg))

/-- `b:.., ii:.., maybe_r:..` (`/repo/src/z80/macros.rs` 106-111). -/
def bitExtArgs (b : Nat) (a : DbgArg) : Option Reg8 → DbgArgs
  | some r => .bitOpExt b a r
  | none => .double (.bit b) a

/-- `bitops(..) ii:d` mnemonic and arguments (`/repo/src/z80/macros.rs` 89-98). -/
def bitopsIidDbg (p : Prefix) (d : U8) : BitOps → String × DbgArgs
  | .rot r (some reg) => (r.toStr, .double (dIid p d) (dR reg))
  | .rot r none => (r.toStr, .single (dIid p d))
  | .bit b _ => ("BIT", .double (.bit b) (dIid p d))
  | .res b arg => ("RES", bitExtArgs b (dIid p d) arg)
  | .set b arg => ("SET", bitExtArgs b (dIid p d) arg)

/-- `instr_acc_op!` (897-912). -/
def instrAccOp (codes : List U8) (name : String) (op : U8 → U8 → U8 × U8) :
    Ex σ Q (Exit σ) := do
  dbg codes name .none
  let c ← getC
  let flags ← getF
  modC fun c' => c'.setAcc (op c.af.hi flags).1
  setFlagsOp (op c.af.hi flags).2
  pure .cont

/-- `DAA` (31-33): as `instr_acc_op!`, with the unreachable arms of `ops::daa`. -/
def instrDaa (codes : List U8) : Ex σ Q (Exit σ) := do
  dbg codes "DAA" .none
  let c ← getC
  let flags ← getF
  match Ops.daa c.af.hi flags with
  | some r => do
    modC fun c' => c'.setAcc r.1
    setFlagsOp r.2
    pure .cont
  | none => pure .ub

/-- `if let Some(cause) = should_break { break $main LoopExitReason::WriteIo(cause) }`. -/
def breakIo : Option σ.O → Exit σ
  | some o => .writeIo o
  | none => .cont
/-- `if let Some(cause) = should_break { break $main LoopExitReason::Reti(cause) }`. -/
def breakReti : Option σ.R → Exit σ
  | some r => .reti r
  | none => .cont

/-- The `else` branch of `JR cc,e` and `DJNZ` (542-547, 574-578): the displacement is read by
`read_debug` only. -/
def skipRel (code : U8) (name : String) (args : U16 → DbgArgs) : Ex σ Q Unit := do
  let pc ← getPc
  let _ ← addMreq pc
  let e ← readDebug pc
  setPc (pc + 1#16)
  dbg [code, e] name (args (relAddress (pc + 1#16) e))

/-- The taken branch of `JR` and `DJNZ` (523-529, 536-541, 565-572). -/
def takeRel (code : U8) (name : String) (args : U16 → DbgArgs) : Ex σ Q Unit := do
  let e ← fetchImm8 X5
  let pc ← getPc
  dbg [code, e] name (args (relAddress pc e))
  modC fun c => c.setMemptr (relAddress pc e)
  setPc (relAddress pc e)

/-- `match_instruction!(ED ..)` bodies. `c0` is 0xED, `c1` the second byte. -/
def instrE (m : ME) (c0 c1 : U8) : Ex σ Q (Exit σ) :=
  match m with
  | .nop => do -- 28-30
    dbg [c0, c1] "NOP*" .none
    pure .cont
  | .neg => instrAccOp [c0, c1] "NEG" Ops.neg -- 37-39
  | .im0 => do -- 72-77
    dbg [c0, c1] "IM" (.single (.intMode .mode0))
    modC fun c => c.setIm .mode0
    pure .cont
  | .im1 => do -- 72-77
    dbg [c0, c1] "IM" (.single (.intMode .mode1))
    modC fun c => c.setIm .mode1
    pure .cont
  | .im2 => do -- 72-77
    dbg [c0, c1] "IM" (.single (.intMode .mode2))
    modC fun c => c.setIm .mode2
    pure .cont
  | .ldDdMem => do -- 194-203
    let addr ← fetchImm16 0#8
    dbg [c0, c1, lo8 addr, hi8 addr] "LD" (.double (dRR (Reg16.fromCode c1)) (dNN addr))
    let nn ← readMem16Addr16 addr
    modC fun c => c.setReg16' (Reg16.fromCode c1) nn
    pure .cont
  | .ldMemDd => do -- 204-212
    let addr ← fetchImm16 0#8
    dbg [c0, c1, lo8 addr, hi8 addr] "LD" (.double (dNN addr) (dRR (Reg16.fromCode c1)))
    let c ← getC
    writeMem16Addr16 addr (hi8 (c.reg16 (Reg16.fromCode c1))) (lo8 (c.reg16 (Reg16.fromCode c1)))
    pure .cont
  | .ldAI => do -- 157-159, 862-879
    dbg [c0, c1] "LD" (.double dA .regI)
    instrLdAFromIr true
    pure .cont
  | .ldAR => do -- 163-165, 862-879
    dbg [c0, c1] "LD" (.double dA .regR)
    instrLdAFromIr false
    pure .cont
  | .ldIA => do -- 160-162, 883-891
    dbg [c0, c1] "LD" (.double .regI dA)
    instrLdIrFromA true
    pure .cont
  | .ldRA => do -- 166-168, 883-891
    dbg [c0, c1] "LD" (.double .regR dA)
    instrLdIrFromA false
    pure .cont
  | .adc => do -- 385-392
    dbg [c0, c1] "ADC" (.double (dRR .HL) (dRR (Reg16.fromCode c1)))
    let c ← getC
    let r ← op16Reg16 Ops.adc16 c.hl.get16 (c.reg16 (Reg16.fromCode c1))
    modC fun c => { c with hl := r }
    pure .cont
  | .sbc => do -- 393-400
    dbg [c0, c1] "SBC" (.double (dRR .HL) (dRR (Reg16.fromCode c1)))
    let c ← getC
    let r ← op16Reg16 Ops.sbc16 c.hl.get16 (c.reg16 (Reg16.fromCode c1))
    modC fun c => { c with hl := r }
    pure .cont
  | .rld => do -- 488-493
    dbg [c0, c1] "RLD" .none
    instrRxd Ops.rld
    pure .cont
  | .rrd => do -- 494-499
    dbg [c0, c1] "RRD" .none
    instrRxd Ops.rrd
    pure .cont
  | .retn => do -- 631-650
    modC Cpu.restoreIff1
    let sb ← ifElse (c1 == 0x4D#8) (do
        dbg [c0, c1] "RETI" .none
        let ts ← asTimestamp
        let pc ← getPc
        retiCall pc ts)
      (do
        dbg [c0, c1] "RETN" .none
        pure none)
    let addr ← pop16
    modC fun c => c.setMemptr addr
    setPc addr
    pure (breakReti sb)
  | .ldi => do -- 279-285
    dbg [c0, c1] "LDI" .none
    blockTransfer .inc false
    pure .cont
  | .ldir => do -- 286-295
    dbg [c0, c1] "LDIR" .none
    blockTransfer .inc true
    pure .cont
  | .ldd => do -- 296-302
    dbg [c0, c1] "LDD" .none
    blockTransfer .dec false
    pure .cont
  | .lddr => do -- 303-312
    dbg [c0, c1] "LDDR" .none
    blockTransfer .dec true
    pure .cont
  | .cpi => do -- 313-319
    dbg [c0, c1] "CPI" .none
    blockSearch .inc false
    pure .cont
  | .cpir => do -- 320-329
    dbg [c0, c1] "CPIR" .none
    blockSearch .inc true
    pure .cont
  | .cpd => do -- 330-336
    dbg [c0, c1] "CPD" .none
    blockSearch .dec false
    pure .cont
  | .cpdr => do -- 337-346
    dbg [c0, c1] "CPDR" .none
    blockSearch .dec true
    pure .cont
  | .ini => do -- 703-709
    dbg [c0, c1] "INI" .none
    blockIn .inc false
    pure .cont
  | .inir => do -- 710-719
    dbg [c0, c1] "INIR" .none
    blockIn .inc true
    pure .cont
  | .ind => do -- 720-726
    dbg [c0, c1] "IND" .none
    blockIn .dec false
    pure .cont
  | .indr => do -- 727-736
    dbg [c0, c1] "INDR" .none
    blockIn .dec true
    pure .cont
  | .outi => do -- 780-789
    dbg [c0, c1] "OUTI" .none
    let sb ← blockOut .inc false
    pure (breakIo sb)
  | .otir => do -- 790-801
    dbg [c0, c1] "OTIR" .none
    let sb ← blockOut .inc true
    pure (breakIo sb)
  | .outd => do -- 802-811
    dbg [c0, c1] "OUTD" .none
    let sb ← blockOut .dec false
    pure (breakIo sb)
  | .otdr => do -- 812-823
    dbg [c0, c1] "OTDR" .none
    let sb ← blockOut .dec true
    pure (breakIo sb)
  | .inR => do -- 678-702
    dbg [c0, c1] "IN" (match Reg8.fromB53 c1 with
      | some r => .double (dR r) (.port .regPort)
      | none => .single (.port .regPort))
    ioRInpBc (Reg8.fromB53 c1)
    pure .cont
  | .outR => do -- 754-779
    dbg [c0, c1] "OUT" (match Reg8.fromB53 c1 with
      | some r => .double (.port .regPort) (dR r)
      | none => .single (.port .regPort))
    let sb ← ioROutBc (Reg8.fromB53 c1)
    pure (breakIo sb)

/-- `LD r,r | LD (HL),r | LD r,(HL) | HALT` (78-104). -/
def instrLdRR (code : U8) : Ex σ Q (Exit σ) :=
  match Reg8.fromB53 code, Reg8.fromB20 code with
  | some dst, some src => do
    dbg [code] "LD" (.double (dR dst) (dR src))
    loadReg dst src none
    pure .cont
  | some dst, none => do
    dbg [code] "LD" (.double (dR dst) (dAddr .HL))
    let n ← readMem8Hl 0#8
    modC fun c => c.setReg dst none n
    pure .cont
  | none, some src => do
    dbg [code] "LD" (.double (dAddr .HL) (dR src))
    let c ← getC
    writeMem8Hl (c.getReg src none)
    pure .cont
  | none, none => do
    dbg [code] "HALT" .none
    let pc ← getPc
    setPc (pc - 1#16)
    modC Cpu.doHalt
    pure .halt

/-- `match_instruction!(@none ..)` bodies. -/
def instr0 (m : M0) (code : U8) : Ex σ Q (Exit σ) :=
  match m with
  | .ldRR => instrLdRR code
  | .opsR => do -- 347-361
    let arg := Reg8.fromB20 code
    let op := Ops8.fromCode code
    dbg [code] op.toStr (op8Args op (dRAddr arg))
    op8WithArg op arg
    pure .cont
  | .cb => do -- 431-487
    let code1 ← fetchOpcode
    let b := BitOps.fromCode code1
    dbg [code, code1] (bitopsDbg b).1 (bitopsDbg b).2
    bitops b
    pure .cont
  | .dd => do -- `/repo/src/z80/opcodes.rs` 17
    setPfx (some .xdd)
    pure .cont
  | .fd => do -- `/repo/src/z80/opcodes.rs` 18
    setPfx (some .yfd)
    pure .cont
  | .ed => do -- `/repo/src/z80/opcodes.rs` 19-24
    let c1 ← fetchOpcode
    match decodeE c1 with
    | some m => instrE m code c1
    | none => pure .ub
  | .nop => do -- 56-58
    dbg [code] "NOP" .none
    pure .cont
  | .daa => instrDaa [code] -- 31-33
  | .cpl => instrAccOp [code] "CPL" Ops.cpl -- 34-36
  | .ccf => do -- 40-47
    dbg [code] "CCF" .none
    let c ← getC
    let flags ← getF
    setFlagsOp (Ops.ccf (Flavour.getQ c.flavour c.af.hi flags) flags)
    pure .cont
  | .scf => do -- 48-55
    dbg [code] "SCF" .none
    let c ← getC
    let flags ← getF
    setFlagsOp (Ops.scf (Flavour.getQ c.flavour c.af.hi flags) flags)
    pure .cont
  | .di => do -- 59-64
    dbg [code] "DI" .none
    modC Cpu.disableInterrupts
    pure .cont
  | .ei => do -- 65-71
    dbg [code] "EI" .none
    modC Cpu.enableInterrupts
    pure .enableInt
  | .exAf => do -- 259-264
    dbg [code] "EX" (.double (.stk16 .AF) (.stk16 .AF))
    exAfAfWithFlags
    pure .cont
  | .exDeHl => do -- 253-258
    dbg [code] "EX" (.double (dRR .DE) (dRR .HL))
    exDeHl
    pure .cont
  | .exx => do -- 265-270
    dbg [code] "EXX" .none
    modC Cpu.exx
    pure .cont
  | .ldRN => do -- 105-119
    let n ← fetchImm8 0#8
    match Reg8.fromB53 code with
    | some dst => do
      dbg [code, n] "LD" (.double (dR dst) (.imm8 n))
      modC fun c => c.setReg dst none n
      pure .cont
    | none => do
      dbg [code, n] "LD" (.double (dAddr .HL) (.imm8 n))
      writeMem8Hl n
      pure .cont
  | .ldABc => do -- 120-122, 836-844
    dbg [code] "LD" (.double dA (dAddr .BC))
    instrLdAFromRp true
    pure .cont
  | .ldADe => do -- 126-128, 836-844
    dbg [code] "LD" (.double dA (dAddr .DE))
    instrLdAFromRp false
    pure .cont
  | .ldBcA => do -- 123-125, 846-854
    dbg [code] "LD" (.double (dAddr .BC) dA)
    instrLdRpFromA true
    pure .cont
  | .ldDeA => do -- 129-131, 846-854
    dbg [code] "LD" (.double (dAddr .DE) dA)
    instrLdRpFromA false
    pure .cont
  | .ldANn => do -- 132-143
    let nn ← fetchImm16 0#8
    dbg [code, lo8 nn, hi8 nn] "LD" (.double dA (dNN nn))
    ldAFromMem8 nn
    pure .cont
  | .ldNnA => do -- 144-156
    let nn ← fetchImm16 0#8
    dbg [code, lo8 nn, hi8 nn] "LD" (.double (dNN nn) dA)
    ldMem8FromA nn
    pure .cont
  | .ldDdNn => do -- 169-176
    let nn ← fetchImm16 0#8
    dbg [code, lo8 nn, hi8 nn] "LD" (.double (dRR (Reg16.fromCode code)) (.imm16 nn))
    modC fun c => c.setReg16' (Reg16.fromCode code) nn
    pure .cont
  | .ldHlNn => do -- 177-185
    let addr ← fetchImm16 0#8
    dbg [code, lo8 addr, hi8 addr] "LD" (.double (dRR .HL) (dNN addr))
    let nn ← readMem16Addr16 addr
    modC fun c => { c with hl := .of16 nn }
    pure .cont
  | .ldNnHl => do -- 186-193
    let addr ← fetchImm16 0#8
    dbg [code, lo8 addr, hi8 addr] "LD" (.double (dNN addr) (dRR .HL))
    let c ← getC
    writeMem16Addr16 addr c.hl.hi c.hl.lo
    pure .cont
  | .ldSpHl => do -- 213-220
    dbg [code] "LD" (.double (dRR .SP) (dRR .HL))
    let c ← getC
    addNoMreq c.getIr X2
    modC fun c => c.setSp c.hl.get16
    pure .cont
  | .push => do -- 221-235
    dbg [code] "PUSH" (.single (.stk16 (StkReg16.fromCode code)))
    pushSs (StkReg16.fromCode code)
    pure .cont
  | .pop => do -- 236-252
    dbg [code] "POP" (.single (.stk16 (StkReg16.fromCode code)))
    popSs (StkReg16.fromCode code)
    pure .cont
  | .exSpHl => do -- 271-278
    dbg [code] "EX" (.double (dAddr .SP) (dRR .HL))
    let c ← getC
    let val ← exSpNn c.hl
    modC fun c => { c with hl := .of16 val }
    pure .cont
  | .opsN => do -- 362-370
    let n ← fetchImm8 0#8
    let op := Ops8.fromCode code
    dbg [code, n] op.toStr (op8Args op (.imm8 n))
    op8 op n
    pure .cont
  | .incR => do -- 371-373, 915-930
    dbg [code] "INC" (.single (dRAddr (Reg8.fromB53 code)))
    instrIncDec8 (Reg8.fromB53 code) Ops.inc
    pure .cont
  | .decR => do -- 374-376, 915-930
    dbg [code] "DEC" (.single (dRAddr (Reg8.fromB53 code)))
    instrIncDec8 (Reg8.fromB53 code) Ops.dec
    pure .cont
  | .addHl => do -- 377-384
    dbg [code] "ADD" (.double (dRR .HL) (dRR (Reg16.fromCode code)))
    let c ← getC
    let r ← op16Reg16 Ops.add16 c.hl.get16 (c.reg16 (Reg16.fromCode code))
    modC fun c => { c with hl := r }
    pure .cont
  | .incDd => do -- 401-409
    let c ← getC
    addNoMreq c.getIr X2
    dbg [code] "INC" (.single (dRR (Reg16.fromCode code)))
    modC fun c => c.setReg16' (Reg16.fromCode code) (c.reg16 (Reg16.fromCode code) + 1#16)
    pure .cont
  | .decDd => do -- 410-418
    let c ← getC
    addNoMreq c.getIr X2
    dbg [code] "DEC" (.single (dRR (Reg16.fromCode code)))
    modC fun c => c.setReg16' (Reg16.fromCode code) (c.reg16 (Reg16.fromCode code) - 1#16)
    pure .cont
  | .rlca => instrAccOp [code] "RLCA" Ops.rlca -- 419-421
  | .rrca => instrAccOp [code] "RRCA" Ops.rrca -- 422-424
  | .rla => instrAccOp [code] "RLA" Ops.rla -- 425-427
  | .rra => instrAccOp [code] "RRA" Ops.rra -- 428-430
  | .jp => do -- 500-508
    let addr ← fetchImm16 0#8
    dbg [code, lo8 addr, hi8 addr] "JP" (.single (.imm16 addr))
    modC fun c => c.setMemptr addr
    setPc addr
    pure .cont
  | .jpCc => do -- 509-521
    let addr ← fetchImm16 0#8
    let cc := Cond.fromCode code
    dbg [code, lo8 addr, hi8 addr] "JP" (.double (.cond cc) (.imm16 addr))
    modC fun c => c.setMemptr addr
    let flags ← getF
    when (cc.isSatisfied flags) (setPc addr)
    pure .cont
  | .jpHl => do -- 551-556
    dbg [code] "JP" (.single (dAddr .HL))
    let c ← getC
    setPc c.hl.get16
    pure .cont
  | .jr => do -- 522-531
    takeRel code "JR" fun a => .single (.imm16 a)
    pure .cont
  | .jrCc => do -- 532-550
    let cc := Cond.fromJrSubset code
    let flags ← getF
    ifElse (cc.isSatisfied flags) (takeRel code "JR" fun a => .double (.cond cc) (.imm16 a))
      (skipRel code "JR" fun a => .double (.cond cc) (.imm16 a))
    pure .cont
  | .djnz => do -- 557-581
    let c ← getC
    addNoMreq c.getIr X1
    let b := c.bc.hi - 1#8
    ifElse (b != 0#8) (takeRel code "DJNZ" fun a => .single (.imm16 a))
      (skipRel code "DJNZ" fun a => .single (.imm16 a))
    modC fun c => { c with bc := { c.bc with hi := b } }
    pure .cont
  | .call => do -- 582-591
    let addr ← fetchImm16 X1
    dbg [code, lo8 addr, hi8 addr] "CALL" (.single (.imm16 addr))
    let pc ← getPc
    push16 pc
    modC fun c => c.setMemptr addr
    setPc addr
    pure .cont
  | .callCc => do -- 592-607
    let addr ← fetchImm16 0#8
    let cc := Cond.fromCode code
    dbg [code, lo8 addr, hi8 addr] "CALL" (.double (.cond cc) (.imm16 addr))
    modC fun c => c.setMemptr addr
    let flags ← getF
    when (cc.isSatisfied flags) do
      let pc ← getPc
      addNoMreq (pc - 1#16) X1
      push16 pc
      setPc addr
    pure .cont
  | .ret => do -- 608-616
    dbg [code] "RET" .none
    let addr ← pop16
    modC fun c => c.setMemptr addr
    setPc addr
    pure .cont
  | .retCc => do -- 617-630
    let c ← getC
    addNoMreq c.getIr X1
    let cc := Cond.fromCode code
    dbg [code] "RET" (.single (.cond cc))
    let flags ← getF
    when (cc.isSatisfied flags) do
      let addr ← pop16
      modC fun c => c.setMemptr addr
      setPc addr
    pure .cont
  | .rst => do -- 651-662
    let c ← getC
    addNoMreq c.getIr X1
    let addr := parseRestartAddress code
    dbg [code] "RST" (.single (.imm8 (lo8 addr)))
    let pc ← getPc
    push16 pc
    modC fun c => c.setMemptr addr
    setPc addr
    pure .cont
  | .inAN => do -- 663-677
    let n ← fetchImm8 0#8
    dbg [code, n] "IN" (.double dA (.port (.immPort n)))
    ioAInpAn n
    pure .cont
  | .outNA => do -- 737-753
    let n ← fetchImm8 0#8
    dbg [code, n] "OUT" (.double (.port (.immPort n)) dA)
    let sb ← ioAOutAn n
    pure (breakIo sb)

/-- `instr_inc_dec8!` with a prefix (1179-1207). -/
def instrIncDecQ (p : Prefix) (code : U8) (name : String) (op : U8 → U8 → U8 × U8) :
    Ex σ Q (Exit σ) :=
  match Reg8.fromB53 code with
  | some src =>
    if src = .H ∨ src = .L then do
      dbg [code] name (.single (.reg8 (some p) src))
      applyReg8 src (some p) op
      flagsOp
      pure .cont
    else pure .ub
  | none => do
    let d ← fetchImm8 X5
    dbg [code, d] name (.single (dIid p d))
    instrIncDecXMem8 p d op
    pure .cont

/-- `match_instruction!(DD|FD ..)` bodies other than the arms handled by
`executeInstruction`. -/
def instrI (m : MI) (p : Prefix) (code : U8) : Ex σ Q (Exit σ) :=
  match m with
  | .plain | .dd | .fd => pure .ub
  | .ldQQ => -- 943-973
    match Reg8.fromB53 code, Reg8.fromB20 code with
    | some dst, some src =>
      if dst = .H ∨ dst = .L ∨ src = .H ∨ src = .L then do
        dbg [code] "LD" (.double (.reg8 (some p) dst) (.reg8 (some p) src))
        loadReg dst src (some p)
        pure .cont
      else pure .ub
    | some dst, none => do
      let d ← fetchImm8 X5
      dbg [code, d] "LD" (.double (dR dst) (dIid p d))
      let val ← readMem8IiD p d
      modC fun c => c.setReg dst none val
      pure .cont
    | none, some src => do
      let d ← fetchImm8 X5
      dbg [code, d] "LD" (.double (dIid p d) (dR src))
      let c ← getC
      writeMem8IiD p d (c.getReg src none)
      pure .cont
    | none, none => pure .ub
  | .ldQN => -- 974-985
    match Reg8.fromB53 code with
    | some dst =>
      if dst = .H ∨ dst = .L then do
        let n ← fetchImm8 0#8
        dbg [code, n] "LD" (.double (.reg8 (some p) dst) (.imm8 n))
        modC fun c => c.setReg dst (some p) n
        pure .cont
      else pure .ub
    | none => pure .ub
  | .ldIidN => do -- 986-996
    let d ← fetchImm8 0#8
    let n ← fetchImm8 X2
    dbg [code, d, n] "LD" (.double (dIid p d) (.imm8 n))
    writeMem8IiD p d n
    pure .cont
  | .ldIiNn => do -- 997-1003
    let nn ← fetchImm16 0#8
    dbg [code, lo8 nn, hi8 nn] "LD" (.double (dII p) (.imm16 nn))
    modC fun c => c.setIndex16 p nn
    pure .cont
  | .ldIiMem => do -- 1004-1012
    let addr ← fetchImm16 0#8
    dbg [code, lo8 addr, hi8 addr] "LD" (.double (dII p) (dNN addr))
    let nn ← readMem16Addr16 addr
    modC fun c => c.setIndex16 p nn
    pure .cont
  | .ldNnIi => do -- 1013-1020
    let addr ← fetchImm16 0#8
    dbg [code, lo8 addr, hi8 addr] "LD" (.double (dNN addr) (dII p))
    let c ← getC
    writeMem16Addr16 addr (c.getIndex2 p).1 (c.getIndex2 p).2
    pure .cont
  | .ldSpIi => do -- 1021-1028
    let c ← getC
    addNoMreq c.getIr X2
    dbg [code] "LD" (.double (dRR .SP) (dII p))
    modC fun c => c.setSp (c.getIndex16 p)
    pure .cont
  | .exSp => do -- 1029-1036
    dbg [code] "EX" (.double (dAddr .SP) (dII p))
    let c ← getC
    let val ← exSpNn (c.indexRef p)
    modC fun c => c.setIndex16 p val
    pure .cont
  | .push => do -- 1037-1045
    let c ← getC
    addNoMreq c.getIr X1
    dbg [code] "PUSH" (.single (dII p))
    push2 (c.getIndex2 p).1 (c.getIndex2 p).2
    pure .cont
  | .pop => do -- 1046-1052
    dbg [code] "POP" (.single (dII p))
    let val ← pop16
    modC fun c => c.setIndex16 p val
    pure .cont
  | .incIi => do -- 1053-1060
    dbg [code] "INC" (.single (dII p))
    let c ← getC
    addNoMreq c.getIr X2
    modC fun c => c.setIndex16 p (c.getIndex16 p + 1#16)
    pure .cont
  | .decIi => do -- 1061-1068
    dbg [code] "DEC" (.single (dII p))
    let c ← getC
    addNoMreq c.getIr X2
    modC fun c => c.setIndex16 p (c.getIndex16 p - 1#16)
    pure .cont
  | .opsQ => -- 1069-1090
    let op := Ops8.fromCode code
    match Reg8.fromB20 code with
    | some src =>
      if src = .H ∨ src = .L then do
        dbg [code] op.toStr (op8Args op (.reg8 (some p) src))
        let c ← getC
        op8 op (c.getReg src (some p))
        pure .cont
      else pure .ub
    | none => do
      let d ← fetchImm8 X5
      dbg [code, d] op.toStr (op8Args op (dIid p d))
      let val ← readMem8IiD p d
      op8 op val
      pure .cont
  | .incQ => instrIncDecQ p code "INC" Ops.inc -- 1091-1095
  | .decQ => instrIncDecQ p code "DEC" Ops.dec -- 1096-1100
  | .add => do -- 1101-1112
    dbg [code] "ADD" (.double (dII p) (.reg16 (some p) (Reg16.fromCode code)))
    let c ← getC
    let r ← op16Reg16 Ops.add16 (c.getIndex16 p) (c.prefixReg16 (Reg16.fromCode code) p)
    modC fun c => c.setIndexRef p r
    pure .cont
  | .cb => do -- 1113-1162
    let d ← fetchImm8 0#8
    let code1 ← fetchImm8 X2
    let b := BitOps.fromCode code1
    dbg [code, d, code1] (bitopsIidDbg p d b).1 (bitopsIidDbg p d b).2
    bitopsQq b p d
    pure .cont
  | .jp => do -- 1163-1168
    dbg [code] "JP" (.single (.addr (.indexAddr p none)))
    let c ← getC
    setPc (c.getIndex16 p)
    pure .cont

/-- The unprefixed arm of `execute_instruction!` (`/repo/src/z80/opcodes.rs` 178-181). -/
def executePlain (code : U8) : Ex σ Q (Exit σ) :=
  match decode0 code with
  | some m => instr0 m code
  | none => pure .ub

/-- The prefixed arm of `execute_instruction!` (`/repo/src/z80/opcodes.rs` 182-186). After the
instruction `$maybe_prefix = None`; no body of this table breaks out of the main loop. -/
def executeIndexed (p : Prefix) (code : U8) : Ex σ Q (Exit σ) :=
  match decodeI code with
  | none => pure .ub
  | some .plain => do -- `$maybe_prefix = None; continue $repeat`
    setPfx none
    executePlain code
  | some .dd => do -- `$maybe_prefix = Some(Prefix::Xdd); break $repeat`
    setPfx (some .xdd)
    pure .cont
  | some .fd => do
    setPfx (some .yfd)
    pure .cont
  | some m => do
    let e ← instrI m p code
    setPfx none
    pure e

/-- `execute_instruction!` (`/repo/src/z80/opcodes.rs` 165-189). -/
def executeCode (code : U8) : Ex σ Q (Exit σ) := do
  modC fun c => { c with flavour := Flavour.beginInstruction c.flavour }
  let s ← getS
  match s.pfx with
  | none => executePlain code
  | some p => executeIndexed p code

end Z80
