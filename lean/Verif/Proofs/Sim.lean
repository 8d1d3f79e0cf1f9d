import Verif.Proofs.Abs
import Verif.Proofs.Decode

/-! # Simulation: simp sets -/

namespace Z80
open Spec

attribute [code_simps] flagsOp setFlagsOp fetchOpcode fetchImm8 fetchImm16 addNoMreqOpt exDeHl
  exAfAfWithFlags loadReg pop16 push2 push16 pushSs applyReg8 blockTransfer blockSearch
  blockIn blockOut op8 readMem8Hl op8WithArg ldAFromMem8 setMemptrMix ldMem8FromA exSpNn instrRxd
  op16Reg16 writeMem16Addr16 readMem16Addr16 rOpWMem8 instrIncDec8 instrIncDecXMem8 instrLdAFromIr
  instrLdIrFromA instrLdAFromRp instrLdRpFromA writeMem8Hl writeMem8IiD readMem8IiD ioAInpAn
  ioAOutAn ioRInpBc ioROutBc bitopsQqEnd instrAccOp instrDaa skipRel takeRel
  Cpu.setMemptr Cpu.setSp Cpu.setAcc Cpu.setFlags Cpu.setIm Cpu.getFlags Cpu.incR Cpu.setI Cpu.setR
  Cpu.restoreIff1 Cpu.disableInterrupts Cpu.enableInterrupts Cpu.doHalt Cpu.exx Cpu.getIndex16
  Cpu.setIndex16 Cpu.getIndex2 noFlags
  add_eq sub_eq cp_eq adc_eq sbc_eq inc_eq dec_eq neg_eq add16_eq adc16_eq sbc16_eq and_eq or_eq
  xor_eq cpl_eq ccf_eq scf_eq daa_eq rlca_eq rrca_eq rla_eq rra_eq rld_eq rrd_eq io_eq
  ldAIr_eq ldx_eq cpx_eq iox_eq of_byte byte_of res_eq set_eq

attribute [spec_simps] Mach.upd Mach.store Mach.load16 Mach.imm8 Mach.imm16 Mach.skip Mach.jump
  Mach.wz Mach.wzStore Mach.push Mach.top Mach.drop Mach.setAF Mach.setF Mach.tick Mach.wait
  Mach.ea Mach.eaNext done relJump Eff.finish execRet stepPtr
  Regs.bc Regs.de Regs.hl Regs.xhl Regs.setBc Regs.setDe Regs.setXhl

attribute [norm_simps] of_byte byte_of hi8_word lo8_word word_hi8_lo8 RegPair.get16 RegPair.of16
  Option.map_map Function.comp_def FlavourSpec.cur_begin FlavourSpec.cur_mod FlavourSpec.out_eq
  FlavourSpec.early_eq FlavourSpec.mix_eq FlavourSpec.getQ_eq FlavourSpec.last_begin ixOf
  regOf rpOf' spOf

@[norm_simps] theorem add_time (t : BitVec w) (a b : Nat) :
    t + BitVec.ofNat w a + BitVec.ofNat w b = t + BitVec.ofNat w (a + b) := by
  rw [BitVec.add_assoc, BitVec.ofNat_add]
@[norm_simps] theorem X1_nat : X1.toNat = 1 := rfl
@[norm_simps] theorem X2_nat : X2.toNat = 2 := rfl
@[norm_simps] theorem X4_nat : X4.toNat = 4 := rfl
@[norm_simps] theorem X5_nat : X5.toNat = 5 := rfl
@[norm_simps] theorem X7_nat : X7.toNat = 7 := rfl
@[code_simps] theorem X1_ne : (X1 != 0#8) = true := rfl
@[code_simps] theorem X2_ne : (X2 != 0#8) = true := rfl
@[code_simps] theorem X5_ne : (X5 != 0#8) = true := rfl
@[code_simps] theorem X0_ne : ((0#8 : U8) != 0#8) = false := rfl

/-- Value of R in the two fields of the model. -/
def rOf (ir : RegPair) (r : U8) : U8 := (ir.lo &&& 0x80#8) ||| (r &&& 0x7F#8)
@[norm_simps] theorem getR_eq {Q : Type} (c : Cpu Q) : c.getR = rOf c.ir c.r := rfl

theorem rOf_nat (ir : RegPair) (r : U8) :
    (rOf ir r).toNat = ir.lo.toNat / 128 * 128 + r.toNat % 128 := by
  have h1 : (ir.lo &&& 0x80#8).toNat = (ir.lo.toNat / 128) <<< 7 := by
    have := all8_spec (p := fun l => (l &&& 0x80#8).toNat == (l.toNat / 128) <<< 7)
      (by decide +kernel) ir.lo
    simpa using this
  have h2 : (r &&& 0x7F#8).toNat = r.toNat % 128 := lowMask r 0x7F#8 7 (by decide)
  rw [rOf, BitVec.toNat_or, h1, h2, ← Nat.shiftLeft_add_eq_or_of_lt (i := 7) (by omega),
    Nat.shiftLeft_eq]
@[norm_simps] theorem rOf_succ (ir : RegPair) (r : U8) : rOf ir (r + 1#8) = BitVec.ofNat 8
    ((rOf ir r).toNat / 128 * 128 + ((rOf ir r).toNat % 128 + 1) % 128) := by
  apply BitVec.eq_of_toNat_eq
  rw [rOf_nat, BitVec.toNat_ofNat, rOf_nat, BitVec.toNat_add]
  have := ir.lo.isLt
  have := r.isLt
  simp only [BitVec.toNat_ofNat]
  omega
@[norm_simps] theorem rOf_self (h v : U8) : rOf ⟨h, v⟩ v = v := by
  apply BitVec.eq_of_toNat_eq
  rw [rOf_nat]
  simp only
  omega
@[norm_simps] theorem getIr_eq {Q : Type} (c : Cpu Q) : c.getIr = word c.ir.hi c.getR := by
  have h1 : ∀ (h l : U8), word h l &&& 0xFF80#16 = word h (l &&& 0x80#8) := by
    intro h l
    rw [show (0xFF80#16 : U16) = word 0xFF#8 0x80#8 by rfl]
    have e := BitVec.and_append (x₁ := h) (y₁ := l) (x₂ := 0xFF#8) (y₂ := 0x80#8)
    rw [show h &&& 0xFF#8 = h from BitVec.and_allOnes] at e
    exact e
  have h2 : ∀ r : U8, r.setWidth 16 &&& 0x007F#16 = word 0#8 (r &&& 0x7F#8) := by
    intro r
    have := all8_spec (p := fun r => r.setWidth 16 &&& 0x007F#16 == word 0#8 (r &&& 0x7F#8))
      (by decide +kernel) r
    simpa using this
  rw [Cpu.getIr, RegPair.get16, h1, h2, Cpu.getR]
  have e := BitVec.or_append (x₁ := c.ir.hi) (y₁ := c.ir.lo &&& 0x80#8) (x₂ := 0#8)
    (y₂ := c.r &&& 0x7F#8)
  rw [show c.ir.hi ||| 0#8 = c.ir.hi from BitVec.or_zero] at e
  exact e
@[norm_simps] theorem disp_eq (d : U8) : disp d = sext16 d := by
  have := all8_spec (p := fun d => disp d == sext16 d) (by decide +kernel) d
  simpa using this

@[code_simps] theorem op8Fn_eq (k : Alu) (a v f : U8) : op8Fn (aluOf k) a v f =
    ((aluOp k a v (Fl.of f)).1, (aluOp k a v (Fl.of f)).2.byte) := by
  cases k <;> simp only [op8Fn, aluOf, aluOp, add_eq, adc_eq, sub_eq, sbc_eq, and_eq, xor_eq, or_eq,
    cp_eq]
@[code_simps] theorem rot_eq (k : Sh) (v f : U8) : (shOf k).op v f =
    ((k.op v (Fl.of f).c).1, (k.op v (Fl.of f).c).2.byte) := by
  cases k <;> simp only [Rot.op, shOf]
  · exact rlc_eq ..
  · exact rrc_eq ..
  · exact rl_eq ..
  · exact rr_eq ..
  · exact sla_eq ..
  · exact sra_eq ..
  · exact sll_eq ..
  · exact srl_eq ..
/-- A condition on the flags. -/
def Fl.holds (f : Fl) (k : Cc) : Bool :=
  match k with
  | .nz => !f.z | .z => f.z | .nc => !f.c | .c => f.c
  | .po => !f.pv | .pe => f.pv | .p => !f.s | .m => f.s
@[spec_simps] theorem holds_eq (r : Regs) (k : Cc) : r.holds k = Fl.holds r.f k := by
  cases k <;> rfl
@[code_simps] theorem cond_eq (k : Cc) (f : U8) :
    (ccOf k).isSatisfied f = Fl.holds (Fl.of f) k := by
  have h := all8_spec (p := fun f => [Cc.nz, .z, .nc, .c, .po, .pe, .p, .m].all fun k =>
    (ccOf k).isSatisfied f == Fl.holds (Fl.of f) k) (by decide +kernel) f
  simp at h
  obtain ⟨h1, h2, h3, h4, h5, h6, h7, h8⟩ := h
  cases k <;> assumption

attribute [code_simps] Cpu.getReg Cpu.setReg Cpu.reg16 Cpu.setReg16' stkSource rpOf popSs outValue
  relAddress indexedAddress if_true if_false Bool.false_eq_true Cpu.prefixReg16 breakIo breakReti
  Cpu.indexRef Cpu.setIndexRef BlockDelta.w BlockDelta.b
attribute [spec_simps] Regs.get Regs.set Regs.getRp Regs.setRp Regs.getSp2 Regs.setSp2 Regs.bumpR
  xySource
@[spec_simps] theorem env_inp {w : Nat} {O R I : Type} (io : Handler (tsSig w O R) I) :
    (envOf io).inp = devIn io := rfl
@[spec_simps] theorem env_out {w : Nat} {O R I : Type} (io : Handler (tsSig w O R) I) :
    (envOf io).out = devOut io := rfl
@[spec_simps] theorem env_irq {w : Nat} {O R I : Type} (io : Handler (tsSig w O R) I) :
    (envOf io).irq = devIrq io := rfl
@[spec_simps] theorem env_ack {w : Nat} {O R I : Type} (io : Handler (tsSig w O R) I) :
    (envOf io).ack = devAck io := rfl
@[spec_simps] theorem env_reti {w : Nat} {O R I : Type} (io : Handler (tsSig w O R) I) :
    (envOf io).reti = devReti io := rfl
@[norm_simps] theorem sub_one_one (x : U16) : x - 1#16 - 1#16 = x - 2#16 := by
  rw [BitVec.sub_sub]; rfl
attribute [norm_simps] BitVec.ofNat_eq_ofNat BitVec.add_zero Nat.sub_self if_true if_false
  Bool.false_eq_true ne_eq

variable {Q : Type} [FlavourSpec Q] {w : Nat} {O R I : Type}

/-- Code `x` run from `s` agrees with the specified effect `e`. -/
def Sim (io : Handler (tsSig w O R) I) (x : Ex (tsSig w O R) Q (Exit (tsSig w O R))) (s : St Q)
    (h : BitVec w × Mem × I) (e : Mach w I × Out O R) : Prop :=
  (fun r : (Exit (tsSig w O R) × St Q) × BitVec w × Mem × I =>
    (absM (absS FlavourSpec.cur r.1.2) r.2, outE r.1.1)) (runE (ramHost io) x s h) = (e.1, some e.2)

end Z80
