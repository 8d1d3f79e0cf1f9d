import Verif.Proofs.Fin
import Verif.Model.Decode
import Verif.Model.Parse
import Verif.Spec.Decode

/-!
# Agreement of the dispatch tables and operand parsers with the specified decoding
-/

namespace Z80
open Spec

/-- Register operand of the crate; `none` is the memory operand. -/
def regOf : R → Option Reg8
  | .b => some .B | .c => some .C | .d => some .D | .e => some .E
  | .h => some .H | .l => some .L | .a => some .A | .m => none
/-- Register pair of the crate. -/
def rpOf' : RP → Reg16 | .bc => .BC | .de => .DE | .hl => .HL | .sp => .SP
/-- Stack register pair of the crate. -/
def spOf : SP → StkReg16 | .bc => .BC | .de => .DE | .hl => .HL | .af => .AF
/-- Condition of the crate. -/
def ccOf : Cc → Cond
  | .nz => .NZ | .z => .Z | .nc => .NC | .c => .C | .po => .PO | .pe => .PE | .p => .P | .m => .M
/-- Accumulator operation of the crate. -/
def aluOf : Alu → Ops8
  | .add => .ADD | .adc => .ADC | .sub => .SUB | .sbc => .SBC
  | .and => .AND | .xor => .XOR | .or => .OR | .cp => .CP
/-- Rotate of the crate. -/
def shOf : Sh → Rot
  | .rlc => .RLC | .rrc => .RRC | .rl => .RL | .rr => .RR
  | .sla => .SLA | .sra => .SRA | .sll => .SLL | .srl => .SRL
/-- CB operation of the crate. -/
def cbOf : ICb → BitOps
  | .rot k r => .rot (shOf k) (regOf r)
  | .bit n r => .bit n (regOf r)
  | .res n r => .res n (regOf r)
  | .set n r => .set n (regOf r)

/-- The unprefixed table and the parsers agree with the decoded instruction. -/
def agree0 (code : U8) : I0 → Bool
  | .nop => decode0 code = some .nop
  | .exAf => decode0 code = some .exAf
  | .djnz => decode0 code = some .djnz
  | .jr => decode0 code = some .jr
  | .jrCc c => decode0 code = some .jrCc && Cond.fromJrSubset code = ccOf c
  | .ldRpNn p => decode0 code = some .ldDdNn && Reg16.fromCode code = rpOf' p
  | .addHl p => decode0 code = some .addHl && Reg16.fromCode code = rpOf' p
  | .ldRpA .bc => decode0 code = some .ldBcA
  | .ldRpA .de => decode0 code = some .ldDeA
  | .ldRpA _ => false
  | .ldARp .bc => decode0 code = some .ldABc
  | .ldARp .de => decode0 code = some .ldADe
  | .ldARp _ => false
  | .ldNnHl => decode0 code = some .ldNnHl
  | .ldHlNn => decode0 code = some .ldHlNn
  | .ldNnA => decode0 code = some .ldNnA
  | .ldANn => decode0 code = some .ldANn
  | .incRp p => decode0 code = some .incDd && Reg16.fromCode code = rpOf' p
  | .decRp p => decode0 code = some .decDd && Reg16.fromCode code = rpOf' p
  | .incR r => decode0 code = some .incR && Reg8.fromB53 code = regOf r
  | .decR r => decode0 code = some .decR && Reg8.fromB53 code = regOf r
  | .ldRN r => decode0 code = some .ldRN && Reg8.fromB53 code = regOf r
  | .accRot .rlc => decode0 code = some .rlca
  | .accRot .rrc => decode0 code = some .rrca
  | .accRot .rl => decode0 code = some .rla
  | .accRot .rr => decode0 code = some .rra
  | .accRot _ => false
  | .daa => decode0 code = some .daa
  | .cpl => decode0 code = some .cpl
  | .scf => decode0 code = some .scf
  | .ccf => decode0 code = some .ccf
  | .halt => decode0 code = some .ldRR && Reg8.fromB53 code = none && Reg8.fromB20 code = none
  | .ldRR d r => decode0 code = some .ldRR && Reg8.fromB53 code = regOf d &&
      Reg8.fromB20 code = regOf r && !(d = .m && r = .m)
  | .aluR k r => decode0 code = some .opsR && Ops8.fromCode code = aluOf k &&
      Reg8.fromB20 code = regOf r
  | .aluN k => decode0 code = some .opsN && Ops8.fromCode code = aluOf k
  | .retCc c => decode0 code = some .retCc && Cond.fromCode code = ccOf c
  | .pop p => decode0 code = some .pop && StkReg16.fromCode code = spOf p
  | .ret => decode0 code = some .ret
  | .exx => decode0 code = some .exx
  | .jpHl => decode0 code = some .jpHl
  | .ldSpHl => decode0 code = some .ldSpHl
  | .jpCc c => decode0 code = some .jpCc && Cond.fromCode code = ccOf c
  | .jp => decode0 code = some .jp
  | .cb => decode0 code = some .cb
  | .outNA => decode0 code = some .outNA
  | .inAN => decode0 code = some .inAN
  | .exSpHl => decode0 code = some .exSpHl
  | .exDeHl => decode0 code = some .exDeHl
  | .di => decode0 code = some .di
  | .ei => decode0 code = some .ei
  | .callCc c => decode0 code = some .callCc && Cond.fromCode code = ccOf c
  | .push p => decode0 code = some .push && StkReg16.fromCode code = spOf p
  | .call => decode0 code = some .call
  | .dd => decode0 code = some .dd
  | .ed => decode0 code = some .ed
  | .fd => decode0 code = some .fd
  | .rst y => decode0 code = some .rst && parseRestartAddress code = BitVec.ofNat 16 (8 * y)

theorem agree0_table : all8 (fun c => agree0 c (decode c)) = true := by decide +kernel
theorem agree0_all (c : U8) : agree0 c (decode c) = true := all8_spec agree0_table c

/-- The table after ED and the parsers agree with the decoded instruction. -/
def agreeE (code : U8) : IEd → Bool
  | .nop => decodeE code = some .nop
  | .inC r => decodeE code = some .inR && Reg8.fromB53 code = regOf r
  | .outC r => decodeE code = some .outR && Reg8.fromB53 code = regOf r
  | .sbcHl p => decodeE code = some .sbc && Reg16.fromCode code = rpOf' p
  | .adcHl p => decodeE code = some .adc && Reg16.fromCode code = rpOf' p
  | .ldNnRp p => decodeE code = some .ldMemDd && Reg16.fromCode code = rpOf' p
  | .ldRpNn p => decodeE code = some .ldDdMem && Reg16.fromCode code = rpOf' p
  | .neg => decodeE code = some .neg
  | .retn => decodeE code = some .retn && !(code == 0x4D#8)
  | .reti => decodeE code = some .retn && code == 0x4D#8
  | .im 0 => decodeE code = some .im0
  | .im 1 => decodeE code = some .im1
  | .im 2 => decodeE code = some .im2
  | .im _ => false
  | .ldIA => decodeE code = some .ldIA
  | .ldRA => decodeE code = some .ldRA
  | .ldAI => decodeE code = some .ldAI
  | .ldAR => decodeE code = some .ldAR
  | .rrd => decodeE code = some .rrd
  | .rld => decodeE code = some .rld
  | .blk .ld false false => decodeE code = some .ldi
  | .blk .ld true false => decodeE code = some .ldd
  | .blk .ld false true => decodeE code = some .ldir
  | .blk .ld true true => decodeE code = some .lddr
  | .blk .cp false false => decodeE code = some .cpi
  | .blk .cp true false => decodeE code = some .cpd
  | .blk .cp false true => decodeE code = some .cpir
  | .blk .cp true true => decodeE code = some .cpdr
  | .blk .inp false false => decodeE code = some .ini
  | .blk .inp true false => decodeE code = some .ind
  | .blk .inp false true => decodeE code = some .inir
  | .blk .inp true true => decodeE code = some .indr
  | .blk .out false false => decodeE code = some .outi
  | .blk .out true false => decodeE code = some .outd
  | .blk .out false true => decodeE code = some .otir
  | .blk .out true true => decodeE code = some .otdr

theorem agreeE_table : all8 (fun c => agreeE c (decodeEd c)) = true := by decide +kernel
theorem agreeE_all (c : U8) : agreeE c (decodeEd c) = true := all8_spec agreeE_table c

/-- Bit number in range. -/
def ICb.ok : ICb → Bool
  | .rot _ _ => true
  | .bit n _ | .res n _ | .set n _ => n < 8

theorem agreeCb_table : all8 (fun c => BitOps.fromCode c = cbOf (decodeCb c) &&
    ICb.ok (decodeCb c)) = true := by
  decide +kernel
theorem agreeCb_all (c : U8) : BitOps.fromCode c = cbOf (decodeCb c) ∧ ICb.ok (decodeCb c) := by
  simpa using all8_spec agreeCb_table c

/-- Instructions affected by a DD or FD prefix. -/
def usesHl : I0 → Bool
  | .ldRpNn .hl | .addHl _ | .ldNnHl | .ldHlNn | .incRp .hl | .decRp .hl
  | .pop .hl | .push .hl | .jpHl | .ldSpHl | .exSpHl | .cb | .dd | .fd => true
  | .incR r | .decR r | .ldRN r | .aluR _ r => r = .h || r = .l || r = .m
  | .ldRR d r => d = .h || d = .l || d = .m || r = .h || r = .l || r = .m
  | _ => false

/-- Arm of the table after DD or FD for an affected instruction. -/
def miOf : I0 → MI
  | .ldRpNn _ => .ldIiNn
  | .addHl _ => .add
  | .ldNnHl => .ldNnIi
  | .ldHlNn => .ldIiMem
  | .incRp _ => .incIi
  | .decRp _ => .decIi
  | .pop _ => .pop
  | .push _ => .push
  | .jpHl => .jp
  | .ldSpHl => .ldSpIi
  | .exSpHl => .exSp
  | .cb => .cb
  | .dd => .dd
  | .fd => .fd
  | .incR _ => .incQ
  | .decR _ => .decQ
  | .ldRN .m => .ldIidN
  | .ldRN _ => .ldQN
  | .aluR _ _ => .opsQ
  | .ldRR _ _ => .ldQQ
  | _ => .plain

/-- The table after DD or FD agrees with the decoded instruction. -/
def agreeI (code : U8) (k : I0) : Bool :=
  decodeI code = some (if usesHl k then miOf k else .plain)

theorem agreeI_table : all8 (fun c => agreeI c (decode c)) = true := by decide +kernel
theorem agreeI_all (c : U8) : agreeI c (decode c) = true := all8_spec agreeI_table c

end Z80
