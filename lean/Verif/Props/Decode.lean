import Verif.Proofs.Decode
import Verif.Proofs.Pfx
import Verif.Props.Bus

/-!
# C13 and C46: decoding of opcodes

The dispatch tables and operand parsers against the fields of the opcode byte, and the instruction
executed for the fields.
-/

set_option linter.constructorNameAsVariable false

namespace Z80
open Spec
variable {Q : Type} [FlavourSpec Q] {σ : Sig}

/-! ### The tables -/

/-- C13: no byte falls through the tables of unprefixed opcodes, of opcodes after DD or FD and of
opcodes after ED. -/
theorem C13_tables_total (code : U8) :
    (decode0 code).isSome ∧ (decodeI code).isSome ∧ (decodeE code).isSome := by
  have h := all8_spec (p := fun c => (decode0 c).isSome && (decodeI c).isSome && (decodeE c).isSome)
    (by decide +kernel) code
  simpa [and_assoc] using h

/-- The byte with the given fields. -/
def byteOf (x y z : Nat) : U8 := BitVec.ofNat 8 (64 * x + 8 * y + z)

theorem byteOf_fields {x y z : Nat} (hx : x < 4) (hy : y < 8) (hz : z < 8) :
    fx (byteOf x y z) = x ∧ fy (byteOf x y z) = y ∧ fz (byteOf x y z) = z := by
  have h : (byteOf x y z).toNat = 64 * x + 8 * y + z := by
    unfold byteOf; rw [BitVec.toNat_ofNat]; omega
  unfold fx fy fz
  rw [h]
  omega

/-- Every byte has fields. -/
theorem byteOf_surj (op : U8) :
    byteOf (fx op) (fy op) (fz op) = op ∧ fx op < 4 ∧ fy op < 8 ∧ fz op < 8 := by
  have h := op.isLt
  unfold fx fy fz byteOf
  refine ⟨BitVec.eq_of_toNat_eq ?_, ?_, ?_, ?_⟩
  · rw [BitVec.toNat_ofNat]; omega
  all_goals omega

/-- C13: the arm of the unprefixed table and the operands parsed are those of the fields. -/
theorem C13_table0 {x y z : Nat} (hx : x < 4) (hy : y < 8) (hz : z < 8) :
    agree0 (byteOf x y z) (dec0 x y z) = true := by
  obtain ⟨h1, h2, h3⟩ := byteOf_fields hx hy hz
  have h := agree0_all (byteOf x y z)
  unfold decode at h
  rwa [h1, h2, h3] at h

/-- C13: the arm of the table after ED. -/
theorem C13_tableEd {x y z : Nat} (hx : x < 4) (hy : y < 8) (hz : z < 8) :
    agreeE (byteOf x y z) (decEd x y z) = true := by
  obtain ⟨h1, h2, h3⟩ := byteOf_fields hx hy hz
  have h := agreeE_all (byteOf x y z)
  unfold decodeEd at h
  rwa [h1, h2, h3] at h

/-- C13: the operation after CB. -/
theorem C13_tableCb {x y z : Nat} (hx : x < 4) (hy : y < 8) (hz : z < 8) :
    BitOps.fromCode (byteOf x y z) = cbOf (decCb x y z) := by
  obtain ⟨h1, h2, h3⟩ := byteOf_fields hx hy hz
  have h := (agreeCb_all (byteOf x y z)).1
  unfold decodeCb at h
  rwa [h1, h2, h3] at h

/-- C13: the table after DD or FD has its own arms exactly for the opcodes that use HL or its parts,
for CB and for further prefixes, and passes on the others. -/
theorem C13_tableI {x y z : Nat} (hx : x < 4) (hy : y < 8) (hz : z < 8) :
    agreeI (byteOf x y z) (dec0 x y z) = true ∧
    (usesHl (dec0 x y z) = (indexable (byteOf x y z) || isIxPrefix (byteOf x y z))) := by
  obtain ⟨h1, h2, h3⟩ := byteOf_fields hx hy hz
  have h := agreeI_all (byteOf x y z)
  have h4 := all8_spec (p := fun op => usesHl (decode op) == (indexable op || isIxPrefix op))
    (by decide +kernel) (byteOf x y z)
  unfold decode at h h4
  rw [h1, h2, h3] at h h4
  exact ⟨h, by simpa using h4⟩

/-! ### Instructions executed -/

/-- C13: an opcode that is not a prefix, without or after a DD or FD prefix: the calls made and the
final state are those specified for the instruction given by the fields, on HL, IX or IY. -/
theorem C13_executed {x y z : Nat} (hx : x < 4) (hy : y < 8) (hz : z < 8)
    (hp : dec0 x y z ≠ .cb ∧ dec0 x y z ≠ .ed ∧ dec0 x y z ≠ .dd ∧ dec0 x y z ≠ .fd)
    (deb : Bool) (c : Cpu Q) :
    (executeInstruction (σ := σ) deb (byteOf x y z) c).erase.map (fun r => (abs r.2, outS r.1)) =
      (endCycles (f0 (dec0 x y z)) (cycles0 (FlavourSpec.opt Q) (ixOf c.pfx) (dec0 x y z)
        { abs c with ei := false, halted := false })).calls.map fun e => (e.1, some e.2.2) := by
  obtain ⟨h1, h2, h3⟩ := byteOf_fields hx hy hz
  rw [C45_execute_instruction]
  unfold opCycles decode
  rw [h1, h2, h3]
  obtain ⟨n1, n2, n3, n4⟩ := hp
  generalize dec0 x y z = k at *
  cases k <;> first | rfl | contradiction

/-- C13: CB without prefix fetches one more opcode and executes the operation given by its fields. -/
theorem C13_executed_cb (deb : Bool) (c : Cpu Q) (hc : c.pfx = none) :
    (executeInstruction (σ := σ) deb 0xCB#8 c).erase.map (fun r => (abs r.2, outS r.1)) =
      (Tree.m1 c.pc (abs c).bumpR.ir fun op =>
        endCycles (fCb (decCb (fx op) (fy op) (fz op))) (cbCycles (decCb (fx op) (fy op) (fz op))
          ({ abs c with ei := false, halted := false }.bumpR.skip 1))).calls.map
        fun e => (e.1, some e.2.2) := by
  rw [C45_execute_instruction]
  cases c
  cases hc
  rfl

/-- C13: DD CB and FD CB read the displacement and the operation, which acts on the memory operand and
is given by the fields. -/
theorem C13_executed_xcb (deb : Bool) (c : Cpu Q) (p : Prefix) (hc : c.pfx = some p) :
    (executeInstruction (σ := σ) deb 0xCB#8 c).erase.map (fun r => (abs r.2, outS r.1)) =
      (Tree.rd c.pc fun d => .rd (c.pc + 1) fun op => .idle (c.pc + 1) 2
        (let a := (abs c).xhl (ixOf (some p)) + disp d
         endCycles (fCb (decCb (fx op) (fy op) (fz op))) (xcbCycles (decCb (fx op) (fy op) (fz op)) a
          { { abs c with ei := false, halted := false }.skip 2 with wz := a }))).calls.map
        fun e => (e.1, some e.2.2) := by
  rw [C45_execute_instruction]
  cases c
  cases hc
  cases p <;> rfl

/-- C13: ED fetches one more opcode and executes the instruction given by its fields, whatever the
prefix. -/
theorem C13_executed_ed (deb : Bool) (c : Cpu Q) :
    (executeInstruction (σ := σ) deb 0xED#8 c).erase.map (fun r => (abs r.2, outS r.1)) =
      (Tree.m1 c.pc (abs c).bumpR.ir fun op =>
        endCycles (fEd (decEd (fx op) (fy op) (fz op))) (edCycles (FlavourSpec.opt Q)
          (decEd (fx op) (fy op) (fz op))
          ({ abs c with ei := false, halted := false }.bumpR.skip 1))).calls.map
        fun e => (e.1, some e.2.2) := by
  rw [C45_execute_instruction]
  rfl

/-- The hypotheses on the fields and on the opcode are met by all but four of the 256 combinations;
`byteOf_surj` shows that the combinations are all bytes. -/
example : ((List.range 4).flatMap fun x => (List.range 8).flatMap fun y => (List.range 8).filter fun z =>
    dec0 x y z ≠ .cb ∧ dec0 x y z ≠ .ed ∧ dec0 x y z ≠ .dd ∧ dec0 x y z ≠ .fd).length = 252 := by
  decide +kernel
/-- `LD (IX+d),n` is the instruction `LD (HL),n` after DD; `DD CB d 06` is `RLC (IX+d)`. -/
example : byteOf 0 6 6 = 0x36#8 ∧ dec0 0 6 6 = .ldRN .m ∧ decCb 0 0 6 = .rot .rlc .m := by decide

/-! ### C46: operand parsers -/

/-- C46: no parser of the public API reaches its `unreachable_unchecked` arm, on any byte. -/
theorem C46_no_unreachable (code : U8) :
    Reg8.tryFrom? code ≠ .ub ∧ (StkReg16.fromCode? code).isSome ∧ (Reg16.fromCode? code).isSome ∧
    (Ops8.fromCode? code).isSome ∧ (Rot.fromCode? code).isSome ∧ (Cond.fromCode? code).isSome ∧
    (BitOps.fromCode? code).isSome := by
  have h := all8_spec (p := fun code => decide (Reg8.tryFrom? code ≠ .ub) &&
    (StkReg16.fromCode? code).isSome && (Reg16.fromCode? code).isSome &&
    (Ops8.fromCode? code).isSome && (Rot.fromCode? code).isSome && (Cond.fromCode? code).isSome &&
    (BitOps.fromCode? code).isSome) (by decide +kernel) code
  simpa [and_assoc] using h

/-- C46: parsers use the bits of their field only: 3 to 5 for registers of the destination,
operations and conditions, 0 to 2 for source registers, 4 and 5 for register pairs. -/
theorem C46_fields {a b : U8} :
    (fy a = fy b → Reg8.fromB53 a = Reg8.fromB53 b ∧ Ops8.fromCode a = Ops8.fromCode b ∧
      Rot.fromCode a = Rot.fromCode b ∧ Cond.fromCode a = Cond.fromCode b ∧
      parseBitnum a = parseBitnum b ∧ parseRestartAddress a = parseRestartAddress b) ∧
    (fz a = fz b → Reg8.fromB20 a = Reg8.fromB20 b) ∧
    (fy a / 2 = fy b / 2 → Reg16.fromCode a = Reg16.fromCode b ∧
      StkReg16.fromCode a = StkReg16.fromCode b) := by
  have h1 : ∀ a, Reg8.fromB53 a = Reg8.fromB53 (byteOf 0 (fy a) 0) ∧
      Ops8.fromCode a = Ops8.fromCode (byteOf 0 (fy a) 0) ∧
      Rot.fromCode a = Rot.fromCode (byteOf 0 (fy a) 0) ∧
      Cond.fromCode a = Cond.fromCode (byteOf 0 (fy a) 0) ∧
      parseBitnum a = parseBitnum (byteOf 0 (fy a) 0) ∧
      parseRestartAddress a = parseRestartAddress (byteOf 0 (fy a) 0) := fun a =>
    of_decide_eq_true (all8_spec (p := fun a => decide (
      Reg8.fromB53 a = Reg8.fromB53 (byteOf 0 (fy a) 0) ∧
      Ops8.fromCode a = Ops8.fromCode (byteOf 0 (fy a) 0) ∧
      Rot.fromCode a = Rot.fromCode (byteOf 0 (fy a) 0) ∧
      Cond.fromCode a = Cond.fromCode (byteOf 0 (fy a) 0) ∧
      parseBitnum a = parseBitnum (byteOf 0 (fy a) 0) ∧
      parseRestartAddress a = parseRestartAddress (byteOf 0 (fy a) 0))) (by decide +kernel) a)
  have h2 : ∀ a, Reg8.fromB20 a = Reg8.fromB20 (byteOf 0 0 (fz a)) ∧
      Reg16.fromCode a = Reg16.fromCode (byteOf 0 (2 * (fy a / 2)) 0) ∧
      StkReg16.fromCode a = StkReg16.fromCode (byteOf 0 (2 * (fy a / 2)) 0) := fun a =>
    of_decide_eq_true (all8_spec (p := fun a => decide (
      Reg8.fromB20 a = Reg8.fromB20 (byteOf 0 0 (fz a)) ∧
      Reg16.fromCode a = Reg16.fromCode (byteOf 0 (2 * (fy a / 2)) 0) ∧
      StkReg16.fromCode a = StkReg16.fromCode (byteOf 0 (2 * (fy a / 2)) 0))) (by decide +kernel) a)
  refine ⟨fun h => ?_, fun h => ?_, fun h => ?_⟩
  · obtain ⟨a1, a2, a3, a4, a5, a6⟩ := h1 a
    obtain ⟨b1, b2, b3, b4, b5, b6⟩ := h1 b
    rw [a1, a2, a3, a4, a5, a6, b1, b2, b3, b4, b5, b6, h]
    exact ⟨rfl, rfl, rfl, rfl, rfl, rfl⟩
  · rw [(h2 a).1, (h2 b).1, h]
  · rw [(h2 a).2.1, (h2 b).2.1, (h2 a).2.2, (h2 b).2.2, h]
    exact ⟨rfl, rfl⟩

/-- C46: codes and names of operands round-trip. -/
theorem C46_round_trips :
    (∀ r, Reg8.tryFrom (Reg8.toCode r) = some r) ∧ (∀ r, Reg16.fromCode (Reg16.toCode r) = r) ∧
    (∀ r, StkReg16.fromCode (StkReg16.toCode r) = r) ∧ (∀ c, Cond.fromCode (Cond.toCode c) = c) ∧
    (∀ p, Prefix.ofCode? (Prefix.toCode p) = some p) ∧ (∀ m, IntMode.ofNum? (IntMode.toNum m) = some m) ∧
    (∀ c, Cond.ofString? (Cond.toStr c) = some c) := by
  refine ⟨?_, ?_, ?_, ?_, ?_, ?_, ?_⟩ <;> intro r <;> cases r <;> decide

/-- C46: and conversely, what is parsed is the only operand with that code or name. -/
theorem C46_parse_exact :
    (∀ v p, Prefix.ofCode? v = some p ↔ v = Prefix.toCode p) ∧
    (∀ v m, IntMode.ofNum? v = some m ↔ v = IntMode.toNum m) ∧
    (∀ s c, Cond.ofString? s = some c ↔ s = Cond.toStr c) := by
  refine ⟨fun v p => ?_, fun v m => ?_, fun s c => ?_⟩
  · unfold Prefix.ofCode?; cases p <;> (constructor <;> intro h) <;>
      first | (subst h; rfl) | (split at h <;> first | assumption | (split at h <;> first | assumption | cases h) | cases h)
  · unfold IntMode.ofNum?; cases m <;> (constructor <;> intro h) <;>
      first | (subst h; rfl) | (repeat' split at h) <;> first | assumption | cases h
  · constructor
    · intro h; unfold Cond.ofString? at h; split at h <;> cases h <;> rfl
    · intro h; subst h; cases c <;> rfl

/-- C46: `is_satisfied` tests the flag of the condition and nothing else. -/
theorem C46_is_satisfied (c : Cond) (f : U8) :
    c.isSatisfied f = match c with
      | .NZ => !f.getLsbD 6 | .Z => f.getLsbD 6 | .NC => !f.getLsbD 0 | .C => f.getLsbD 0
      | .PO => !f.getLsbD 2 | .PE => f.getLsbD 2 | .P => !f.getLsbD 7 | .M => f.getLsbD 7 := by
  have h := all8_spec (p := fun f => [Cond.NZ, .Z, .NC, .C, .PO, .PE, .P, .M].all fun c =>
    c.isSatisfied f == match c with
      | .NZ => !f.getLsbD 6 | .Z => f.getLsbD 6 | .NC => !f.getLsbD 0 | .C => f.getLsbD 0
      | .PO => !f.getLsbD 2 | .PE => f.getLsbD 2 | .P => !f.getLsbD 7 | .M => f.getLsbD 7)
    (by decide +kernel) f
  have := List.all_eq_true.1 h c (by cases c <;> decide)
  simpa using this

end Z80
