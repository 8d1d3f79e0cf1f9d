import Verif.Spec.Alu
import Verif.Model.Ops
import Verif.Proofs.Fin

/-!
# Helper lemmas: flags and arithmetic
-/

namespace Z80
open F
open Spec (Fl)

/-- `mask` as multiplication of a bit. -/
theorem byte_masks (f : Fl) : f.byte =
    mask f.s F.S ||| mask f.z F.Z ||| mask f.y F.Y ||| mask f.h F.H ||| mask f.x F.X |||
    mask f.pv F.PV ||| mask f.n F.N ||| mask f.c F.C := by
  obtain ⟨s, z, y, h, x, pv, n, c⟩ := f
  revert s z y h x pv n c
  decide +kernel

theorem of_byte (f : Fl) : Fl.of f.byte = f := by
  obtain ⟨s, z, y, h, x, pv, n, c⟩ := f
  revert s z y h x pv n c
  decide +kernel

theorem byte_of (b : U8) : (Fl.of b).byte = b := by
  have := all8_spec (p := fun b => (Fl.of b).byte == b) (by decide +kernel) b
  simpa using this

theorem byte_inj {f g : Fl} (h : f.byte = g.byte) : f = g := by
  rw [← of_byte f, ← of_byte g, h]

theorem maskSXY_eq (r : U8) : maskSXY r =
    mask (decide (128 ≤ r.toNat)) F.S ||| mask (r.toNat.testBit 5) F.Y |||
    mask (r.toNat.testBit 3) F.X := by
  have := all8_spec (p := fun r => maskSXY r ==
    (mask (decide (128 ≤ r.toNat)) F.S ||| mask (r.toNat.testBit 5) F.Y |||
    mask (r.toNat.testBit 3) F.X)) (by decide +kernel) r
  simpa using this

theorem maskXY_eq (r : U8) : maskXY r =
    mask (r.toNat.testBit 5) F.Y ||| mask (r.toNat.testBit 3) F.X := by
  have := all8_spec (p := fun r => maskXY r ==
    (mask (r.toNat.testBit 5) F.Y |||
    mask (r.toNat.testBit 3) F.X)) (by decide +kernel) r
  simpa using this

theorem maskSign_eq (r : U8) : maskSign r = mask (decide (128 ≤ r.toNat)) F.S := by
  have := all8_spec (p := fun r => maskSign r == mask (decide (128 ≤ r.toNat)) F.S)
    (by decide +kernel) r
  simpa using this

theorem beq_zero8 (r : U8) : (r == 0#8) = decide (r.toNat = 0) := by
  rw [Bool.eq_iff_iff]; simp [BitVec.toNat_eq]
theorem beq_zero16 (r : U16) : (r == 0#16) = decide (r.toNat = 0) := by
  rw [Bool.eq_iff_iff]; simp [BitVec.toNat_eq]

theorem countOnes_eq (r : U8) : (countOnes r &&& 1 == 0) = Spec.parityEven r := by
  have := all8_spec (p := fun r => (countOnes r &&& 1 == 0) == Spec.parityEven r)
    (by decide +kernel) r
  simpa using this

theorem cf_eq (f : U8) : cf f = (Fl.of f).c := by
  have := all8_spec (p := fun r => cf r == (Fl.of r).c) (by decide +kernel) f
  simpa using this
theorem hf_eq (f : U8) : hf f = (Fl.of f).h := by
  have := all8_spec (p := fun r => hf r == (Fl.of r).h) (by decide +kernel) f
  simpa using this
theorem nf_eq (f : U8) : nf f = (Fl.of f).n := by
  have := all8_spec (p := fun r => nf r == (Fl.of r).n) (by decide +kernel) f
  simpa using this
theorem zf_eq (f : U8) : zf f = (Fl.of f).z := by
  have := all8_spec (p := fun r => zf r == (Fl.of r).z) (by decide +kernel) f
  simpa using this
theorem sf_eq (f : U8) : sf f = (Fl.of f).s := by
  have := all8_spec (p := fun r => sf r == (Fl.of r).s) (by decide +kernel) f
  simpa using this
theorem pvf_eq (f : U8) : pvf f = (Fl.of f).pv := by
  have := all8_spec (p := fun r => pvf r == (Fl.of r).pv) (by decide +kernel) f
  simpa using this
theorem andC_eq (f : U8) : f &&& C = mask (Fl.of f).c C := by
  have := all8_spec (p := fun r => (r &&& C) == mask (Fl.of r).c C) (by decide +kernel) f
  simpa using this

/-- A single-bit test as arithmetic. -/
theorem bit_ne_zero {w : Nat} (x m : BitVec w) (k : Nat) (hk : k < w) (hm : m = BitVec.twoPow w k) :
    (x &&& m != 0#w) = decide (x.toNat / 2 ^ k % 2 = 1) := by
  subst hm
  rw [BitVec.and_twoPow, ← Nat.testBit_eq_decide_div_mod_eq, BitVec.testBit_toNat]
  have h0 : (BitVec.twoPow w k == 0#w) = false := by
    rw [beq_eq_false_iff_ne]
    intro h
    have := congrArg BitVec.toNat h
    rw [BitVec.toNat_twoPow, Nat.mod_eq_of_lt (Nat.pow_lt_pow_right (by decide) hk)] at this
    have := Nat.two_pow_pos k
    simp only [BitVec.toNat_ofNat, Nat.zero_mod] at *
    omega
  cases x.getLsbD k
  · simp
  · simp only [if_true, bne, h0, Bool.not_false]

theorem lowMask {w : Nat} (x m : BitVec w) (k : Nat) (hm : m.toNat = 2 ^ k - 1) :
    (x &&& m).toNat = x.toNat % 2 ^ k := by
  rw [BitVec.toNat_and, hm, Nat.and_two_pow_sub_one_eq_mod]

theorem hm8 (x : U8) : (x &&& HMASK).toNat = x.toNat % 16 := lowMask x HMASK 4 (by decide)
theorem hm16 (x : U16) : (x &&& HMASK16).toNat = x.toNat % 4096 :=
  lowMask x HMASK16 12 (by decide)
theorem h8 (x : U8) : (x &&& H != 0#8) = decide (x.toNat / 16 % 2 = 1) :=
  bit_ne_zero x H 4 (by decide) (by decide)
theorem h16 (x : U16) : (x &&& H16 != 0#16) = decide (x.toNat / 4096 % 2 = 1) :=
  bit_ne_zero x H16 12 (by decide) (by decide)
theorem c16 (x : U16) : (x &&& 0x100#16 != 0#16) = decide (x.toNat / 256 % 2 = 1) :=
  bit_ne_zero x _ 8 (by decide) (by decide)
theorem c32 (x : BitVec 32) : (x &&& 0x10000#32 != 0#32) = decide (x.toNat / 65536 % 2 = 1) :=
  bit_ne_zero x _ 16 (by decide) (by decide)
theorem b8_nat (c : Bool) : (b8 c).toNat = c.toNat := by cases c <;> rfl
theorem b16_nat (c : Bool) : (b16 c).toNat = c.toNat := by cases c <;> rfl

theorem toInt8 (a : U8) : a.toInt = if a.toNat < 128 then (a.toNat : Int) else a.toNat - 256 := by
  rw [BitVec.toInt_eq_toNat_cond]; split <;> split <;> omega
theorem toInt16 (a : U16) :
    a.toInt = if a.toNat < 32768 then (a.toNat : Int) else a.toNat - 65536 := by
  rw [BitVec.toInt_eq_toNat_cond]; split <;> split <;> omega

theorem half_add (a b : U8) :
    (((a &&& HMASK) + (b &&& HMASK)) &&& H != 0#8) = decide (16 ≤ a.toNat % 16 + b.toNat % 16) := by
  rw [h8, decide_eq_decide, BitVec.toNat_add, hm8, hm8]; omega

theorem half_add16 (a b : U16) :
    (((a &&& HMASK16) + (b &&& HMASK16)) &&& H16 != 0#16) =
      decide (4096 ≤ a.toNat % 4096 + b.toNat % 4096) := by
  rw [h16, decide_eq_decide, BitVec.toNat_add, hm16, hm16]; omega

theorem half_sub (a b : U8) :
    (((a &&& HMASK) - (b &&& HMASK)) &&& H != 0#8) = decide (a.toNat % 16 < b.toNat % 16) := by
  rw [h8, decide_eq_decide, BitVec.toNat_sub, hm8, hm8]; omega

theorem half_adc (a b : U8) (c : Bool) :
    (((a &&& HMASK) + (b &&& HMASK)) &&& H != 0#8 ||
      ((((a &&& HMASK) + (b &&& HMASK)) &&& HMASK) + b8 c) &&& H != 0#8) =
      decide (16 ≤ a.toNat % 16 + b.toNat % 16 + c.toNat) := by
  rw [h8, h8, ← Bool.decide_or, decide_eq_decide, BitVec.toNat_add _ (b8 c), hm8,
    BitVec.toNat_add, hm8, hm8, b8_nat]
  have := c.toNat_le
  omega

theorem half_adc16 (a b : U16) (c : Bool) :
    (((a &&& HMASK16) + (b &&& HMASK16)) &&& H16 != 0#16 ||
      ((((a &&& HMASK16) + (b &&& HMASK16)) &&& HMASK16) + b16 c) &&& H16 != 0#16) =
      decide (4096 ≤ a.toNat % 4096 + b.toNat % 4096 + c.toNat) := by
  rw [h16, h16, ← Bool.decide_or, decide_eq_decide, BitVec.toNat_add _ (b16 c), hm16,
    BitVec.toNat_add, hm16, hm16, b16_nat]
  have := c.toNat_le
  omega

theorem half_sbc (a b : U8) (c : Bool) :
    (((a &&& HMASK) - (b &&& HMASK)) &&& H != 0#8 ||
      ((((a &&& HMASK) - (b &&& HMASK)) &&& HMASK) - b8 c) &&& H != 0#8) =
      decide (a.toNat % 16 < b.toNat % 16 + c.toNat) := by
  rw [h8, h8, ← Bool.decide_or, decide_eq_decide, BitVec.toNat_sub _ (b8 c), hm8,
    BitVec.toNat_sub, hm8, hm8, b8_nat]
  have := c.toNat_le
  omega

theorem half_sbc16 (a b : U16) (c : Bool) :
    (((a &&& HMASK16) - (b &&& HMASK16)) &&& H16 != 0#16 ||
      ((((a &&& HMASK16) - (b &&& HMASK16)) &&& HMASK16) - b16 c) &&& H16 != 0#16) =
      decide (a.toNat % 4096 < b.toNat % 4096 + c.toNat) := by
  rw [h16, h16, ← Bool.decide_or, decide_eq_decide, BitVec.toNat_sub _ (b16 c), hm16,
    BitVec.toNat_sub, hm16, hm16, b16_nat]
  have := c.toNat_le
  omega

/-- Equality of flag bytes from equality of the bits. -/
theorem masks_congr {s z y h x pv n c s' z' y' h' x' pv' n' c' : Bool} (h1 : s = s') (h2 : z = z')
    (h3 : y = y') (h4 : h = h') (h5 : x = x') (h6 : pv = pv') (h7 : n = n') (h8 : c = c') :
    (Fl.mk s z y h x pv n c) = Fl.mk s' z' y' h' x' pv' n' c' := by subst_vars; rfl

theorem fl_add (h s y x c v z : Bool) :
    (mask h H ||| (mask s S ||| mask y Y ||| mask x X) ||| maskCvz c v z) =
    (Fl.mk s z y h x v false c).byte := by
  revert h s y x c v z; decide +kernel
theorem fl_sub (h s y x c v z : Bool) :
    (mask h H ||| N ||| (mask s S ||| mask y Y ||| mask x X) ||| maskCvz c v z) =
    (Fl.mk s z y h x v true c).byte := by
  revert h s y x c v z; decide +kernel
theorem fl_cp (h s y x c v z : Bool) :
    (mask h H ||| N ||| mask s S ||| (mask y Y ||| mask x X) ||| maskCvz c v z) =
    (Fl.mk s z y h x v true c).byte := by
  revert h s y x c v z; decide +kernel

theorem ofNat_toNat_add (a b : U8) (c : Bool) :
    BitVec.ofNat 8 (a.toNat + b.toNat + c.toNat) = a + b + b8 c := by
  apply BitVec.eq_of_toNat_eq
  rw [BitVec.toNat_ofNat, BitVec.toNat_add, BitVec.toNat_add, b8_nat]; omega

theorem ofInt_toNat_sub (a b : U8) (c : Bool) :
    BitVec.ofInt 8 ((a.toNat : Int) - b.toNat - c.toNat) = a - b - b8 c := by
  apply BitVec.eq_of_toNat_eq
  rw [BitVec.toNat_ofInt, BitVec.toNat_sub, BitVec.toNat_sub, b8_nat]
  have := c.toNat_le
  omega

theorem uadd8 (a b : U8) : BitVec.uaddOverflow a b = decide (256 ≤ a.toNat + b.toNat) := rfl
theorem usub8 (a b : U8) : BitVec.usubOverflow a b = decide (a.toNat < b.toNat) := rfl

theorem sadd8 (a b : U8) : BitVec.saddOverflow a b =
    (decide (a.toInt + b.toInt < -128) || decide (127 < a.toInt + b.toInt)) := by
  unfold BitVec.saddOverflow
  rw [← Bool.decide_or, ← Bool.decide_or, decide_eq_decide]; omega
theorem ssub8 (a b : U8) : BitVec.ssubOverflow a b =
    (decide (a.toInt - b.toInt < -128) || decide (127 < a.toInt - b.toInt)) := by
  unfold BitVec.ssubOverflow
  rw [← Bool.decide_or, ← Bool.decide_or, decide_eq_decide]; omega

theorem add_eq (a b f : U8) :
    Ops.add a b f = ((Spec.add8 a b false).1, (Spec.add8 a b false).2.byte) := by
  unfold Ops.add Spec.add8 Fl.res
  simp only [maskNhAdd, half_add, maskSXY_eq, fl_add, ofNat_toNat_add, beq_zero8, uadd8, sadd8]
  simp [b8]

theorem sub_eq (a b f : U8) :
    Ops.sub a b f = ((Spec.sub8 a b false).1, (Spec.sub8 a b false).2.byte) := by
  unfold Ops.sub Spec.sub8 Fl.res
  simp only [maskNhSub, half_sub, maskSXY_eq, fl_sub, ofInt_toNat_sub, beq_zero8, usub8, ssub8]
  simp [b8]

theorem cp_eq (a b f : U8) : Ops.cp a b f = (Spec.cp8 a b).byte := by
  unfold Ops.cp Spec.cp8 Spec.sub8 Fl.res
  simp only [maskNhSub, half_sub, maskSign_eq, maskXY_eq, fl_cp, ofInt_toNat_sub, beq_zero8, usub8,
    ssub8]
  simp [b8]

theorem adc_res (a b : U8) (c : Bool) :
    (a.setWidth 16 + b.setWidth 16 + b16 c).setWidth 8 = a + b + b8 c := by
  apply BitVec.eq_of_toNat_eq
  simp only [BitVec.toNat_setWidth, BitVec.toNat_add, b16_nat, b8_nat]
  have := c.toNat_le
  omega
theorem sbc_res (a b : U8) (c : Bool) :
    (a.setWidth 16 - b.setWidth 16 - b16 c).setWidth 8 = a - b - b8 c := by
  apply BitVec.eq_of_toNat_eq
  simp only [BitVec.toNat_setWidth, BitVec.toNat_sub, b16_nat, b8_nat]
  have := c.toNat_le
  omega
theorem adc_carry (a b : U8) (c : Bool) :
    ((a.setWidth 16 + b.setWidth 16 + b16 c) &&& 0x100#16 != 0#16) =
      decide (256 ≤ a.toNat + b.toNat + c.toNat) := by
  rw [c16, decide_eq_decide]
  simp only [BitVec.toNat_setWidth, BitVec.toNat_add, b16_nat]
  have := c.toNat_le
  omega
theorem sbc_carry (a b : U8) (c : Bool) :
    ((a.setWidth 16 - b.setWidth 16 - b16 c) &&& 0x100#16 != 0#16) =
      decide (a.toNat < b.toNat + c.toNat) := by
  rw [c16, decide_eq_decide]
  simp only [BitVec.toNat_setWidth, BitVec.toNat_sub, b16_nat]
  have := c.toNat_le
  omega

theorem xor_decide (p q r : Prop) [Decidable p] [Decidable q] [Decidable r]
    (h : r ↔ (p ∧ ¬ q) ∨ (¬ p ∧ q)) : (decide p ^^ decide q) = decide r := by
  by_cases p <;> by_cases q <;> simp_all

theorem adc_over (a b : U8) (c : Bool) :
    (BitVec.saddOverflow a b ^^ BitVec.saddOverflow (a + b) (b8 c)) =
    (decide (a.toInt + b.toInt + c.toNat < -128) || decide (127 < a.toInt + b.toInt + c.toNat)) := by
  rw [sadd8, sadd8, ← Bool.decide_or, ← Bool.decide_or, ← Bool.decide_or]
  apply xor_decide
  simp only [toInt8, BitVec.toNat_add, b8_nat]
  have := c.toNat_le
  have := a.isLt
  have := b.isLt
  (repeat' split) <;> omega
theorem sbc_over (a b : U8) (c : Bool) :
    (BitVec.ssubOverflow a b ^^ BitVec.ssubOverflow (a - b) (b8 c)) =
    (decide (a.toInt - b.toInt - c.toNat < -128) || decide (127 < a.toInt - b.toInt - c.toNat)) := by
  rw [ssub8, ssub8, ← Bool.decide_or, ← Bool.decide_or, ← Bool.decide_or]
  apply xor_decide
  simp only [toInt8, BitVec.toNat_sub, b8_nat]
  have := c.toNat_le
  have := a.isLt
  have := b.isLt
  (repeat' split) <;> omega

theorem adc_eq (a b f : U8) :
    Ops.adc a b f = ((Spec.add8 a b (Fl.of f).c).1, (Spec.add8 a b (Fl.of f).c).2.byte) := by
  unfold Ops.adc Spec.add8 Fl.res
  simp only [maskNhAdc, half_adc, maskSXY_eq, fl_add, ofNat_toNat_add, beq_zero8, adc_carry,
    adc_over, adc_res, cf_eq]

theorem sbc_eq (a b f : U8) :
    Ops.sbc a b f = ((Spec.sub8 a b (Fl.of f).c).1, (Spec.sub8 a b (Fl.of f).c).2.byte) := by
  unfold Ops.sbc Spec.sub8 Fl.res
  simp only [maskNhSbc, half_sbc, maskSXY_eq, fl_sub, ofInt_toNat_sub, beq_zero8, sbc_carry,
    sbc_over, sbc_res, cf_eq]

theorem inc_eq (a f : U8) :
    Ops.inc a f = ((Spec.inc8 a (Fl.of f)).1, (Spec.inc8 a (Fl.of f)).2.byte) := by
  unfold Ops.inc Spec.inc8 Spec.add8 Fl.res
  simp only [maskNhAdd, half_add, maskSXY_eq, fl_add, ofNat_toNat_add, beq_zero8, sadd8, cf_eq]
  simp [b8]

theorem dec_eq (a f : U8) :
    Ops.dec a f = ((Spec.dec8 a (Fl.of f)).1, (Spec.dec8 a (Fl.of f)).2.byte) := by
  unfold Ops.dec Spec.dec8 Spec.sub8 Fl.res
  simp only [maskNhSub, half_sub, maskSXY_eq, fl_sub, ofInt_toNat_sub, beq_zero8, ssub8, cf_eq]
  simp [b8]

theorem neg_eq (a f : U8) : Ops.neg a f = ((Spec.neg8 a).1, (Spec.neg8 a).2.byte) :=
  sub_eq 0 a f

/-! ### 16 bits -/

theorem hi8_nat (v : U16) : (hi8 v).toNat = v.toNat / 256 := by
  simp only [hi8, BitVec.extractLsb'_toNat, Nat.shiftRight_eq_div_pow]; omega
theorem lo8_nat (v : U16) : (lo8 v).toNat = v.toNat % 256 := by
  simp only [lo8, BitVec.extractLsb'_toNat, Nat.shiftRight_eq_div_pow]; omega
theorem word_nat (h l : U8) : (word h l).toNat = 256 * h.toNat + l.toNat := by
  simp only [word, BitVec.toNat_append]
  rw [← Nat.shiftLeft_add_eq_or_of_lt l.isLt, Nat.shiftLeft_eq, Nat.mul_comm]
theorem hi8_bit (v : U16) (i : Nat) : (hi8 v).toNat.testBit i = v.toNat.testBit (i + 8) := by
  rw [hi8_nat, show (256 : Nat) = 2 ^ 8 by rfl, Nat.testBit_div_two_pow]
theorem hi8_sign (v : U16) : decide (128 ≤ (hi8 v).toNat) = decide (32768 ≤ v.toNat) := by
  rw [hi8_nat, decide_eq_decide]; omega
@[simp] theorem hi8_word (h l : U8) : hi8 (word h l) = h := by
  apply BitVec.eq_of_toNat_eq; rw [hi8_nat, word_nat]; omega
@[simp] theorem lo8_word (h l : U8) : lo8 (word h l) = l := by
  apply BitVec.eq_of_toNat_eq; rw [lo8_nat, word_nat]; omega
@[simp] theorem word_hi8_lo8 (v : U16) : word (hi8 v) (lo8 v) = v := by
  apply BitVec.eq_of_toNat_eq; rw [word_nat, lo8_nat, hi8_nat]; omega
@[simp] theorem of16_get16 (v : U16) : (RegPair.of16 v).get16 = v := word_hi8_lo8 v
@[simp] theorem get16_of16 (p : RegPair) : RegPair.of16 p.get16 = p := by
  simp [RegPair.of16, RegPair.get16]

theorem ofNat_toNat_add16 (a b : U16) (c : Bool) :
    BitVec.ofNat 16 (a.toNat + b.toNat + c.toNat) = a + b + b16 c := by
  apply BitVec.eq_of_toNat_eq
  rw [BitVec.toNat_ofNat, BitVec.toNat_add, BitVec.toNat_add, b16_nat]; omega
theorem ofInt_toNat_sub16 (a b : U16) (c : Bool) :
    BitVec.ofInt 16 ((a.toNat : Int) - b.toNat - c.toNat) = a - b - b16 c := by
  apply BitVec.eq_of_toNat_eq
  rw [BitVec.toNat_ofInt, BitVec.toNat_sub, BitVec.toNat_sub, b16_nat]
  have := c.toNat_le
  omega

theorem adc16_res (a b : U16) (c : Bool) :
    (a.setWidth 32 + b.setWidth 32 + (b16 c).setWidth 32).setWidth 16 = a + b + b16 c := by
  apply BitVec.eq_of_toNat_eq
  simp only [BitVec.toNat_setWidth, BitVec.toNat_add, b16_nat]
  have := c.toNat_le
  omega
theorem sbc16_res (a b : U16) (c : Bool) :
    (a.setWidth 32 - b.setWidth 32 - (b16 c).setWidth 32).setWidth 16 = a - b - b16 c := by
  apply BitVec.eq_of_toNat_eq
  simp only [BitVec.toNat_setWidth, BitVec.toNat_sub, b16_nat]
  have := c.toNat_le
  omega
theorem adc16_carry (a b : U16) (c : Bool) :
    ((a.setWidth 32 + b.setWidth 32 + (b16 c).setWidth 32) &&& 0x10000#32 != 0#32) =
      decide (65536 ≤ a.toNat + b.toNat + c.toNat) := by
  rw [c32, decide_eq_decide]
  simp only [BitVec.toNat_setWidth, BitVec.toNat_add, b16_nat]
  have := c.toNat_le
  omega
theorem sbc16_carry (a b : U16) (c : Bool) :
    ((a.setWidth 32 - b.setWidth 32 - (b16 c).setWidth 32) &&& 0x10000#32 != 0#32) =
      decide (a.toNat < b.toNat + c.toNat) := by
  rw [c32, decide_eq_decide]
  simp only [BitVec.toNat_setWidth, BitVec.toNat_sub, b16_nat]
  have := c.toNat_le
  omega

theorem sadd16 (a b : U16) : BitVec.saddOverflow a b =
    (decide (a.toInt + b.toInt < -32768) || decide (32767 < a.toInt + b.toInt)) := by
  unfold BitVec.saddOverflow
  rw [← Bool.decide_or, ← Bool.decide_or, decide_eq_decide]; omega
theorem ssub16 (a b : U16) : BitVec.ssubOverflow a b =
    (decide (a.toInt - b.toInt < -32768) || decide (32767 < a.toInt - b.toInt)) := by
  unfold BitVec.ssubOverflow
  rw [← Bool.decide_or, ← Bool.decide_or, decide_eq_decide]; omega
theorem adc16_over (a b : U16) (c : Bool) :
    (BitVec.saddOverflow a b ^^ BitVec.saddOverflow (a + b) (b16 c)) =
    (decide (a.toInt + b.toInt + c.toNat < -32768) ||
      decide (32767 < a.toInt + b.toInt + c.toNat)) := by
  rw [sadd16, sadd16, ← Bool.decide_or, ← Bool.decide_or, ← Bool.decide_or]
  apply xor_decide
  simp only [toInt16, BitVec.toNat_add, b16_nat]
  have := c.toNat_le
  have := a.isLt
  have := b.isLt
  (repeat' split) <;> omega
theorem sbc16_over (a b : U16) (c : Bool) :
    (BitVec.ssubOverflow a b ^^ BitVec.ssubOverflow (a - b) (b16 c)) =
    (decide (a.toInt - b.toInt - c.toNat < -32768) ||
      decide (32767 < a.toInt - b.toInt - c.toNat)) := by
  rw [ssub16, ssub16, ← Bool.decide_or, ← Bool.decide_or, ← Bool.decide_or]
  apply xor_decide
  simp only [toInt16, BitVec.toNat_sub, b16_nat]
  have := c.toNat_le
  have := a.isLt
  have := b.isLt
  (repeat' split) <;> omega

theorem fl_add16 (f : U8) (h y x c : Bool) :
    insert (remove f (XY ||| H ||| N ||| C)) (mask h H ||| (mask y Y ||| mask x X) ||| maskCarry c) =
    ({ Fl.of f with y := y, h := h, x := x, n := false, c := c } : Fl).byte := by
  have h1 := all8_spec (p := fun f => all1 fun h => all1 fun y => all1 fun x => all1 fun c =>
    insert (remove f (XY ||| H ||| N ||| C)) (mask h H ||| (mask y Y ||| mask x X) ||| maskCarry c) ==
    ({ Fl.of f with y := y, h := h, x := x, n := false, c := c } : Fl).byte) (by decide +kernel) f
  have h2 := all1_spec (all1_spec (all1_spec (all1_spec h1 h) y) x) c
  simpa using h2

theorem add16_eq (a b : U16) (f : U8) : Ops.add16 a b f =
    (.of16 (Spec.add16 a b (Fl.of f)).1, (Spec.add16 a b (Fl.of f)).2.byte) := by
  unfold Ops.add16 Spec.add16
  have h := ofNat_toNat_add16 a b false
  simp only [Bool.toNat_false, Nat.add_zero, b16, Bool.false_eq_true, if_false, BitVec.add_zero] at h
  simp only [maskNhAdd16, half_add16, maskXY_eq, fl_add16, h, hi8_bit, BitVec.uaddOverflow]

theorem adc16_eq (a b : U16) (f : U8) : Ops.adc16 a b f =
    (.of16 (Spec.adc16 a b (Fl.of f).c).1, (Spec.adc16 a b (Fl.of f).c).2.byte) := by
  unfold Ops.adc16 Spec.adc16
  simp only [maskNhAdc16, half_adc16, maskSXY_eq, fl_add, ofNat_toNat_add16, beq_zero16, hi8_bit,
    adc16_carry, adc16_over, adc16_res, cf_eq, hi8_sign]

theorem sbc16_eq (a b : U16) (f : U8) : Ops.sbc16 a b f =
    (.of16 (Spec.sbc16 a b (Fl.of f).c).1, (Spec.sbc16 a b (Fl.of f).c).2.byte) := by
  unfold Ops.sbc16 Spec.sbc16
  simp only [maskNhSbc16, half_sbc16, maskSXY_eq, fl_sub, ofInt_toNat_sub16, beq_zero16, hi8_bit,
    sbc16_carry, sbc16_over, sbc16_res, cf_eq, hi8_sign]

/-! ### Logic -/

theorem fl_bitops (s z y h x pv c : Bool) :
    ((mask s S ||| mask y Y ||| mask x X) ||| mask z Z ||| mask h H ||| mask c C ||| mask pv PV) =
    (Fl.mk s z y h x pv false c).byte := by
  revert s z y h x pv c; decide +kernel

theorem maskBitops_eq (r : U8) (h c : Bool) : maskBitops r h c = (Spec.logicFl r h c).byte := by
  unfold maskBitops Spec.logicFl Fl.res
  simp only [maskSXY_eq, beq_zero8, countOnes_eq, fl_bitops]

theorem ofBits_bit (f : Nat → Bool) (i : Nat) (hi : i < 8) : (Spec.ofBits f).getLsbD i = f i := by
  have key : ∀ b0 b1 b2 b3 b4 b5 b6 b7 : Bool, ∀ i : Fin 8,
      (BitVec.ofNat 8 ([if b0 then 2 ^ 0 else 0, if b1 then 2 ^ 1 else 0, if b2 then 2 ^ 2 else 0,
        if b3 then 2 ^ 3 else 0, if b4 then 2 ^ 4 else 0, if b5 then 2 ^ 5 else 0,
        if b6 then 2 ^ 6 else 0, if b7 then 2 ^ 7 else 0].sum)).getLsbD i =
      [b0, b1, b2, b3, b4, b5, b6, b7][i] := by decide +kernel
  have h := key (f 0) (f 1) (f 2) (f 3) (f 4) (f 5) (f 6) (f 7) ⟨i, hi⟩
  refine Eq.trans ?_ (h.trans ?_)
  · rfl
  · match i, hi with
    | 0, _ | 1, _ | 2, _ | 3, _ | 4, _ | 5, _ | 6, _ | 7, _ => rfl

theorem eq_ofBits (r : U8) (f : Nat → Bool) (h : ∀ i, i < 8 → r.getLsbD i = f i) :
    r = Spec.ofBits f := by
  apply BitVec.eq_of_getLsbD_eq
  intro i hi
  rw [ofBits_bit f i hi, h i hi]

theorem and_eq (a b f : U8) : Ops.and a b f = ((Spec.and8 a b).1, (Spec.and8 a b).2.byte) := by
  unfold Ops.and Spec.and8
  rw [← eq_ofBits (a &&& b) _ (by intro i _; simp [BitVec.testBit_toNat])]
  simp only [maskBitops_eq]
theorem or_eq (a b f : U8) : Ops.or a b f = ((Spec.or8 a b).1, (Spec.or8 a b).2.byte) := by
  unfold Ops.or Spec.or8
  rw [← eq_ofBits (a ||| b) _ (by intro i _; simp [BitVec.testBit_toNat])]
  simp only [maskBitops_eq]
theorem xor_eq (a b f : U8) : Ops.xor a b f = ((Spec.xor8 a b).1, (Spec.xor8 a b).2.byte) := by
  unfold Ops.xor Spec.xor8
  rw [← eq_ofBits (a ^^^ b) _ (by intro i _; simp [BitVec.testBit_toNat])]
  simp only [maskBitops_eq]

theorem fl_cpl (f : U8) (y x : Bool) :
    insert (remove f XY) ((mask y Y ||| mask x X) ||| H ||| N) =
    ({ Fl.of f with y := y, h := true, x := x, n := true } : Fl).byte := by
  have h1 := all8_spec (p := fun f => all1 fun y => all1 fun x =>
    insert (remove f XY) ((mask y Y ||| mask x X) ||| H ||| N) ==
    ({ Fl.of f with y := y, h := true, x := x, n := true } : Fl).byte) (by decide +kernel) f
  simpa using all1_spec (all1_spec h1 y) x
theorem not_eq (a : U8) : ~~~a = BitVec.ofNat 8 (255 - a.toNat) := by
  apply BitVec.eq_of_toNat_eq
  rw [BitVec.toNat_not, BitVec.toNat_ofNat]; omega
theorem cpl_eq (a f : U8) :
    Ops.cpl a f = ((Spec.cpl8 a (Fl.of f)).1, (Spec.cpl8 a (Fl.of f)).2.byte) := by
  unfold Ops.cpl Spec.cpl8
  simp only [maskXY_eq, fl_cpl, not_eq]

theorem fl_ccf (f : U8) (y x : Bool) :
    insert (remove f (XY ||| H ||| N ||| C))
      ((mask y Y ||| mask x X) ||| maskHf (Fl.of f).c ||| maskCarry (!(Fl.of f).c)) =
    ({ Fl.of f with y := y, h := (Fl.of f).c, x := x, n := false, c := !(Fl.of f).c } : Fl).byte := by
  have h1 := all8_spec (p := fun f => all1 fun y => all1 fun x =>
    insert (remove f (XY ||| H ||| N ||| C))
      ((mask y Y ||| mask x X) ||| maskHf (Fl.of f).c ||| maskCarry (!(Fl.of f).c)) ==
    ({ Fl.of f with y := y, h := (Fl.of f).c, x := x, n := false, c := !(Fl.of f).c } : Fl).byte)
      (by decide +kernel) f
  simpa using all1_spec (all1_spec h1 y) x
theorem ccf_eq (q f : U8) : Ops.ccf q f = (Spec.ccf8 q (Fl.of f)).byte := by
  unfold Ops.ccf Spec.ccf8
  simp only [maskXY_eq, cf_eq, fl_ccf]

theorem fl_scf (f : U8) (y x : Bool) :
    insert (remove f (XY ||| H ||| N)) ((mask y Y ||| mask x X) ||| C) =
    ({ Fl.of f with y := y, h := false, x := x, n := false, c := true } : Fl).byte := by
  have h1 := all8_spec (p := fun f => all1 fun y => all1 fun x =>
    insert (remove f (XY ||| H ||| N)) ((mask y Y ||| mask x X) ||| C) ==
    ({ Fl.of f with y := y, h := false, x := x, n := false, c := true } : Fl).byte)
      (by decide +kernel) f
  simpa using all1_spec (all1_spec h1 y) x
theorem scf_eq (q f : U8) : Ops.scf q f = (Spec.scf8 q (Fl.of f)).byte := by
  unfold Ops.scf Spec.scf8
  simp only [maskXY_eq, fl_scf]

/-! ### DAA -/

/-- The part of `daa` that depends on the accumulator and three flags. -/
theorem daa_core (a : U8) (c h n : Bool) :
    Ops.daaDiff c (a &&& 0xF0#8) h (a &&& 0x0F#8) =
      some (BitVec.ofNat 8 (Spec.daaCorrection a h c)) ∧
    Ops.daaCf c (a &&& 0xF0#8) (a &&& 0x0F#8) = some (c || decide (0x99 < a.toNat)) ∧
    Ops.daaHf n h (a &&& 0x0F#8) =
      some (if n then h && decide (a.toNat % 16 < 6) else decide (9 < a.toNat % 16)) := by
  have h1 := all8_spec (p := fun a => all1 fun c => all1 fun h => all1 fun n =>
    Ops.daaDiff c (a &&& 0xF0#8) h (a &&& 0x0F#8) ==
      some (BitVec.ofNat 8 (Spec.daaCorrection a h c)) &&
    Ops.daaCf c (a &&& 0xF0#8) (a &&& 0x0F#8) == some (c || decide (0x99 < a.toNat)) &&
    Ops.daaHf n h (a &&& 0x0F#8) ==
      some (if n then h && decide (a.toNat % 16 < 6) else decide (9 < a.toNat % 16)))
      (by decide +kernel) a
  have h2 := all1_spec (all1_spec (all1_spec h1 c) h) n
  simpa [and_assoc] using h2

theorem fl_daa (s z y h x pv c n : Bool) :
    (Fl.mk s z y h x pv false c).byte ||| maskNf n = (Fl.mk s z y h x pv n c).byte := by
  revert s z y h x pv c n; decide +kernel

theorem daa_eq (a f : U8) :
    Ops.daa a f = some ((Spec.daa8 a (Fl.of f)).1, (Spec.daa8 a (Fl.of f)).2.byte) := by
  have key := daa_core a (Fl.of f).c (Fl.of f).h (Fl.of f).n
  have hs : a - BitVec.ofNat 8 (Spec.daaCorrection a (Fl.of f).h (Fl.of f).c) =
      BitVec.ofInt 8 ((a.toNat : Int) - Spec.daaCorrection a (Fl.of f).h (Fl.of f).c) := by
    apply BitVec.eq_of_toNat_eq
    rw [BitVec.toNat_ofInt, BitVec.toNat_sub, BitVec.toNat_ofNat]
    omega
  have ha : a + BitVec.ofNat 8 (Spec.daaCorrection a (Fl.of f).h (Fl.of f).c) =
      BitVec.ofNat 8 (a.toNat + Spec.daaCorrection a (Fl.of f).h (Fl.of f).c) := by
    apply BitVec.eq_of_toNat_eq
    rw [BitVec.toNat_add, BitVec.toNat_ofNat, BitVec.toNat_ofNat]
    omega
  unfold Ops.daa
  simp only [cf_eq, hf_eq, nf_eq, key.1, key.2.1, key.2.2, Option.bind_eq_bind, Option.bind_some,
    maskBitops_eq, hs, ha]
  unfold Spec.daa8 Spec.logicFl Fl.res
  simp only [fl_daa]
  rfl

/-! ### Rotates and shifts -/

theorem fl_accRot (f : U8) (y x c : Bool) :
    insert (remove f (XY ||| H ||| N ||| C)) ((mask y Y ||| mask x X) ||| mask c 1#8) =
    ({ Fl.of f with y := y, h := false, x := x, n := false, c := c } : Fl).byte := by
  have h1 := all8_spec (p := fun f => all1 fun y => all1 fun x => all1 fun c =>
    insert (remove f (XY ||| H ||| N ||| C)) ((mask y Y ||| mask x X) ||| mask c 1#8) ==
    ({ Fl.of f with y := y, h := false, x := x, n := false, c := c } : Fl).byte)
      (by decide +kernel) f
  simpa using all1_spec (all1_spec (all1_spec h1 y) x) c

theorem and_one (v : U8) : v &&& 1#8 = mask (decide (v.toNat % 2 = 1)) 1#8 := by
  have := all8_spec (p := fun v => (v &&& 1#8) == mask (decide (v.toNat % 2 = 1)) 1#8)
    (by decide +kernel) v
  simpa using this
theorem and_one_ne (v : U8) : (v &&& 1#8 != 0#8) = decide (v.toNat % 2 = 1) :=
  bit_ne_zero v _ 0 (by decide) (by decide) |>.trans (by simp)
theorem and_80_ne (v : U8) : (v &&& 0x80#8 != 0#8) = decide (128 ≤ v.toNat) :=
  (bit_ne_zero v _ 7 (by decide) (by decide)).trans (by
    rw [decide_eq_decide]; have := v.isLt; omega)

theorem rot_vals (v : U8) (c : Bool) :
    v.rotateLeft 1 = Spec.Sh.val .rlc v c ∧ v.rotateRight 1 = Spec.Sh.val .rrc v c ∧
    (v.rotateLeft 1 &&& ~~~1#8) ||| mask c C = Spec.Sh.val .rl v c ∧
    ((v &&& ~~~1#8) ||| mask c C).rotateRight 1 = Spec.Sh.val .rr v c ∧
    v <<< 1 = Spec.Sh.val .sla v c ∧ v.sshiftRight 1 = Spec.Sh.val .sra v c ∧
    (v <<< 1) ||| 1#8 = Spec.Sh.val .sll v c ∧ v >>> 1 = Spec.Sh.val .srl v c ∧
    decide ((v.rotateLeft 1).toNat % 2 = 1) = decide (128 ≤ v.toNat) ∧
    decide ((Spec.Sh.val .rlc v false).toNat % 2 = 1) = decide (128 ≤ v.toNat) := by
  have h1 := all8_spec (p := fun v => all1 fun c =>
    v.rotateLeft 1 == Spec.Sh.val .rlc v c && (v.rotateRight 1 == Spec.Sh.val .rrc v c &&
    ((v.rotateLeft 1 &&& ~~~1#8) ||| mask c C == Spec.Sh.val .rl v c &&
    (((v &&& ~~~1#8) ||| mask c C).rotateRight 1 == Spec.Sh.val .rr v c &&
    (v <<< 1 == Spec.Sh.val .sla v c && (v.sshiftRight 1 == Spec.Sh.val .sra v c &&
    ((v <<< 1) ||| 1#8 == Spec.Sh.val .sll v c && (v >>> 1 == Spec.Sh.val .srl v c &&
    (decide ((v.rotateLeft 1).toNat % 2 = 1) == decide (128 ≤ v.toNat) &&
    decide ((Spec.Sh.val .rlc v false).toNat % 2 = 1) == decide (128 ≤ v.toNat))))))))))
    (by decide +kernel) v
  have h2 := all1_spec h1 c
  simp only [Bool.and_eq_true, beq_iff_eq] at h2
  exact h2

theorem rlca_eq (a f : U8) : Ops.rlca a f =
    ((Spec.Sh.accOp .rlc a (Fl.of f)).1, (Spec.Sh.accOp .rlc a (Fl.of f)).2.byte) := by
  have h := rot_vals a (Fl.of f).c
  unfold Ops.rlca Spec.Sh.accOp
  simp only [maskXY_eq, and_one, fl_accRot, h.2.2.2.2.2.2.2.2.1, ← h.1, Spec.Sh.carry]
theorem rrca_eq (a f : U8) : Ops.rrca a f =
    ((Spec.Sh.accOp .rrc a (Fl.of f)).1, (Spec.Sh.accOp .rrc a (Fl.of f)).2.byte) := by
  have h := rot_vals a (Fl.of f).c
  unfold Ops.rrca Spec.Sh.accOp
  simp only [maskXY_eq, and_one, fl_accRot, ← h.2.1, Spec.Sh.carry]
theorem rla_eq (a f : U8) : Ops.rla a f =
    ((Spec.Sh.accOp .rl a (Fl.of f)).1, (Spec.Sh.accOp .rl a (Fl.of f)).2.byte) := by
  have h := rot_vals a (Fl.of f).c
  unfold Ops.rla Spec.Sh.accOp
  simp only [maskXY_eq, andC_eq, h.2.2.1]
  simp only [and_one, fl_accRot, h.2.2.2.2.2.2.2.2.1, Spec.Sh.carry]
theorem rra_eq (a f : U8) : Ops.rra a f =
    ((Spec.Sh.accOp .rr a (Fl.of f)).1, (Spec.Sh.accOp .rr a (Fl.of f)).2.byte) := by
  have h := rot_vals a (Fl.of f).c
  unfold Ops.rra Spec.Sh.accOp
  simp only [maskXY_eq, andC_eq, h.2.2.2.1]
  simp only [and_one, fl_accRot, Spec.Sh.carry]

theorem rlc_eq (a f : U8) (c : Bool) :
    Ops.rlc a f = ((Spec.Sh.op .rlc a c).1, (Spec.Sh.op .rlc a c).2.byte) := by
  have h := rot_vals a c
  unfold Ops.rlc Spec.Sh.op
  simp only [maskBitops_eq, and_one_ne, h.2.2.2.2.2.2.2.2.1, ← h.1, Spec.Sh.carry]
theorem rrc_eq (a f : U8) (c : Bool) :
    Ops.rrc a f = ((Spec.Sh.op .rrc a c).1, (Spec.Sh.op .rrc a c).2.byte) := by
  have h := rot_vals a c
  unfold Ops.rrc Spec.Sh.op
  simp only [maskBitops_eq, and_one_ne, ← h.2.1, Spec.Sh.carry]
theorem rl_eq (a f : U8) : Ops.rl a f =
    ((Spec.Sh.op .rl a (Fl.of f).c).1, (Spec.Sh.op .rl a (Fl.of f).c).2.byte) := by
  have h := rot_vals a (Fl.of f).c
  unfold Ops.rl Spec.Sh.op
  simp only [andC_eq, h.2.2.1, maskBitops_eq, and_one_ne, h.2.2.2.2.2.2.2.2.1, Spec.Sh.carry]
theorem rr_eq (a f : U8) : Ops.rr a f =
    ((Spec.Sh.op .rr a (Fl.of f).c).1, (Spec.Sh.op .rr a (Fl.of f).c).2.byte) := by
  have h := rot_vals a (Fl.of f).c
  unfold Ops.rr Spec.Sh.op
  simp only [andC_eq, h.2.2.2.1, maskBitops_eq, and_one_ne, Spec.Sh.carry]
theorem sla_eq (a f : U8) (c : Bool) :
    Ops.sla a f = ((Spec.Sh.op .sla a c).1, (Spec.Sh.op .sla a c).2.byte) := by
  have h := rot_vals a c
  unfold Ops.sla Spec.Sh.op
  simp only [maskBitops_eq, and_80_ne, h.2.2.2.2.1, Spec.Sh.carry]
theorem sra_eq (a f : U8) (c : Bool) :
    Ops.sra a f = ((Spec.Sh.op .sra a c).1, (Spec.Sh.op .sra a c).2.byte) := by
  have h := rot_vals a c
  unfold Ops.sra Spec.Sh.op
  simp only [maskBitops_eq, and_one_ne, h.2.2.2.2.2.1, Spec.Sh.carry]
theorem sll_eq (a f : U8) (c : Bool) :
    Ops.sll a f = ((Spec.Sh.op .sll a c).1, (Spec.Sh.op .sll a c).2.byte) := by
  have h := rot_vals a c
  unfold Ops.sll Spec.Sh.op
  simp only [maskBitops_eq, and_80_ne, h.2.2.2.2.2.2.1, Spec.Sh.carry]
theorem srl_eq (a f : U8) (c : Bool) :
    Ops.srl a f = ((Spec.Sh.op .srl a c).1, (Spec.Sh.op .srl a c).2.byte) := by
  have h := rot_vals a c
  unfold Ops.srl Spec.Sh.op
  simp only [maskBitops_eq, and_one_ne, h.2.2.2.2.2.2.2.1, Spec.Sh.carry]

/-! ### Bits, nibbles, block operations -/

theorem fl_bit (s z y x c : Bool) :
    (mask s S ||| (mask y Y ||| mask x X) ||| H ||| mask c C ||| mask z (Z ||| PV)) =
    (Fl.mk s z y true x z false c).byte := by
  revert s z y x c; decide +kernel

theorem bit_tests (v : U8) (n : Fin 8) :
    decide (128 ≤ (v &&& (1#8 <<< n.val)).toNat) = (decide (n.val = 7) && v.toNat.testBit 7) ∧
    (v &&& (1#8 <<< n.val) == 0#8) = !v.toNat.testBit n := by
  have h1 := all8_spec (p := fun v => decide (∀ n : Fin 8,
    decide (128 ≤ (v &&& (1#8 <<< n.val)).toNat) = (decide (n.val = 7) && v.toNat.testBit 7) ∧
    (v &&& (1#8 <<< n.val) == 0#8) = !v.toNat.testBit n)) (by decide +kernel) v
  exact (of_decide_eq_true h1) n

theorem bitMp_eq (n : Nat) (hn : n < 8) (v q f : U8) :
    Ops.bitMp n v q f = (Spec.bit8 n v q (Fl.of f).c).byte := by
  have h := bit_tests v ⟨n, hn⟩
  unfold Ops.bitMp Spec.bit8
  simp only at h
  simp only [maskSign_eq, maskXY_eq, andC_eq, h.1, h.2, fl_bit]
theorem bit_eq (n : Nat) (hn : n < 8) (v f : U8) :
    Ops.bit n v f = (Spec.bit8 n v v (Fl.of f).c).byte := bitMp_eq n hn v v f

theorem shl_bit (n i : Nat) (hi : i < 8) : (1#8 <<< n).getLsbD i = decide (i = n) := by
  rw [BitVec.getLsbD_shiftLeft, BitVec.getLsbD_one]
  by_cases h : i = n
  · subst h; simp [hi]
  · by_cases h2 : i < n
    · simp [hi, h, h2]
    · simp [hi, h, h2]; omega
theorem res_eq (b : Nat) (v : U8) : Ops.res b v = Spec.res8 b v := by
  apply eq_ofBits
  intro i hi
  unfold Ops.res
  rw [BitVec.getLsbD_and, BitVec.getLsbD_not, shl_bit b i hi, BitVec.testBit_toNat]
  by_cases h : i = b <;> simp [h, hi]
theorem set_eq (b : Nat) (v : U8) : Ops.set b v = Spec.set8 b v := by
  apply eq_ofBits
  intro i hi
  unfold Ops.set
  rw [BitVec.getLsbD_or, shl_bit b i hi, BitVec.testBit_toNat]
  by_cases h : i = b <;> simp [h]

theorem nibs (v : U8) : (v &&& 0x0F#8).toNat = v.toNat % 16 ∧ (v &&& 0xF0#8).toNat = v.toNat / 16 * 16 ∧
    (v.rotateLeft 4).toNat = v.toNat % 16 * 16 + v.toNat / 16 ∧
    (v.rotateRight 4).toNat = v.toNat % 16 * 16 + v.toNat / 16 := by
  have h1 := all8_spec (p := fun v => (v &&& 0x0F#8).toNat == v.toNat % 16 &&
    ((v &&& 0xF0#8).toNat == v.toNat / 16 * 16 &&
    ((v.rotateLeft 4).toNat == v.toNat % 16 * 16 + v.toNat / 16 &&
    (v.rotateRight 4).toNat == v.toNat % 16 * 16 + v.toNat / 16))) (by decide +kernel) v
  simp only [Bool.and_eq_true, beq_iff_eq] at h1
  exact h1
theorem nib_or (a b : U8) :
    ((a &&& 0xF0#8) ||| (b &&& 0x0F#8)).toNat = a.toNat / 16 * 16 + b.toNat % 16 := by
  rw [BitVec.toNat_or, (nibs a).2.1, (nibs b).1, Nat.mul_comm]
  exact (Nat.two_pow_add_eq_or_of_lt (i := 4) (Nat.mod_lt _ (by decide)) _).symm

theorem swap_div (r q : Nat) (h : q < 16) : (r * 16 + q) / 16 = r ∧ (r * 16 + q) % 16 = q := by
  rw [Nat.mul_comm]
  constructor
  · rw [Nat.mul_add_div (by decide), Nat.div_eq_of_lt h, Nat.add_zero]
  · rw [Nat.mul_add_mod, Nat.mod_eq_of_lt h]
theorem div16_lt (v : U8) : v.toNat / 16 < 16 := by have := v.isLt; omega
theorem mod16_lt (v : U8) : v.toNat % 16 < 16 := Nat.mod_lt _ (by decide)

theorem rld_eq (a m f : U8) : Ops.rld a m f = ((Spec.rld8 a m (Fl.of f).c).1,
    (Spec.rld8 a m (Fl.of f).c).2.1, (Spec.rld8 a m (Fl.of f).c).2.2.byte) := by
  have h1 : (a &&& 0xF0#8) ||| (m.rotateLeft 4 &&& 0x0F#8) =
      BitVec.ofNat 8 (a.toNat / 16 * 16 + m.toNat / 16) := by
    apply BitVec.eq_of_toNat_eq
    rw [nib_or, BitVec.toNat_ofNat, (nibs m).2.2.1]
    have h1 := swap_div (m.toNat % 16) (m.toNat / 16) (div16_lt m)
    have := div16_lt a
    have := div16_lt m
    have := mod16_lt a
    have := mod16_lt m
    first | rw [h1.1] | rw [h1.2]
    exact (Nat.mod_eq_of_lt (by omega)).symm
  have h2 : (m.rotateLeft 4 &&& 0xF0#8) ||| (a &&& 0x0F#8) =
      BitVec.ofNat 8 (m.toNat % 16 * 16 + a.toNat % 16) := by
    apply BitVec.eq_of_toNat_eq
    rw [nib_or, BitVec.toNat_ofNat, (nibs m).2.2.1]
    have h1 := swap_div (m.toNat % 16) (m.toNat / 16) (div16_lt m)
    have := div16_lt a
    have := div16_lt m
    have := mod16_lt a
    have := mod16_lt m
    first | rw [h1.1] | rw [h1.2]
    exact (Nat.mod_eq_of_lt (by omega)).symm
  unfold Ops.rld Spec.rld8
  simp only [h1, h2, maskBitops_eq, cf_eq]
theorem rrd_eq (a m f : U8) : Ops.rrd a m f = ((Spec.rrd8 a m (Fl.of f).c).1,
    (Spec.rrd8 a m (Fl.of f).c).2.1, (Spec.rrd8 a m (Fl.of f).c).2.2.byte) := by
  have h1 : (a &&& 0xF0#8) ||| (m &&& 0x0F#8) =
      BitVec.ofNat 8 (a.toNat / 16 * 16 + m.toNat % 16) := by
    apply BitVec.eq_of_toNat_eq
    rw [nib_or, BitVec.toNat_ofNat]; omega
  have h2 : ((m &&& 0xF0#8) ||| (a &&& 0x0F#8)).rotateRight 4 =
      BitVec.ofNat 8 (a.toNat % 16 * 16 + m.toNat / 16) := by
    apply BitVec.eq_of_toNat_eq
    rw [(nibs _).2.2.2, nib_or, BitVec.toNat_ofNat]
    have h1 := swap_div (m.toNat / 16) (a.toNat % 16) (mod16_lt a)
    have := div16_lt m
    have := mod16_lt a
    rw [h1.1, h1.2]
    exact (Nat.mod_eq_of_lt (by omega)).symm
  unfold Ops.rrd Spec.rrd8
  simp only [h1, h2, maskBitops_eq, cf_eq]

theorem io_eq (v f : U8) : Ops.io v f = (Spec.inFl v (Fl.of f).c).byte := by
  unfold Ops.io Spec.inFl
  simp only [maskBitops_eq, cf_eq]

theorem fl_ldAIr (s z y x pv c : Bool) :
    ((mask s S ||| mask y Y ||| mask x X) ||| mask z Z ||| maskPvf pv ||| mask c C) =
    (Fl.mk s z y false x pv false c).byte := by
  revert s z y x pv c; decide +kernel
theorem ldAIr_eq (v : U8) (i : Bool) (f : U8) :
    Ops.ldAIr v i f = (Spec.ldAIrFl v i (Fl.of f).c).byte := by
  unfold Ops.ldAIr Spec.ldAIrFl Fl.res
  simp only [maskSXY_eq, maskZero, beq_zero8, andC_eq, fl_ldAIr]

theorem blockXY (n : U8) : maskBlockOpXY n =
    mask (n.toNat.testBit 1) Y ||| mask (n.toNat.testBit 3) X := by
  have := all8_spec (p := fun n => maskBlockOpXY n ==
    (mask (n.toNat.testBit 1) Y ||| mask (n.toNat.testBit 3) X)) (by decide +kernel) n
  simpa using this
theorem fl_ldx (f : U8) (y x pv : Bool) :
    insert (remove f (H ||| XY ||| PV ||| N)) ((mask y Y ||| mask x X) ||| maskPvf pv) =
    ({ Fl.of f with y := y, h := false, x := x, pv := pv, n := false } : Fl).byte := by
  have h1 := all8_spec (p := fun f => all1 fun y => all1 fun x => all1 fun pv =>
    insert (remove f (H ||| XY ||| PV ||| N)) ((mask y Y ||| mask x X) ||| maskPvf pv) ==
    ({ Fl.of f with y := y, h := false, x := x, pv := pv, n := false } : Fl).byte)
      (by decide +kernel) f
  simpa using all1_spec (all1_spec (all1_spec h1 y) x) pv
theorem add_bit (a v : U8) (i : Nat) (hi : i < 8) :
    (v + a).toNat.testBit i = (a.toNat + v.toNat).testBit i := by
  rw [BitVec.toNat_add, Nat.testBit_mod_two_pow, Nat.add_comm]; simp [hi]
theorem ldx_eq (a v : U8) (z : Bool) (f : U8) :
    Ops.ldx a v z f = (Spec.ldxFl a v (!z) (Fl.of f)).byte := by
  unfold Ops.ldx Spec.ldxFl
  simp only [blockXY, fl_ldx, add_bit a v _ (by decide : 1 < 8), add_bit a v _ (by decide : 3 < 8)]

theorem fl_cpx (h s z pv y x c : Bool) :
    ((mask h H ||| N) ||| mask s S ||| mask z Z ||| maskPvf pv) ||| (mask y Y ||| mask x X) |||
      mask c C = (Fl.mk s z y h x pv true c).byte := by
  revert h s z pv y x c; decide +kernel
theorem hf_cpx (h s z pv : Bool) :
    hf ((mask h H ||| N) ||| mask s S ||| mask z Z ||| maskPvf pv) = h := by
  revert h s z pv; decide +kernel
theorem cpx_eq (a v : U8) (z : Bool) (f : U8) : Ops.cpx a v z f =
    (z || a == v, (Spec.cpxFl a v (!z) (Fl.of f)).byte) := by
  have hz : (a - v == 0#8) = (a == v) := by
    rw [Bool.eq_iff_iff, beq_iff_eq, beq_iff_eq]
    constructor
    · intro h
      have := congrArg (· + v) h
      simpa [BitVec.sub_add_cancel] using this
    · intro h; subst h; simp
  unfold Ops.cpx Spec.cpxFl Spec.sub8 Fl.res
  have h0 := ofInt_toNat_sub a v false
  simp only [b8, Bool.false_eq_true, if_false, BitVec.sub_zero] at h0
  simp only [maskNhSub, half_sub, maskSign_eq, maskZero, hf_cpx, blockXY, andC_eq, fl_cpx, hz, h0]
  simp only [b8, Bool.toNat_false, Nat.add_zero, ← hz, beq_zero8]

theorem fl_iox (s z y h x pv n : Bool) :
    ((mask s S ||| mask y Y ||| mask x X) ||| mask z Z ||| maskNf n ||| maskHcf h ||| maskPvf pv) =
    (Fl.mk s z y h x pv n h).byte := by
  revert s z y h x pv n; decide +kernel
theorem iox_eq (v b m f : U8) : Ops.iox v b m f = (Spec.ioxFl v b m).byte := by
  have h1 : (v + m) &&& 7#8 = BitVec.ofNat 8 ((v.toNat + m.toNat) % 8) := by
    apply BitVec.eq_of_toNat_eq
    rw [lowMask (v + m) 7#8 3 (by decide), BitVec.toNat_add, BitVec.toNat_ofNat]; omega
  have h2 : (v &&& 0x80#8 != 0#8) = v.toNat.testBit 7 := by
    rw [bit_ne_zero v _ 7 (by decide) (by decide), ← Nat.testBit_eq_decide_div_mod_eq]
  unfold Ops.iox Spec.ioxFl Fl.res parity
  simp only [maskSXY_eq, maskZero, beq_zero8, countOnes_eq, uadd8, h1, h2, fl_iox]

end Z80
