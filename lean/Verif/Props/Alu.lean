import Verif.Proofs.Alu

/-!
# C01–C08: arithmetic, logic, shifts, bits

The functions of `/repo/src/z80/ops.rs` equal the arithmetic specification of `Spec/Alu.lean`
on every operand and every prior flag byte. The same facts for whole instructions follow from
the refinement C44.
-/

namespace Z80
open Spec

/-! ### C01 -/

/-- C01: `ADD` for every accumulator, operand and flag byte. -/
theorem C01_add (a b f : U8) :
    (Ops.add a b f).1 = (add8 a b false).1 ∧ Fl.of (Ops.add a b f).2 = (add8 a b false).2 := by
  rw [add_eq]; exact ⟨rfl, of_byte _⟩

/-- C01: `ADC` for every accumulator, operand and flag byte. -/
theorem C01_adc (a b f : U8) :
    (Ops.adc a b f).1 = (add8 a b (Fl.of f).c).1 ∧
    Fl.of (Ops.adc a b f).2 = (add8 a b (Fl.of f).c).2 := by
  rw [adc_eq]; exact ⟨rfl, of_byte _⟩

example : Ops.adc 0x7F 0x80 0x01 = (0x00, 0x51) := by decide +kernel
example : (add8 0x7F 0x80 true).2 = Fl.of 0x51 := by decide +kernel

/-! ### C02 -/

/-- C02: `SUB`. -/
theorem C02_sub (a b f : U8) :
    (Ops.sub a b f).1 = (sub8 a b false).1 ∧ Fl.of (Ops.sub a b f).2 = (sub8 a b false).2 := by
  rw [sub_eq]; exact ⟨rfl, of_byte _⟩

/-- C02: `SBC`. -/
theorem C02_sbc (a b f : U8) :
    (Ops.sbc a b f).1 = (sub8 a b (Fl.of f).c).1 ∧
    Fl.of (Ops.sbc a b f).2 = (sub8 a b (Fl.of f).c).2 := by
  rw [sbc_eq]; exact ⟨rfl, of_byte _⟩

/-- C02: `CP`; the function returns flags only, so A cannot change. -/
theorem C02_cp (a b f : U8) : Fl.of (Ops.cp a b f) = cp8 a b := by
  rw [cp_eq]; exact of_byte _

/-- C02: `NEG`. -/
theorem C02_neg (a f : U8) :
    (Ops.neg a f).1 = (neg8 a).1 ∧ Fl.of (Ops.neg a f).2 = (neg8 a).2 := by
  rw [neg_eq]; exact ⟨rfl, of_byte _⟩

example : Ops.sbc 0x80 0x7F 0x01 = (0x00, 0x56) := by decide +kernel
example : Ops.cp 0x00 0x28 0x00 = 0xBB := by decide +kernel
example : Ops.neg 0x80 0x00 = (0x80, 0x87) := by decide +kernel

/-! ### C03 -/

theorem incdec_table :
    (all8 fun a => all1 fun c => decide ({ (add8 a 1 false).2 with c := c } =
      ({ Fl.res (add8 a 1 false).1 with
        h := a.toNat % 16 = 15, pv := a.toNat = 0x7F, n := false, c := c } : Fl))) = true ∧
    (all8 fun a => all1 fun c => decide ({ (sub8 a 1 false).2 with c := c } =
      ({ Fl.res (sub8 a 1 false).1 with
        h := a.toNat % 16 = 0, pv := a.toNat = 0x80, n := true, c := c } : Fl))) = true := by
  decide +kernel

/-- C03: `INC` and `DEC`: result modulo 256, carry kept, P/V exactly at the signed boundary,
half carry exactly at a nibble carry or borrow, and all other flags. -/
theorem C03_inc (a f : U8) :
    (Ops.inc a f).1.toNat = (a.toNat + 1) % 256 ∧
    Fl.of (Ops.inc a f).2 = { Fl.res (Ops.inc a f).1 with
      h := a.toNat % 16 = 15
      pv := a.toNat = 0x7F
      n := false
      c := (Fl.of f).c } := by
  rw [inc_eq]
  have h := a.isLt
  constructor
  · show (BitVec.ofNat 8 (a.toNat + 1 + 0)).toNat = _
    rw [BitVec.toNat_ofNat]
  · rw [of_byte]
    exact of_decide_eq_true (all1_spec (all8_spec incdec_table.1 a) (Fl.of f).c)

/-- C03: `DEC`. -/
theorem C03_dec (a f : U8) :
    (Ops.dec a f).1.toNat = (a.toNat + 255) % 256 ∧
    Fl.of (Ops.dec a f).2 = { Fl.res (Ops.dec a f).1 with
      h := a.toNat % 16 = 0
      pv := a.toNat = 0x80
      n := true
      c := (Fl.of f).c } := by
  rw [dec_eq]
  have h := a.isLt
  constructor
  · show (BitVec.ofInt 8 ((a.toNat : Int) - 1 - 0)).toNat = _
    rw [BitVec.toNat_ofInt]; omega
  · rw [of_byte]
    exact of_decide_eq_true (all1_spec (all8_spec incdec_table.2 a) (Fl.of f).c)

example : Ops.inc 0x7F 0xFF = (0x80, 0x95) := by decide +kernel
example : Ops.dec 0x80 0x00 = (0x7F, 0x3E) := by decide +kernel

/-! ### C04 -/

/-- C04: `ADD HL,ss`. -/
theorem C04_add16 (a b : U16) (f : U8) :
    (Ops.add16 a b f).1.get16 = (add16 a b (Fl.of f)).1 ∧
    Fl.of (Ops.add16 a b f).2 = (add16 a b (Fl.of f)).2 := by
  rw [add16_eq]; exact ⟨of16_get16 _, of_byte _⟩

/-- C04: `ADC HL,ss`. -/
theorem C04_adc16 (a b : U16) (f : U8) :
    (Ops.adc16 a b f).1.get16 = (adc16 a b (Fl.of f).c).1 ∧
    Fl.of (Ops.adc16 a b f).2 = (adc16 a b (Fl.of f).c).2 := by
  rw [adc16_eq]; exact ⟨of16_get16 _, of_byte _⟩

/-- C04: `SBC HL,ss`. -/
theorem C04_sbc16 (a b : U16) (f : U8) :
    (Ops.sbc16 a b f).1.get16 = (sbc16 a b (Fl.of f).c).1 ∧
    Fl.of (Ops.sbc16 a b f).2 = (sbc16 a b (Fl.of f).c).2 := by
  rw [sbc16_eq]; exact ⟨of16_get16 _, of_byte _⟩

example : Ops.add16 0xFFFF 0x0001 0xFF = (⟨0x00, 0x00⟩, 0xD5) := by decide +kernel
example : Ops.sbc16 0x8000 0x0001 0x00 = (⟨0x7F, 0xFF⟩, 0x3E) := by decide +kernel

/-! ### C05 -/

/-- C05: `AND`, `OR`, `XOR`. -/
theorem C05_logic (a b f : U8) :
    ((Ops.and a b f).1 = (and8 a b).1 ∧ Fl.of (Ops.and a b f).2 = (and8 a b).2) ∧
    ((Ops.or a b f).1 = (or8 a b).1 ∧ Fl.of (Ops.or a b f).2 = (or8 a b).2) ∧
    ((Ops.xor a b f).1 = (xor8 a b).1 ∧ Fl.of (Ops.xor a b f).2 = (xor8 a b).2) := by
  rw [and_eq, or_eq, xor_eq]
  exact ⟨⟨rfl, of_byte _⟩, ⟨rfl, of_byte _⟩, ⟨rfl, of_byte _⟩⟩

/-- C05: `CPL`, `SCF`, `CCF`. The byte `q` is the source of Y and X chosen by the flavour. -/
theorem C05_cpl_scf_ccf (a q f : U8) :
    ((Ops.cpl a f).1 = (cpl8 a (Fl.of f)).1 ∧ Fl.of (Ops.cpl a f).2 = (cpl8 a (Fl.of f)).2) ∧
    Fl.of (Ops.scf q f) = scf8 q (Fl.of f) ∧
    Fl.of (Ops.ccf q f) = ccf8 q (Fl.of f) := by
  rw [cpl_eq, scf_eq, ccf_eq]
  exact ⟨⟨rfl, of_byte _⟩, of_byte _, of_byte _⟩

example : Ops.and 0xF0 0x3C 0xFF = (0x30, 0x34) := by decide +kernel
example : Ops.ccf 0x28 0xC5 = 0xFC := by decide +kernel

/-! ### C06 -/

/-- C06: on every accumulator and flag byte `DAA` returns (does not reach an unreachable arm)
and equals the documented correction. -/
theorem C06_daa (a f : U8) : ∃ r g, Ops.daa a f = some (r, g) ∧
    r = (daa8 a (Fl.of f)).1 ∧ Fl.of g = (daa8 a (Fl.of f)).2 :=
  ⟨_, _, daa_eq a f, rfl, of_byte _⟩

theorem bcd_table :
    (∀ m : Fin 100, ∀ n : Fin 100, ∀ c : Bool,
      let s := add8 (bcd m) (bcd n) c
      let d := daa8 s.1 s.2
      d.1 = bcd ((m + n + c.toNat) % 100) ∧ d.2.c = decide (100 ≤ m.val + n + c.toNat)) ∧
    (∀ m : Fin 100, ∀ n : Fin 100, ∀ c : Bool,
      let s := sub8 (bcd m) (bcd n) c
      let d := daa8 s.1 s.2
      d.1 = bcd ((100 + m - n - c.toNat) % 100) ∧ d.2.c = decide (m.val < n + c.toNat)) := by
  decide +kernel

/-- C06: `ADD` or `ADC` of two packed decimal bytes followed by `DAA` is decimal addition. -/
theorem C06_bcd_add (m n : Nat) (hm : m < 100) (hn : n < 100) (f : U8) :
    (∃ r g, Ops.daa (Ops.add (bcd m) (bcd n) f).1 (Ops.add (bcd m) (bcd n) f).2 = some (r, g) ∧
      r = bcd ((m + n) % 100) ∧ (Fl.of g).c = decide (100 ≤ m + n)) ∧
    (∃ r g, Ops.daa (Ops.adc (bcd m) (bcd n) f).1 (Ops.adc (bcd m) (bcd n) f).2 = some (r, g) ∧
      r = bcd ((m + n + (Fl.of f).c.toNat) % 100) ∧
      (Fl.of g).c = decide (100 ≤ m + n + (Fl.of f).c.toNat)) := by
  have h1 := bcd_table.1 ⟨m, hm⟩ ⟨n, hn⟩ false
  have h2 := bcd_table.1 ⟨m, hm⟩ ⟨n, hn⟩ (Fl.of f).c
  refine ⟨⟨_, _, daa_eq _ _, ?_⟩, ⟨_, _, daa_eq _ _, ?_⟩⟩
  · rw [add_eq, of_byte, of_byte]; exact h1
  · rw [adc_eq, of_byte, of_byte]; exact h2

/-- C06: `SUB` or `SBC` of two packed decimal bytes followed by `DAA` is decimal subtraction. -/
theorem C06_bcd_sub (m n : Nat) (hm : m < 100) (hn : n < 100) (f : U8) :
    (∃ r g, Ops.daa (Ops.sub (bcd m) (bcd n) f).1 (Ops.sub (bcd m) (bcd n) f).2 = some (r, g) ∧
      r = bcd ((100 + m - n) % 100) ∧ (Fl.of g).c = decide (m < n)) ∧
    (∃ r g, Ops.daa (Ops.sbc (bcd m) (bcd n) f).1 (Ops.sbc (bcd m) (bcd n) f).2 = some (r, g) ∧
      r = bcd ((100 + m - n - (Fl.of f).c.toNat) % 100) ∧
      (Fl.of g).c = decide (m < n + (Fl.of f).c.toNat)) := by
  have h1 := bcd_table.2 ⟨m, hm⟩ ⟨n, hn⟩ false
  have h2 := bcd_table.2 ⟨m, hm⟩ ⟨n, hn⟩ (Fl.of f).c
  refine ⟨⟨_, _, daa_eq _ _, ?_⟩, ⟨_, _, daa_eq _ _, ?_⟩⟩
  · rw [sub_eq, of_byte, of_byte]; exact h1
  · rw [sbc_eq, of_byte, of_byte]; exact h2

example : bcd 47 = 0x47 ∧ bcd 86 = 0x86 ∧ bcd ((47 + 86) % 100) = 0x33 := by decide
example : Ops.daa (Ops.add 0x47 0x86 0).1 (Ops.add 0x47 0x86 0).2 = some (0x33, 0x35) := by
  decide +kernel

/-! ### C07 -/

/-- C07: every rotate and shift of the CB group: result, expelled bit in C, S, Z, parity. -/
theorem C07_shifts (v f : U8) :
    let ok (p : U8 × U8) (k : Sh) :=
      p.1 = k.val v (Fl.of f).c ∧
      Fl.of p.2 = logicFl (k.val v (Fl.of f).c) false (k.carry v)
    ok (Ops.rlc v f) .rlc ∧ ok (Ops.rrc v f) .rrc ∧ ok (Ops.rl v f) .rl ∧ ok (Ops.rr v f) .rr ∧
    ok (Ops.sla v f) .sla ∧ ok (Ops.sra v f) .sra ∧ ok (Ops.sll v f) .sll ∧
    ok (Ops.srl v f) .srl := by
  intro ok
  have c := (Fl.of f).c
  refine ⟨?_, ?_, ?_, ?_, ?_, ?_, ?_, ?_⟩
  · show ok _ _; simp only [ok, rlc_eq v f (Fl.of f).c, of_byte]; exact ⟨rfl, rfl⟩
  · show ok _ _; simp only [ok, rrc_eq v f (Fl.of f).c, of_byte]; exact ⟨rfl, rfl⟩
  · show ok _ _; simp only [ok, rl_eq v f, of_byte]; exact ⟨rfl, rfl⟩
  · show ok _ _; simp only [ok, rr_eq v f, of_byte]; exact ⟨rfl, rfl⟩
  · show ok _ _; simp only [ok, sla_eq v f (Fl.of f).c, of_byte]; exact ⟨rfl, rfl⟩
  · show ok _ _; simp only [ok, sra_eq v f (Fl.of f).c, of_byte]; exact ⟨rfl, rfl⟩
  · show ok _ _; simp only [ok, sll_eq v f (Fl.of f).c, of_byte]; exact ⟨rfl, rfl⟩
  · show ok _ _; simp only [ok, srl_eq v f (Fl.of f).c, of_byte]; exact ⟨rfl, rfl⟩

/-- C07: the accumulator rotates keep S, Z and P/V. -/
theorem C07_acc_rotates (a f : U8) :
    let ok (p : U8 × U8) (k : Sh) :=
      p.1 = k.val a (Fl.of f).c ∧
      Fl.of p.2 = { Fl.of f with
        y := p.1.toNat.testBit 5, h := false, x := p.1.toNat.testBit 3, n := false,
        c := k.carry a }
    ok (Ops.rlca a f) .rlc ∧ ok (Ops.rrca a f) .rrc ∧ ok (Ops.rla a f) .rl ∧
    ok (Ops.rra a f) .rr := by
  intro ok
  refine ⟨?_, ?_, ?_, ?_⟩
  · show ok _ _; simp only [ok, rlca_eq, of_byte]; exact ⟨rfl, rfl⟩
  · show ok _ _; simp only [ok, rrca_eq, of_byte]; exact ⟨rfl, rfl⟩
  · show ok _ _; simp only [ok, rla_eq, of_byte]; exact ⟨rfl, rfl⟩
  · show ok _ _; simp only [ok, rra_eq, of_byte]; exact ⟨rfl, rfl⟩

/-- Apply a rotate to a byte and a carry. -/
def rotStep (op : U8 → U8 → U8 × U8) (p : U8 × Bool) : U8 × Bool :=
  let q := op p.1 (if p.2 then 1 else 0)
  (q.1, (Fl.of q.2).c)

theorem rot_inverse_table :
    all8 (fun v => all1 fun c =>
      (Ops.rrc (Ops.rlc v 0).1 0).1 == v && (Ops.rlc (Ops.rrc v 0).1 0).1 == v &&
      rotStep Ops.rr (rotStep Ops.rl (v, c)) == (v, c) &&
      rotStep Ops.rl (rotStep Ops.rr (v, c)) == (v, c) &&
      (Nat.repeat (fun x => (Ops.rlc x 0).1) 8 v == v) &&
      (Nat.repeat (fun x => (Ops.rrc x 0).1) 8 v == v) &&
      (Nat.repeat (rotStep Ops.rl) 9 (v, c) == (v, c)) &&
      (Nat.repeat (rotStep Ops.rr) 9 (v, c) == (v, c))) = true := by decide +kernel

/-- C07: RLC and RRC undo one another, RL and RR undo one another with the carry, eight RLC or
RRC and nine RL or RR are the identity. -/
theorem C07_inverses (v : U8) (c : Bool) (f g : U8) :
    (Ops.rrc (Ops.rlc v f).1 g).1 = v ∧ (Ops.rlc (Ops.rrc v f).1 g).1 = v ∧
    rotStep Ops.rr (rotStep Ops.rl (v, c)) = (v, c) ∧
    rotStep Ops.rl (rotStep Ops.rr (v, c)) = (v, c) ∧
    Nat.repeat (fun x => (Ops.rlc x f).1) 8 v = v ∧
    Nat.repeat (fun x => (Ops.rrc x f).1) 8 v = v ∧
    Nat.repeat (rotStep Ops.rl) 9 (v, c) = (v, c) ∧
    Nat.repeat (rotStep Ops.rr) 9 (v, c) = (v, c) := by
  have h := all1_spec (all8_spec rot_inverse_table v) c
  simp only [Bool.and_eq_true, beq_iff_eq] at h
  obtain ⟨⟨⟨⟨⟨⟨⟨h1, h2⟩, h3⟩, h4⟩, h5⟩, h6⟩, h7⟩, h8⟩ := h
  exact ⟨h1, h2, h3, h4, h5, h6, h7, h8⟩

example : Ops.rl 0x80 0x00 = (0x00, 0x45) := by decide +kernel
example : rotStep Ops.rl (0x80, true) = (0x01, true) := by decide +kernel

/-! ### C08 -/

/-- C08: `SET` and `RES` change exactly bit `b`. -/
theorem C08_set_res (b : Nat) (hb : b < 8) (v : U8) (i : Nat) (hi : i < 8) :
    (Ops.set b v).toNat.testBit i = (if i = b then true else v.toNat.testBit i) ∧
    (Ops.res b v).toNat.testBit i = (if i = b then false else v.toNat.testBit i) := by
  rw [set_eq, res_eq]
  have h1 := ofBits_bit (fun i => i == b || v.toNat.testBit i) i hi
  have h2 := ofBits_bit (fun i => i != b && v.toNat.testBit i) i hi
  rw [← BitVec.testBit_toNat] at h1 h2
  unfold set8 res8
  rw [h1, h2]
  by_cases h : i = b <;> simp [h]

/-- C08: `BIT b`: Z and P/V are the complement of the bit, H set, N clear, C kept, S only for
bit 7. The undocumented Y and X come from the operand for registers (`q = v`) and from the
high byte of MEMPTR or of the address for memory operands. -/
theorem C08_bit (b : Nat) (hb : b < 8) (v q f : U8) :
    Fl.of (Ops.bit b v f) = bit8 b v v (Fl.of f).c ∧
    Fl.of (Ops.bitMp b v q f) = bit8 b v q (Fl.of f).c := by
  rw [bit_eq b hb, bitMp_eq b hb, of_byte, of_byte]; exact ⟨rfl, rfl⟩

/-- C08: `RLD` and `RRD`. -/
theorem C08_rld_rrd (a m f : U8) :
    ((Ops.rld a m f).1 = (rld8 a m (Fl.of f).c).1 ∧
     (Ops.rld a m f).2.1 = (rld8 a m (Fl.of f).c).2.1 ∧
     Fl.of (Ops.rld a m f).2.2 = (rld8 a m (Fl.of f).c).2.2) ∧
    ((Ops.rrd a m f).1 = (rrd8 a m (Fl.of f).c).1 ∧
     (Ops.rrd a m f).2.1 = (rrd8 a m (Fl.of f).c).2.1 ∧
     Fl.of (Ops.rrd a m f).2.2 = (rrd8 a m (Fl.of f).c).2.2) := by
  rw [rld_eq, rrd_eq]
  exact ⟨⟨rfl, rfl, of_byte _⟩, ⟨rfl, rfl, of_byte _⟩⟩

/-- C08: `RLD` and `RRD` undo one another on the accumulator and the memory byte. -/
theorem C08_rld_rrd_inverse (a m f g : U8) :
    (let p := Ops.rld a m f; ((Ops.rrd p.1 p.2.1 g).1, (Ops.rrd p.1 p.2.1 g).2.1)) = (a, m) ∧
    (let p := Ops.rrd a m f; ((Ops.rld p.1 p.2.1 g).1, (Ops.rld p.1 p.2.1 g).2.1)) = (a, m) := by
  simp only [rld_eq, rrd_eq]
  unfold rld8 rrd8
  have := a.isLt
  have := m.isLt
  have n1 : ∀ x y : Nat, x < 16 → y < 16 → (BitVec.ofNat 8 (x * 16 + y)).toNat = x * 16 + y := by
    intro x y hx hy
    rw [BitVec.toNat_ofNat]
    exact Nat.mod_eq_of_lt (by omega)
  have e1 := n1 _ _ (div16_lt a) (div16_lt m)
  have e2 := n1 _ _ (mod16_lt m) (mod16_lt a)
  have e3 := n1 _ _ (div16_lt a) (mod16_lt m)
  have e4 := n1 _ _ (mod16_lt a) (div16_lt m)
  have s1 := swap_div (a.toNat / 16) _ (div16_lt m)
  have s2 := swap_div (m.toNat % 16) _ (mod16_lt a)
  have s3 := swap_div (a.toNat / 16) _ (mod16_lt m)
  have s4 := swap_div (a.toNat % 16) _ (div16_lt m)
  have d (x : U8) : BitVec.ofNat 8 (x.toNat / 16 * 16 + x.toNat % 16) = x := by
    rw [Nat.mul_comm, Nat.div_add_mod]; simp
  simp only [e1, e2, e3, e4, s1.1, s1.2, s2.1, s2.2, s3.1, s3.2, s4.1, s4.2, d, and_self]

example : Ops.rld 0x7A 0x31 0x00 = (0x73, 0x1A, 0x20) := by decide +kernel
example : Ops.set 3 0x00 = 0x08 ∧ Ops.res 7 0xFF = 0x7F := by decide

end Z80
