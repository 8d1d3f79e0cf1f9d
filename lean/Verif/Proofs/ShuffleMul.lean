import Verif.Proofs.RoutineMore

/-!
# The multiplication of the test program

`mul_seed` (`/repo/tests/shuffle/shuffle.bin` 573-644): the product of the words `seed` and `multiplicator`.
-/

set_option linter.unusedVariables false
set_option linter.unusedSimpArgs false

namespace Z80.Routine
open Spec Spec.Shuffle
variable {w : Nat} {O R I : Type} {o : Opt} {v : Env w O R I}

/-- Two words as a number. -/
def wide (x y : U16) : Nat := x.toNat * 65536 + y.toNat

theorem word_val (h l : U8) : (word h l).toNat = h.toNat * 256 + l.toNat := by
  simp only [word, BitVec.toNat_append]
  rw [← Nat.shiftLeft_add_eq_or_of_lt l.isLt, Nat.shiftLeft_eq]

theorem srl_val (x : U8) (c : Bool) : (Sh.srl.op x c).1.toNat = x.toNat / 2 := by
  simp only [Sh.op, Sh.val, BitVec.toNat_ofNat]
  have := x.isLt
  omega
theorem srl_c (x : U8) (c : Bool) : (Sh.srl.op x c).2.c = decide (x.toNat % 2 = 1) := rfl
theorem rr_val (x : U8) (c : Bool) : (Sh.rr.op x c).1.toNat = x.toNat / 2 + 128 * c.toNat := by
  simp only [Sh.op, Sh.val, BitVec.toNat_ofNat]
  have := x.isLt
  cases c <;> simp only [Bool.toNat_true, Bool.toNat_false] <;> omega
theorem rr_c (x : U8) (c : Bool) : (Sh.rr.op x c).2.c = decide (x.toNat % 2 = 1) := rfl

theorem decide_mod (n : Nat) : (decide (n % 2 = 1)).toNat = n % 2 := by
  rcases Nat.mod_two_eq_zero_or_one n with h | h <;> rw [h] <;> rfl

/-- What a piece of the multiplication leaves alone, and the multiplier shifted. -/
structure MulKept (c d : Core) : Prop where
  pc : d.pc = 0x269
  mem : d.mem = c.mem
  sp : d.sp = c.sp
  a' : d.a' = c.a'
  f' : d.f' = c.f'
  a : d.a = (add8 c.a c.a false).1
  f : d.f = (add8 c.a c.a false).2

/-- The multiplicand halved. -/
theorem mulShift {c : Core} (hm : Loaded c.mem) (hp : c.pc = 0x25F) :
    ∃ d : Core, Run o v c d ∧ MulKept c d ∧ wide (word d.h' d.l') (word d.h d.l) = wide (word c.h c.l) (word c.h' c.l') ∧
      wide (word d.b' d.c') (word d.b d.c) = wide (word c.b c.c) (word c.b' c.c') / 2 := by
  obtain ⟨a, f, b, c, d, e, h, l, a', f', b', c', d', e', h', l', sp, pc, m, t⟩ := c
  simp only at hm hp ⊢
  subst hp
  refine ⟨?_, ?_, ?_⟩
  rotate_left
  · exec srlB hm two
    exec rrC hm two
    exec exx hm
    exec rrB hm two
    exec rrC hm two
    exec addAA hm
    exact .refl _
  · refine ⟨⟨rfl, rfl, rfl, rfl, rfl, rfl, rfl⟩, rfl, ?_⟩
    simp only [wide, word_val, srl_val, srl_c, rr_val, rr_c, decide_mod]
    have := b.isLt; have := c.isLt; have := b'.isLt; have := c'.isLt
    omega

/-- The multiplicand added. -/
theorem mulAdd {c : Core} (hm : Loaded c.mem) (hp : c.pc = 0x26D) :
    ∃ d : Core, Run o v c d ∧ MulKept c d ∧
      wide (word d.h' d.l') (word d.h d.l) =
        (wide (word c.h' c.l') (word c.h c.l) + wide (word c.b' c.c') (word c.b c.c)) % 4294967296 ∧
      wide (word d.b' d.c') (word d.b d.c) = wide (word c.b' c.c') (word c.b c.c) / 2 := by
  have r : ∃ d : Core, Run o v c d ∧ d.pc = 0x25F ∧ d.mem = c.mem ∧ d.sp = c.sp ∧ d.a' = c.a' ∧ d.f' = c.f' ∧
      d.a = c.a ∧
      wide (word d.h d.l) (word d.h' d.l') =
        (wide (word c.h' c.l') (word c.h c.l) + wide (word c.b' c.c') (word c.b c.c)) % 4294967296 ∧
      wide (word d.b d.c) (word d.b' d.c') = wide (word c.b' c.c') (word c.b c.c) := by
    obtain ⟨a, f, b, c, d, e, h, l, a', f', b', c', d', e', h', l', sp, pc, m, t⟩ := c
    simp only at hm hp ⊢
    subst hp
    refine ⟨?_, ?_, ?_⟩
    rotate_left
    · exec addHlBc hm
      exec exx hm
      exec adcHlBc hm two
      exec jr hm goto 0x25F rel 0xEC
      exact .refl _
    · refine ⟨rfl, rfl, rfl, rfl, rfl, rfl, ?_, rfl⟩
      simp only [wide, word_hi8_lo8, add16, adc16, BitVec.toNat_ofNat]
      have h1 := (word h l).isLt; have h2 := (word h' l').isLt
      have h3 := (word b c).isLt; have h4 := (word b' c').isLt
      generalize (word h l).toNat = x at *; generalize (word h' l').toNat = y at *
      generalize (word b c).toNat = z at *; generalize (word b' c').toNat = u at *
      by_cases hc : 65536 ≤ x + z
      · simp only [hc, decide_true, Bool.toNat_true]; omega
      · simp only [hc, decide_false, Bool.toNat_false]; omega
  obtain ⟨d, r, d1, d2, d3, d4, d5, d6, d7, d8⟩ := r
  obtain ⟨g, r2, k, g1, g2⟩ := mulShift (o := o) (v := v) (c := d) (d2 ▸ hm) d1
  refine ⟨g, r.trans r2, ⟨k.pc, k.mem.trans d2, k.sp.trans d3, k.a'.trans d4, k.f'.trans d5, ?_, ?_⟩, g1.trans d7, ?_⟩
  · rw [k.a, d6]
  · rw [k.f, d6]
  · rw [g2, d8]

/-- The multiplicand not added. -/
theorem mulSkip {c : Core} (hm : Loaded c.mem) (hp : c.pc = 0x25E) :
    ∃ d : Core, Run o v c d ∧ MulKept c d ∧
      wide (word d.h' d.l') (word d.h d.l) = wide (word c.h' c.l') (word c.h c.l) ∧
      wide (word d.b' d.c') (word d.b d.c) = wide (word c.b' c.c') (word c.b c.c) / 2 := by
  obtain ⟨d, r, d1, d2, d3, d4, d5, d6, d7, d8⟩ : ∃ d : Core, Run o v c d ∧ d.pc = 0x25F ∧ d.mem = c.mem ∧
      d.sp = c.sp ∧ d.a' = c.a' ∧ d.f' = c.f' ∧ d.a = c.a ∧
      wide (word d.h d.l) (word d.h' d.l') = wide (word c.h' c.l') (word c.h c.l) ∧
      wide (word d.b d.c) (word d.b' d.c') = wide (word c.b' c.c') (word c.b c.c) := by
    obtain ⟨a, f, b, c, d, e, h, l, a', f', b', c', d', e', h', l', sp, pc, m, t⟩ := c
    simp only at hm hp ⊢
    subst hp
    refine ⟨?_, ?_, ?_⟩
    rotate_left
    · exec exx hm
      exact .refl _
    · exact ⟨rfl, rfl, rfl, rfl, rfl, rfl, rfl, rfl⟩
  obtain ⟨g, r2, k, g1, g2⟩ := mulShift (o := o) (v := v) (c := d) (d2 ▸ hm) d1
  refine ⟨g, r.trans r2, ⟨k.pc, k.mem.trans d2, k.sp.trans d3, k.a'.trans d4, k.f'.trans d5, ?_, ?_⟩, g1.trans d7, ?_⟩
  · rw [k.a, d6]
  · rw [k.f, d6]
  · rw [g2, d8]

/-- One bit of the multiplier, in the carry. -/
theorem mulBit {c : Core} (hm : Loaded c.mem) (hp : c.pc = 0x26B) :
    ∃ d : Core, Run o v c d ∧ MulKept c d ∧
      wide (word d.h' d.l') (word d.h d.l) =
        (wide (word c.h' c.l') (word c.h c.l) + c.f.c.toNat * wide (word c.b' c.c') (word c.b c.c)) % 4294967296 ∧
      wide (word d.b' d.c') (word d.b d.c) = wide (word c.b' c.c') (word c.b c.c) / 2 := by
  have hlt : wide (word c.h' c.l') (word c.h c.l) < 4294967296 := by
    have h1 := (word c.h c.l).isLt; have h2 := (word c.h' c.l').isLt
    unfold wide
    omega
  by_cases hc : c.f.c = true
  · have h := jrNcNot (o := o) (v := v) c (by rw [hp]; exact opc hm) (by rw [hc]; decide)
    rw [hp] at h
    obtain ⟨d, r, k, h1, h2⟩ := mulAdd (o := o) (v := v) (c := { c with pc := 0x26D, t := c.t + 7 }) hm rfl
    refine ⟨d, .step h r, ⟨k.pc, k.mem, k.sp, k.a', k.f', k.a, k.f⟩, ?_, h2⟩
    rw [h1, hc, Bool.toNat_true, Nat.one_mul]
  · have hc' : c.f.c = false := by simpa using hc
    have h := jrNc (o := o) (v := v) c 0x25E 0xF1 (by rw [hp]; exact opc hm) (by rw [hp]; exact opc hm)
      (by rw [hp]; decide +kernel) (by rw [hc']; rfl)
    obtain ⟨d, r, k, h1, h2⟩ := mulSkip (o := o) (v := v) (c := { c with pc := 0x25E, t := c.t + 12 }) hm rfl
    refine ⟨d, .step h r, ⟨k.pc, k.mem, k.sp, k.a', k.f', k.a, k.f⟩, ?_, h2⟩
    rw [hc', Bool.toNat_false, Nat.zero_mul, Nat.add_zero, Nat.mod_eq_of_lt hlt]
    exact h1

/-- The first bit of the multiplier, in the carry. -/
theorem mulFirst {c : Core} (hm : Loaded c.mem) (hp : c.pc = 0x25C) :
    ∃ d : Core, Run o v c d ∧ MulKept c d ∧
      wide (word d.h' d.l') (word d.h d.l) =
        (wide (word c.h' c.l') (word c.h c.l) + c.f.c.toNat * wide (word c.b' c.c') (word c.b c.c)) % 4294967296 ∧
      wide (word d.b' d.c') (word d.b d.c) = wide (word c.b' c.c') (word c.b c.c) / 2 := by
  have hlt : wide (word c.h' c.l') (word c.h c.l) < 4294967296 := by
    have h1 := (word c.h c.l).isLt; have h2 := (word c.h' c.l').isLt
    unfold wide
    omega
  by_cases hc : c.f.c = true
  · have h := jrC (o := o) (v := v) c 0x26D 0x0F (by rw [hp]; exact opc hm) (by rw [hp]; exact opc hm)
      (by rw [hp]; decide +kernel) hc
    obtain ⟨d, r, k, h1, h2⟩ := mulAdd (o := o) (v := v) (c := { c with pc := 0x26D, t := c.t + 12 }) hm rfl
    refine ⟨d, .step h r, ⟨k.pc, k.mem, k.sp, k.a', k.f', k.a, k.f⟩, ?_, h2⟩
    rw [h1, hc, Bool.toNat_true, Nat.one_mul]
  · have hc' : c.f.c = false := by simpa using hc
    have h := jrCNot (o := o) (v := v) c (by rw [hp]; exact opc hm) hc
    rw [hp] at h
    obtain ⟨d, r, k, h1, h2⟩ := mulSkip (o := o) (v := v) (c := { c with pc := 0x25E, t := c.t + 7 }) hm rfl
    refine ⟨d, .step h r, ⟨k.pc, k.mem, k.sp, k.a', k.f', k.a, k.f⟩, ?_, h2⟩
    rw [hc', Bool.toNat_false, Nat.zero_mul, Nat.add_zero, Nat.mod_eq_of_lt hlt]
    exact h1

theorem bits_left (n r a : Nat) (hn : n + 1 ≤ 7) (hr : r < 2 ^ (n + 1)) (ha : a = (2 * r + 1) * 2 ^ (7 - (n + 1))) :
    (decide (256 ≤ a + a + 0)).toNat = r / 2 ^ n ∧ (a + a + 0) % 256 = (2 * (r % 2 ^ n) + 1) * 2 ^ (7 - n) ∧
      (a + a + 0) % 256 ≠ 0 := by
  have h : n = 0 ∨ n = 1 ∨ n = 2 ∨ n = 3 ∨ n = 4 ∨ n = 5 ∨ n = 6 := by omega
  by_cases hc : 256 ≤ a + a + 0
  · rcases h with rfl | rfl | rfl | rfl | rfl | rfl | rfl <;>
      simp only [Nat.reducePow, Nat.reduceAdd, Nat.reduceSub] at * <;>
      simp only [hc, decide_true, Bool.toNat_true] <;> omega
  · rcases h with rfl | rfl | rfl | rfl | rfl | rfl | rfl <;>
      simp only [Nat.reducePow, Nat.reduceAdd, Nat.reduceSub] at * <;>
      simp only [hc, decide_false, Bool.toNat_false] <;> omega

theorem add8_val (a b : U8) (c : Bool) : (add8 a b c).1.toNat = (a.toNat + b.toNat + c.toNat) % 256 := by
  simp only [add8, BitVec.toNat_ofNat]
theorem add8_z (a b : U8) (c : Bool) : (add8 a b c).2.z = decide ((a.toNat + b.toNat + c.toNat) % 256 = 0) := by
  rw [← add8_val]
  rfl
theorem add8_c (a b : U8) (c : Bool) : (add8 a b c).2.c = decide (256 ≤ a.toNat + b.toNat + c.toNat) := rfl

/-- The remaining bits of a byte of the multiplier. -/
theorem mulAfter (n : Nat) : ∀ {c : Core} {a : U8} {r k s : Nat}, Loaded c.mem → c.pc = 0x269 → n ≤ 7 → r < 2 ^ n →
    a.toNat = (2 * r + 1) * 2 ^ (7 - n) → c.a = (add8 a a false).1 → c.f = (add8 a a false).2 →
    wide (word c.b' c.c') (word c.b c.c) = s * 2 ^ (k + n) / 2 →
    ∃ d : Core, Run o v c d ∧ d.pc = 0x273 ∧ d.mem = c.mem ∧ d.sp = c.sp ∧ d.a' = c.a' ∧ d.f' = c.f' ∧ d.f.z = true ∧
      wide (word d.h' d.l') (word d.h d.l) =
        (wide (word c.h' c.l') (word c.h c.l) + r * (s * 2 ^ k)) % 4294967296 ∧
      wide (word d.b' d.c') (word d.b d.c) = s * 2 ^ k / 2 := by
  induction n with
  | zero =>
    intro c a r k s hm hp hn hr ha hca hcf hP
    have hr0 : r = 0 := by simpa using hr
    subst hr0
    have hz : c.f.z = true := by
      rw [hcf, add8_z, ha]
      rfl
    have hlt : wide (word c.h' c.l') (word c.h c.l) < 4294967296 := by
      have h1 := (word c.h c.l).isLt; have h2 := (word c.h' c.l').isLt
      unfold wide
      omega
    refine ⟨{ c with pc := 0x273, t := c.t + 12 }, .step (jrZ c 0x273 0x08 (by rw [hp]; exact opc hm)
      (by rw [hp]; exact opc hm) (by rw [hp]; decide +kernel) hz) (.refl _), rfl, rfl, rfl, rfl, rfl, hz, ?_, hP⟩
    show wide (word c.h' c.l') (word c.h c.l) = _
    generalize wide (word c.h' c.l') (word c.h c.l) = q at *
    rw [Nat.zero_mul, Nat.add_zero, Nat.mod_eq_of_lt hlt]
  | succ n ih =>
    intro c a r k s hm hp hn hr ha hca hcf hP
    obtain ⟨l1, l2, l3⟩ := bits_left n r a.toNat hn hr ha
    have hz : ¬ c.f.z = true := by
      rw [hcf, add8_z]
      simpa using l3
    have hj := jrZNot (o := o) (v := v) c (by rw [hp]; exact opc hm) hz
    rw [hp] at hj
    obtain ⟨d, r1, kd, d1, d2⟩ := mulBit (o := o) (v := v) (c := { c with pc := 0x26B, t := c.t + 7 }) hm rfl
    have hP2 : s * 2 ^ (k + (n + 1)) / 2 = s * 2 ^ (k + n) := by
      rw [← Nat.add_assoc, Nat.pow_succ, ← Nat.mul_assoc, Nat.mul_div_cancel _ (by decide)]
    obtain ⟨g, r2, g1, g2, g3, g4, g5, g6, g7, g8⟩ := ih (c := d) (a := c.a) (r := r % 2 ^ n) (k := k) (s := s)
      (by rw [kd.mem]; exact hm) kd.pc (by omega) (Nat.mod_lt _ (Nat.two_pow_pos n))
      (by rw [hca, add8_val]; exact l2) kd.a kd.f (by
        refine d2.trans ?_
        show wide (word c.b' c.c') (word c.b c.c) / 2 = _
        rw [hP, hP2])
    refine ⟨g, .step hj (r1.trans r2), g1, g2.trans kd.mem, g3.trans kd.sp, g4.trans kd.a', g5.trans kd.f', g6, ?_, g8⟩
    rw [g7, d1]
    show ((wide (word c.h' c.l') (word c.h c.l) + c.f.c.toNat * wide (word c.b' c.c') (word c.b c.c)) % 4294967296 +
      r % 2 ^ n * (s * 2 ^ k)) % 4294967296 = _
    rw [Nat.mod_add_mod, hP, hP2, hcf, add8_c, show (false).toNat = 0 from rfl, l1, Nat.add_assoc]
    congr 2
    rw [Nat.pow_add, ← Nat.mul_assoc s, Nat.mul_comm (s * 2 ^ k), ← Nat.mul_assoc (r / 2 ^ n), ← Nat.add_mul]
    congr 1
    rw [Nat.mul_comm]
    exact Nat.div_add_mod r (2 ^ n)

theorem four_sum (a b c d t : Nat) (h : a + b + c + d = t) (ht : t < 4294967296) :
    ((((0 + a) % 4294967296 + b) % 4294967296 + c) % 4294967296 + d) % 4294967296 = t := by
  omega

theorem mul_total (s x y : Nat) (hs : s < 65536) (hx : x < 256) (hy : y < 256) :
    ((((0 + x / 128 * (s * 2 ^ (8 + 7))) % 4294967296 + x % 128 * (s * 2 ^ 8)) % 4294967296 +
      y / 128 * (s * 2 ^ 8 / 2)) % 4294967296 + y % 128 * (s * 2 ^ 0)) % 4294967296 = s * (x * 256 + y) := by
  have e1 : x / 128 * (s * 2 ^ (8 + 7)) = s * (x / 128 * 32768) := by
    simp only [Nat.reduceAdd, Nat.reducePow, Nat.mul_comm, Nat.mul_left_comm, Nat.mul_assoc]
  have e2 : x % 128 * (s * 2 ^ 8) = s * (x % 128 * 256) := by
    simp only [Nat.reducePow, Nat.mul_comm, Nat.mul_left_comm, Nat.mul_assoc]
  have e3 : y / 128 * (s * 2 ^ 8 / 2) = s * (y / 128 * 128) := by
    rw [show s * 2 ^ 8 / 2 = s * 128 by omega]
    simp only [Nat.mul_comm, Nat.mul_left_comm, Nat.mul_assoc]
  have e4 : y % 128 * (s * 2 ^ 0) = s * (y % 128) := by
    simp only [Nat.reducePow, Nat.mul_one, Nat.mul_comm]
  have e5 : s * (x / 128 * 32768) + s * (x % 128 * 256) + s * (y / 128 * 128) + s * (y % 128) = s * (x * 256 + y) := by
    rw [← Nat.mul_add, ← Nat.mul_add, ← Nat.mul_add]
    exact congrArg (s * ·) (by omega)
  have h1 : s * (x * 256 + y) ≤ 65535 * 65535 := Nat.mul_le_mul (by omega) (by omega)
  rw [e1, e2, e3, e4]
  exact four_sum _ _ _ _ _ e5 (Nat.lt_of_le_of_lt h1 (by decide))

/-- `mul_seed` up to the printing of the result. -/
theorem multiply {c : Core} (hm : Loaded c.mem) (hp : c.pc = 0x23D) :
    ∃ d : Core, Run o v c d ∧ d.pc = 0x283 ∧ d.sp = c.sp ∧ d.c = 4 ∧ word d.d d.e = 712 ∧ ∃ x y : U16,
      d.mem = put (put (put (put c.mem 714 (lo8 x)) 715 (hi8 x)) 712 (lo8 y)) 713 (hi8 y) ∧
      wide x y = (word (c.mem 713) (c.mem 712)).toNat * (word (c.mem 715) (c.mem 714)).toNat := by
  generalize hs : word (c.mem 713) (c.mem 712) = s
  generalize hk : word (c.mem 715) (c.mem 714) = k
  -- the start
  obtain ⟨d1, r1, p1, m1, s1, a1, f1, a1', f1', x1, q1⟩ : ∃ d : Core, Run o v c d ∧ d.pc = 0x25C ∧ d.mem = c.mem ∧
      d.sp = c.sp ∧ d.a = (add8 (hi8 k) (hi8 k) true).1 ∧ d.f = (add8 (hi8 k) (hi8 k) true).2 ∧
      d.a' = (add8 (lo8 k) (lo8 k) true).1 ∧ d.f' = (add8 (lo8 k) (lo8 k) true).2 ∧
      wide (word d.h' d.l') (word d.h d.l) = 0 ∧ wide (word d.b' d.c') (word d.b d.c) = s.toNat * 2 ^ (8 + 7) := by
    obtain ⟨a, f, b, c, d, e, h, l, a', f', b', c', d', e', h', l', sp, pc, m, t⟩ := c
    simp only at hm hp hs hk ⊢
    subst hp
    refine ⟨?_, ?_, ?_⟩
    rotate_left
    · exec ldHlMem hm arg16 0x2C8
      exec ldBcMem hm two arg16 0x2CA
      exec ldAC hm
      execs scfAdcAA hm
      exec exAf hm
      exec ldAB hm
      exec ldBH hm
      exec ldCL hm
      exec ldHlNN hm arg16 0
      exec srlB hm two
      exec rrC hm two
      exec exx hm
      exec ldHlNN hm arg16 0
      exec ldBH hm
      exec ldCL hm
      exec rrB hm two
      execs scfAdcAA hm
      exact .refl _
    · dsimp only
      refine ⟨rfl, rfl, rfl, ?_, ?_, ?_, ?_, rfl, ?_⟩
      · rw [← hk, hi8_word]; rfl
      · rw [← hk, hi8_word]; rfl
      · rw [← hk, lo8_word]
      · rw [← hk, lo8_word]
      · have z1 : (hi8 (0 : U16)).toNat = 0 := rfl
        have z2 : (lo8 (0 : U16)).toNat = 0 := rfl
        simp only [wide, word_val, srl_val, srl_c, rr_val, rr_c, decide_mod, z1, z2]
        rw [← hs, word_val]
        have h1 := (m 713).isLt; have h2 := (m 712).isLt
        show _ = _ * 32768
        change (_ / 2 * 256 + _) * 65536 + _ = _ at *
        generalize (m 713).toNat = x at *
        generalize (m 712).toNat = y at *
        omega
  have hm1 : Loaded d1.mem := m1 ▸ hm
  have hk2 : k.toNat = (hi8 k).toNat * 256 + (lo8 k).toNat := by rw [← word_val, word_hi8_lo8]
  have hh := (hi8 k).isLt
  have hl := (lo8 k).isLt
  generalize (hi8 k) = kh at *
  generalize (lo8 k) = kl at *
  -- the high byte
  obtain ⟨d2, r2, k2, x2, q2⟩ := mulFirst (o := o) (v := v) hm1 p1
  have m2 : d2.mem = c.mem := k2.mem.trans m1
  obtain ⟨d3, r3, p3, m3, s3, a3', f3', z3, x3, q3⟩ := mulAfter (o := o) (v := v) 7 (c := d2) (a := d1.a)
    (r := kh.toNat % 128) (k := 8) (s := s.toNat) (m2 ▸ hm) k2.pc (by decide) (Nat.mod_lt _ (by decide))
    (by rw [a1, add8_val, Bool.toNat_true]; omega) k2.a k2.f (by rw [q2, q1])
  -- the low byte
  have hm3 : Loaded d3.mem := by rw [m3, m2]; exact hm
  obtain ⟨d4, r4, p4, m4, s4, a4, f4, f4', x4, q4⟩ : ∃ d : Core, Run o v d3 d ∧ d.pc = 0x26B ∧ d.mem = d3.mem ∧
      d.sp = d3.sp ∧ d.a = d3.a' ∧ d.f = d3.f' ∧ d.f' = d3.f ∧
      wide (word d.h' d.l') (word d.h d.l) = wide (word d3.h' d3.l') (word d3.h d3.l) ∧
      wide (word d.b' d.c') (word d.b d.c) = wide (word d3.b' d3.c') (word d3.b d3.c) := by
    have hz : d3.f'.z = false := by
      rw [f3', k2.f', f1', add8_z, Bool.toNat_true]
      exact decide_eq_false (by omega)
    clear x3 q3 a3' f3' s3 m3
    obtain ⟨a, f, b, c, d, e, h, l, a', f', b', c', d', e', h', l', sp, pc, m, t⟩ := d3
    simp only at hm3 p3 hz ⊢
    subst p3
    refine ⟨?_, ?_, ?_⟩
    rotate_left
    · exec exAf hm3
      exec jrNz hm3 goto 0x26B rel 0xF5 if (by dsimp only; rw [hz]; rfl)
      exact .refl _
    · exact ⟨rfl, rfl, rfl, rfl, rfl, rfl, rfl, rfl⟩
  have hm4 : Loaded d4.mem := m4 ▸ hm3
  obtain ⟨d5, r5, k5, x5, q5⟩ := mulBit (o := o) (v := v) hm4 p4
  obtain ⟨d6, r6, p6, m6, s6, a6', f6', z6, x6, q6⟩ := mulAfter (o := o) (v := v) 7 (c := d5) (a := d4.a)
    (r := kl.toNat % 128) (k := 0) (s := s.toNat) (by rw [k5.mem]; exact hm4) k5.pc (by decide)
    (Nat.mod_lt _ (by decide)) (by rw [a4, a3', k2.a', a1', add8_val, Bool.toNat_true]; omega) k5.a k5.f
    (by rw [q5, q4, q3]; congr 1; rw [Nat.zero_add]; omega)
  have m6' : d6.mem = c.mem := by rw [m6, k5.mem, m4, m3, m2]
  have s6' : d6.sp = c.sp := by rw [s6, k5.sp, s4, s3, k2.sp, s1]
  have fz : d6.f'.z = true := by rw [f6', k5.f', f4']; exact z3
  have total : wide (word d6.h' d6.l') (word d6.h d6.l) = s.toNat * k.toNat := by
    rw [x6, x5, x4, x3, x2, x1, q4, q3, q1, f4, f3', k2.f', f1', f1, add8_c, add8_c, hk2]
    have hb : ∀ n, n < 256 → (decide (256 ≤ n + n + Bool.toNat true)).toNat = n / 128 := by decide +kernel
    rw [hb _ hh, hb _ hl]
    exact mul_total _ _ _ s.isLt hh hl
  -- the result
  have hm6 : Loaded d6.mem := m6' ▸ hm
  obtain ⟨d7, r7, e⟩ : ∃ d : Core, Run o v d6 d ∧ d.pc = 0x283 ∧ d.sp = d6.sp ∧ d.c = 4 ∧ word d.d d.e = 712 ∧
      d.mem = put (put (put (put d6.mem 714 (lo8 (word d6.h' d6.l'))) 715 (hi8 (word d6.h' d6.l'))) 712
        (lo8 (word d6.h d6.l))) 713 (hi8 (word d6.h d6.l)) := by
    clear x6 q6 a6' f6' s6 m6 m6' s6' total
    obtain ⟨a, f, b, c, d, e, h, l, a', f', b', c', d', e', h', l', sp, pc, m, t⟩ := d6
    simp only at hm6 p6 fz ⊢
    subst p6
    refine ⟨?_, ?_, ?_⟩
    rotate_left
    · exec exAf hm6
      exec jrNzNot hm6 if (by dsimp only; rw [fz]; decide)
      exec exx hm6
      exec ldMemHl hm6 arg16 0x2CA
      have hm7 := loaded_put (loaded_put hm6 (a := 714) l' (by decide)) (a := 715) h' (by decide)
      exec exx hm7
      exec ldMemHl hm7 arg16 0x2C8
      have hm8 := loaded_put (loaded_put hm7 (a := 712) l (by decide)) (a := 713) h (by decide)
      exec ldDeNN hm8 arg16 0x2C8
      exec ldCN hm8 arg8 4
      exact .refl _
    · refine ⟨rfl, rfl, rfl, ?_, ?_⟩
      · dsimp only; decide
      · simp only [lo8_word, hi8_word]
        rfl
  obtain ⟨e1, e2, e3, e4, e5⟩ := e
  refine ⟨d7, r1.trans (r2.trans (r3.trans (r4.trans (r5.trans (r6.trans r7))))), e1, e2.trans s6', e3, e4,
    word d6.h' d6.l', word d6.h d6.l, ?_, total⟩
  rw [e5, m6']

end Z80.Routine
