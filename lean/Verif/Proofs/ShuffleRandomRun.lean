import Verif.Proofs.ShuffleRandom
import Verif.Spec.Shuffled

/-!
# The random number generator of the test program: the whole routine

`/repo/tests/shuffle/shuffle.bin` 168-254 on the specified machine.
-/

set_option linter.unusedVariables false

namespace Z80.Routine
open Spec Spec.Shuffle
variable {w : Nat} {O R I : Type} {o : Opt} {v : Env w O R I}

/-- The division at its loop: `k` bits are left, `q` is the quotient so far. -/
structure Dividing (N k : Nat) (q R low a : Nat) : Prop where
  num : N = (65537 * q + R) * 2 ^ k + low
  quot : 1 ≤ q
  rest : low < 2 ^ k
  bits : a * 2 ^ k = low * 256

theorem upto7 {k : Nat} (h : k ≤ 7) : k = 0 ∨ k = 1 ∨ k = 2 ∨ k = 3 ∨ k = 4 ∨ k = 5 ∨ k = 6 ∨ k = 7 := by omega

/-- The next bit is brought down. -/
theorem Dividing.next {N k q R low a : Nat} (hk : k ≤ 6) (h : Dividing N (k + 1) q R low a) :
    ∃ low', Dividing N k (2 * q) (2 * R + a / 128) low' (2 * a % 256) := by
  obtain ⟨h1, h2, h3, h4⟩ := h
  have e : k = 0 ∨ k = 1 ∨ k = 2 ∨ k = 3 ∨ k = 4 ∨ k = 5 ∨ k = 6 := by omega
  rcases e with e | e | e | e | e | e | e <;> subst e <;>
    simp only [Nat.zero_add, Nat.reduceAdd, Nat.reducePow] at h1 h3 h4
  · exact ⟨0, by simp only [Nat.reducePow]; omega, by omega, by decide, by simp only [Nat.reducePow]; omega⟩
  · exact ⟨low % 2, by simp only [Nat.reducePow]; omega, by omega, by simp only [Nat.reducePow]; omega, by simp only [Nat.reducePow]; omega⟩
  · exact ⟨low % 4, by simp only [Nat.reducePow]; omega, by omega, by simp only [Nat.reducePow]; omega, by simp only [Nat.reducePow]; omega⟩
  · exact ⟨low % 8, by simp only [Nat.reducePow]; omega, by omega, by simp only [Nat.reducePow]; omega, by simp only [Nat.reducePow]; omega⟩
  · exact ⟨low % 16, by simp only [Nat.reducePow]; omega, by omega, by simp only [Nat.reducePow]; omega, by simp only [Nat.reducePow]; omega⟩
  · exact ⟨low % 32, by simp only [Nat.reducePow]; omega, by omega, by simp only [Nat.reducePow]; omega, by simp only [Nat.reducePow]; omega⟩
  · exact ⟨low % 64, by simp only [Nat.reducePow]; omega, by omega, by simp only [Nat.reducePow]; omega, by simp only [Nat.reducePow]; omega⟩

/-- 65537 is taken off. -/
theorem Dividing.less {N k q R low a : Nat} (h : Dividing N k q (R + 65537) low a) : Dividing N k (q + 1) R low a := by
  obtain ⟨h1, h2, h3, h4⟩ := h
  exact ⟨by rw [h1]; congr 2; omega, by omega, h3, h4⟩

theorem Dividing.end {N q R low a : Nat} (h : Dividing N 0 q R low a) (hR : R < 65537) : N % 65537 = R := by
  obtain ⟨h1, h2, h3, h4⟩ := h
  simp only [Nat.pow_zero] at h1 h3
  omega

/-- After a remainder of 65536 there is no bit that is set. -/
theorem Dividing.quiet {N k q low a : Nat} (hk : k ≤ 5) (h : Dividing N (k + 1) q 65536 low a) (h75 : N % 75 = 0)
    (hN : N < 4915200) : a / 128 = 0 := by
  obtain ⟨h1, h2, h3, h4⟩ := h
  have hl : low < 64 := Nat.lt_of_lt_of_le h3 (Nat.pow_le_pow_right (n := 2) (by decide) (i := k + 1) (j := 6) (by omega))
  have hq : q < 75 := by
    have : 1 ≤ 2 ^ (k + 1) := Nat.one_le_two_pow
    have := Nat.le_mul_of_pos_right (65537 * q + 65536) this
    omega
  have n := never_one (k + 1) (by omega) q hq low hl
  rw [← h1] at n
  have : ¬ (2 ^ (k + 1) ≤ 2 * low) := fun g => n ⟨h2, g, h3, h75, hN⟩
  by_cases z : a / 128 = 0
  · exact z
  · exfalso
    have := Nat.mul_le_mul_right (2 ^ (k + 1)) (show 128 ≤ a by omega)
    omega

/-- What the division leaves: 0xFA is reached with the remainder, less one. -/
def Divided (o : Opt) (v : Env w O R I) (N : Nat) (c : Core) : Prop :=
  ∃ d : Core, Run o v c d ∧ d.pc = 0xFA ∧ d.mem = c.mem ∧ d.sp = c.sp ∧ d.hl.toNat + 1 = N % 65537

theorem Divided.after {N : Nat} {c d : Core} (r : Run o v c d) (hm : d.mem = c.mem) (hs : d.sp = c.sp)
    (h : Divided o v N d) : Divided o v N c := by
  obtain ⟨e, r2, p, m, s, g⟩ := h
  exact ⟨e, r.trans r2, p, m.trans hm, s.trans hs, g⟩

theorem rndLoop {N : Nat} (h75 : N % 75 = 0) (hN : N < 4915200) (h0 : N % 65537 ≠ 0) : ∀ (k q low : Nat) (c : Core),
    1 ≤ k → k ≤ 7 → Loaded c.mem → c.pc = 0xEF → c.de = 0xFFFF → c.b.toNat = k →
    Dividing N k q c.hl.toNat low c.a.toNat → Divided o v N c := by
  intro k
  induction k using Nat.strongRecOn with
  | _ k ih =>
  intro q low c h1 h7 hm hp hd hb h
  obtain ⟨k, rfl⟩ : ∃ j, k = j + 1 := ⟨k - 1, by omega⟩
  obtain ⟨low', h⟩ := h.next (by omega)
  -- the end of a round
  have fin : ∀ (j q low : Nat) (d : Core), j ≤ k → Loaded d.mem → d.pc = 0xF7 → d.de = 0xFFFF → d.b.toNat = j + 1 →
      Dividing N j q d.hl.toNat low d.a.toNat → Divided o v N d := by
    intro j q low d hj hm hp hd hb h
    obtain ⟨e, r, m1, s1, g⟩ := rndNext (o := o) (v := v) hm hp (by omega)
    refine Divided.after r m1 s1 ?_
    rcases g with ⟨g1, g2, g3⟩ | ⟨g1, g2, g3, g4, g5, g6⟩
    · have hj0 : j = 0 := by omega
      subst hj0
      have z := h.end (by have := d.hl.isLt; omega)
      refine ⟨e, .refl _, g2, rfl, rfl, ?_⟩
      rw [g3, dec_nat (by omega)]
      omega
    · exact ih j (by omega) q low e (by omega) (by omega) (m1 ▸ hm) g2 (g6.trans hd) (by omega) (by rw [g4, g5]; exact h)
  obtain ⟨d, r, m1, s1, d1, b1, a1, g⟩ := rndRound (o := o) (v := v) hm hp hd
  refine Divided.after r m1 s1 ?_
  rw [← a1] at h
  rcases g with ⟨g1, g2, g3⟩ | ⟨g1, g2, g3⟩ | ⟨g1, g2, g3⟩
  · exact fin k _ _ d (Nat.le_refl _) (m1 ▸ hm) g2 (d1.trans hd) (by rw [b1]; exact hb) (by rw [g3]; exact h)
  · rw [← g3] at h
    exact fin k _ _ d (Nat.le_refl _) (m1 ▸ hm) g2 (d1.trans hd) (by rw [b1]; exact hb) h.less
  · rw [g1] at h
    obtain ⟨e, r2, m2, s2, d2, l2, u⟩ := rndSpecial (o := o) (v := v) (m1 ▸ hm) g2 (by rw [b1]; omega)
    refine Divided.after r2 m2 s2 ?_
    rw [b1, hb] at u
    rcases u with ⟨u1, u2⟩ | ⟨u1, u2, u3, u4⟩
    · have hk0 : k = 0 := by omega
      subst hk0
      exact ⟨e, .refl _, u2, rfl, rfl, by rw [l2, g3, h.end (by decide)]⟩
    · obtain ⟨k, rfl⟩ : ∃ j, k = j + 1 := ⟨k - 1, by omega⟩
      have z := h.quiet (by omega) h75 hN
      obtain ⟨low2, h⟩ := h.next (by omega)
      rw [z, ← u4] at h
      have h : Dividing N k (2 * (2 * q) + 1) 65535 low2 e.a.toNat := Dividing.less h
      exact fin k _ _ e (by omega) (m2 ▸ m1 ▸ hm) u2 (d2.trans (d1.trans hd)) (by omega) (by rw [l2, g3]; exact h)

/-- The division. -/
theorem rndDiv {c : Core} (hm : Loaded c.mem) (hp : c.pc = 0xDB) {x : Nat} (hx : x < 65536) (hx0 : 1 ≤ x)
    (hv : big c.a c.hl = 75 * x) (hz : c.f.z = decide (c.a.toNat = 0)) : Divided o v (75 * x) c := by
  have hl := c.hl.isLt
  have h0 : 75 * x % 65537 ≠ 0 := by omega
  by_cases ha : c.a.toNat = 0
  · have e : c.hl.toNat = 75 * x := by unfold big at hv; omega
    obtain ⟨d, r, d1, d2, d3, d4⟩ : ∃ d : Core, Run o v c d ∧ d.pc = 0xFA ∧ d.mem = c.mem ∧ d.sp = c.sp ∧ d.hl = c.hl - 1 := by
      rw [decide_eq_true ha] at hz
      obtain ⟨a, f, b, c, d, e, h, l, a', f', b', c', d', e', h', l', sp, pc, m, t⟩ := c
      simp only at hm hp hz ⊢
      subst hp
      refine ⟨?_, ?_, ?_⟩
      rotate_left
      · exec jrZ hm goto 0xF9 rel 0x1C if hz
        exec decHl hm
        exact .refl _
      · exact ⟨rfl, rfl, rfl, word_hi8_lo8 _⟩
    refine ⟨d, r, d1, d2, d3, ?_⟩
    rw [d4, dec_nat (by omega), e]
    omega
  · obtain ⟨c1, r1, p1, m1, s1, e1, b1, v1⟩ : ∃ d : Core, Run o v c d ∧ d.pc = 0xE2 ∧ d.mem = c.mem ∧ d.sp = c.sp ∧
        d.de = 0xFFFF ∧ d.b.toNat = 8 ∧ big d.a d.hl = big c.a c.hl := by
      rw [decide_eq_false ha] at hz
      clear hv hl h0 ha
      obtain ⟨a, f, b, c, d, e, h, l, a', f', b', c', d', e', h', l', sp, pc, m, t⟩ := c
      simp only at hm hp hz ⊢
      subst hp
      refine ⟨?_, ?_, ?_⟩
      rotate_left
      · exec jrZNot hm if (by rw [hz]; decide)
        exec ldDeNN hm arg16 0xFFFF
        exec ldBN hm arg8 8
        exact .refl _
      · exact ⟨rfl, rfl, rfl, word_hi8_lo8 _, rfl, rfl⟩
    have v65 : 65536 ≤ 75 * x := by unfold big at hv; omega
    obtain ⟨c2, k, r2, p2, m2, s2, e2, k1, k2, k3, k4⟩ := rndNorm (o := o) (v := v) 8 c1 b1 (by decide) (m1 ▸ hm) p1
      (by omega) (by rw [v1, hv]; omega)
    rw [v1, hv] at k4
    obtain ⟨c3, r3, p3, m3, s3, e3, b3, f3, l3, a3⟩ := rndTurn (o := o) (v := v) (m2 ▸ m1 ▸ hm) p2
    have hl3 : Loaded c3.mem := by rw [m3, m2, m1]; exact hm
    refine Divided.after (r1.trans (r2.trans r3)) (m3.trans (m2.trans m1)) (s3.trans (s2.trans s1)) ?_
    have w1 : (word c2.a c2.h).toNat = big c2.a c2.hl / 256 := word_div
    have w2 : c2.l.toNat = big c2.a c2.hl % 256 := low_mod
    generalize big c2.a c2.hl = W at k4 w1 w2
    have hk : k = 0 ∨ k = 1 ∨ k = 2 ∨ k = 3 ∨ k = 4 ∨ k = 5 ∨ k = 6 ∨ k = 7 := by omega
    -- the dividend
    have st : k ≤ 6 ∧ 1 ≤ (word c2.a c2.h).toNat ∧
        ∃ low, Dividing (75 * x) k 1 ((word c2.a c2.h).toNat - 1) low c2.l.toNat := by
      have first : ∀ low, k ≤ 6 → low < 2 ^ k → 75 * x = (65536 + (word c2.a c2.h).toNat) * 2 ^ k + low →
          1 ≤ (word c2.a c2.h).toNat := fun low q0 q1 q2 => by
        by_cases q : 1 ≤ (word c2.a c2.h).toNat
        · exact q
        · exfalso
          have q3 : low < 64 := Nat.lt_of_lt_of_le q1 (Nat.pow_le_pow_right (n := 2) (by decide) (i := k) (j := 6) q0)
          refine never_first k (by omega) low q3 q1 ?_
          rw [show (word c2.a c2.h).toNat = 0 by omega, Nat.add_zero] at q2
          rw [← q2]; omega
      have key : k ≤ 6 ∧ ∃ low, low < 2 ^ k ∧ c2.l.toNat * 2 ^ k = low * 256 ∧
          75 * x = (65536 + (word c2.a c2.h).toNat) * 2 ^ k + low := by
        rw [w1, w2]
        clear first w1 w2 a3 l3 h0 v65 hv hz
        rcases hk with e | e | e | e | e | e | e | e <;> subst e <;> simp only [Nat.reduceSub, Nat.reducePow] at k4 ⊢
        · exact ⟨by decide, 0, by omega, by omega, by omega⟩
        · exact ⟨by decide, W % 256 / 128, by omega, by omega, by omega⟩
        · exact ⟨by decide, W % 256 / 64, by omega, by omega, by omega⟩
        · exact ⟨by decide, W % 256 / 32, by omega, by omega, by omega⟩
        · exact ⟨by decide, W % 256 / 16, by omega, by omega, by omega⟩
        · exact ⟨by decide, W % 256 / 8, by omega, by omega, by omega⟩
        · exact ⟨by decide, W % 256 / 4, by omega, by omega, by omega⟩
        · omega
      obtain ⟨q0, low, q1, q2, q3⟩ := key
      have q4 := first low q0 q1 q3
      exact ⟨q0, q4, low, by rw [q3]; congr 2; omega, by decide, q1, q2⟩
    obtain ⟨k6, g1, low, dv⟩ := st
    have hl3' : c3.hl.toNat = (word c2.a c2.h).toNat - 1 := by rw [l3, dec_nat g1]
    by_cases k0 : k = 0
    · have dv' := dv
      rw [k0] at dv'
      have z := dv'.end (by have := (word c2.a c2.h).isLt; omega)
      have hz3 : c3.f.z = true := by rw [f3, k3, decide_eq_true k0]
      obtain ⟨d, r, d1, d2, d3, d4⟩ : ∃ d : Core, Run o v c3 d ∧ d.pc = 0xFA ∧ d.mem = c3.mem ∧ d.sp = c3.sp ∧ d.hl = c3.hl - 1 := by
        obtain ⟨a, f, b, c, d, e, h, l, a', f', b', c', d', e', h', l', sp, pc, m, t⟩ := c3
        simp only at hl3 p3 hz3 ⊢
        subst p3
        refine ⟨?_, ?_, ?_⟩
        rotate_left
        · exec jrZ hl3 goto 0xF9 rel 0x0A if hz3
          exec decHl hl3
          exact .refl _
        · exact ⟨rfl, rfl, rfl, word_hi8_lo8 _⟩
      refine ⟨d, r, d1, d2, d3, ?_⟩
      rw [d4, dec_nat (by omega), z]
      omega
    · have hz3 : c3.f.z = false := by rw [f3, k3, decide_eq_false k0]
      obtain ⟨d, r, d1, d2, d3, d4, d5, d6, d7⟩ : ∃ d : Core, Run o v c3 d ∧ d.pc = 0xEF ∧ d.mem = c3.mem ∧ d.sp = c3.sp ∧
          d.hl = c3.hl ∧ d.de = c3.de ∧ d.b = c3.b ∧ d.a = c3.a := by
        obtain ⟨a, f, b, c, d, e, h, l, a', f', b', c', d', e', h', l', sp, pc, m, t⟩ := c3
        simp only at hl3 p3 hz3 ⊢
        subst p3
        refine ⟨?_, ?_, ?_⟩
        rotate_left
        · exec jrZNot hl3 if (by rw [hz3]; decide)
          exact .refl _
        · exact ⟨rfl, rfl, rfl, rfl, rfl, rfl, rfl⟩
      refine Divided.after r d2 d3 (rndLoop (by omega) (by omega) h0 k 1 low d (by omega) (by omega) (d2 ▸ hl3) d1
        (by rw [d5, e3, e2, e1]) (by rw [d6, b3, k2]) ?_)
      rw [d4, hl3', d7, a3]
      exact dv

theorem seed_pos {s : Nat} (h : s < 65536) : 1 ≤ 75 * (s + 1) % 65537 := by omega

/-- The seed stored, 0xFA to the return. -/
theorem rndStore {c : Core} (hm : Loaded c.mem) (hp : c.pc = 0xFA) (hs : 0x2CA ≤ c.sp.toNat) (hs2 : c.sp.toNat < 65535) :
    ∃ d : Core, Run o v c d ∧ d.pc = word (c.mem (c.sp + 1)) (c.mem c.sp) ∧ d.sp = c.sp + 2 ∧
      d.mem = put (put c.mem 0x2C8 c.l) 0x2C9 c.h ∧ d.a = c.l := by
  have n1 : (c.sp + 1).toNat = c.sp.toNat + 1 := by bv_omega
  obtain ⟨a, f, b, c, d, e, h, l, a', f', b', c', d', e', h', l', sp, pc, m, t⟩ := c
  simp only at hm hp hs hs2 n1 ⊢
  subst hp
  have q : ∀ (x : U16), 0x2CA ≤ x.toNat → put (put m 0x2C8 l) 0x2C9 h x = m x := fun x hx => by
    rw [put_other, put_other] <;> intro e <;> subst e <;> revert hx <;> decide
  have hm2 : Loaded (put (put m 0x2C8 l) 0x2C9 h) := by
    intro i hi
    have e : (BitVec.ofNat 16 i).toNat = i := by rw [BitVec.toNat_ofNat]; omega
    rw [put_other, put_other, hm i hi] <;> intro g <;> rw [g] at e
    · rw [show (0x2C8 : U16).toNat = 712 from rfl] at e; omega
    · rw [show (0x2C9 : U16).toNat = 713 from rfl] at e; omega
  refine ⟨?_, ?_, ?_⟩
  rotate_left
  · exec ldMemHl hm arg16 0x2C8
    exec ldAL hm2
    exec ret hm2
    exact .refl _
  · refine ⟨?_, rfl, rfl, rfl⟩
    show word (put (put m 0x2C8 l) 0x2C9 h (sp + 1)) (put (put m 0x2C8 l) 0x2C9 h sp) = _
    rw [q _ (by omega), q _ hs]

theorem or8_eq (a b : U8) : (or8 a b).1 = a ||| b := by
  show ofBits _ = _
  exact (eq_ofBits (a ||| b) _ (by intro i _; simp [BitVec.testBit_toNat])).symm
theorem and8_eq (a b : U8) : (and8 a b).1 = a &&& b := by
  show ofBits _ = _
  exact (eq_ofBits (a &&& b) _ (by intro i _; simp [BitVec.testBit_toNat])).symm

theorem or_flag (a b : U8) : (or8 a b).2.z = decide ((a ||| b).toNat = 0) := by
  rw [← or8_eq]; rfl

theorem or_z {x : U16} (h : x = 0) : ¬ ((!(or8 (lo8 x) (hi8 x)).2.z) = true) := by
  subst h; decide

theorem or_nz {x : U16} (h : x ≠ 0) : (!(or8 (lo8 x) (hi8 x)).2.z) = true := by
  rw [or_flag]
  by_cases q : (lo8 x ||| hi8 x).toNat = 0
  · exfalso
    have q : lo8 x ||| hi8 x = 0 := BitVec.eq_of_toNat_eq q
    have a : lo8 x = 0 := by
      apply BitVec.eq_of_getLsbD_eq
      intro i hi
      have := congrArg (fun y : U8 => y.getLsbD i) q
      simp at this
      simp [this.1]
    have b : hi8 x = 0 := by rw [a] at q; simpa using q
    apply h
    rw [← word_hi8_lo8 x, a, b]
    rfl
  · rw [decide_eq_false q]; rfl

/-- The generator. -/
theorem random {c : Core} (hm : Loaded c.mem) (hp : c.pc = 0xA8) (hs : 0x2CA ≤ c.sp.toNat) (hs2 : c.sp.toNat < 65535) :
    ∃ d : Core, Run o v c d ∧ d.pc = word (c.mem (c.sp + 1)) (c.mem c.sp) ∧ d.sp = c.sp + 2 ∧ ∃ x : U16,
      x.toNat = nextSeed (word (c.mem 0x2C9) (c.mem 0x2C8)).toNat ∧
      d.mem = put (put c.mem 0x2C8 (lo8 x)) 0x2C9 (hi8 x) ∧ d.a = lo8 x := by
  have hx := (word (c.mem 0x2C9) (c.mem 0x2C8)).isLt
  obtain ⟨c1, r1, m1, s1, g⟩ : ∃ d : Core, Run o v c d ∧ d.mem = c.mem ∧ d.sp = c.sp ∧
      ((word (c.mem 0x2C9) (c.mem 0x2C8) + 1 = 0 ∧ d.pc = 0xFA ∧ d.hl = 0xFFB5) ∨
       (word (c.mem 0x2C9) (c.mem 0x2C8) + 1 ≠ 0 ∧ d.pc = 0xBB ∧ d.hl = word (c.mem 0x2C9) (c.mem 0x2C8) + 1)) := by
    clear hs hs2 hx
    obtain ⟨a, f, b, c, d, e, h, l, a', f', b', c', d', e', h', l', sp, pc, m, t⟩ := c
    simp only at hm hp ⊢
    subst hp
    by_cases q : word (m 0x2C9) (m 0x2C8) + 1 = 0
    · refine ⟨?_, ?_, ?_⟩
      rotate_left
      · exec ldHlMem hm arg16 0x2C8
        exec incHl hm
        exec ldAL hm
        exec orH hm
        exec jpNzNot hm if (or_z q)
        exec ldHlNN hm arg16 0xFFB5
        exec jr hm goto 0xFA rel 0x44
        exact .refl _
      · exact ⟨rfl, rfl, .inl ⟨q, rfl, word_hi8_lo8 _⟩⟩
    · refine ⟨?_, ?_, ?_⟩
      rotate_left
      · exec ldHlMem hm arg16 0x2C8
        exec incHl hm
        exec ldAL hm
        exec orH hm
        exec jpNz hm arg16 0xBB if (or_nz q)
        exact .refl _
      · exact ⟨rfl, rfl, .inr ⟨q, rfl, word_hi8_lo8 _⟩⟩
  rcases g with ⟨g1, g2, g3⟩ | ⟨g1, g2, g3⟩
  · obtain ⟨d, r2, p2, s2, m2, a2⟩ := rndStore (o := o) (v := v) (m1 ▸ hm) g2 (s1 ▸ hs) (s1 ▸ hs2)
    rw [m1, s1] at p2
    rw [s1] at s2
    refine ⟨d, r1.trans r2, p2, s2, c1.hl, ?_, ?_, ?_⟩
    · have : word (c.mem 0x2C9) (c.mem 0x2C8) = 0xFFFF := by
        generalize word (c.mem 0x2C9) (c.mem 0x2C8) = y at g1
        bv_omega
      rw [g3, this]; decide
    · rw [m2, m1, Core.hl, lo8_word, hi8_word]
    · rw [a2, Core.hl, lo8_word]
  · have n : c1.hl.toNat = (word (c.mem 0x2C9) (c.mem 0x2C8)).toNat + 1 ∧ c1.hl.toNat < 65536 := by
      rw [g3]
      generalize word (c.mem 0x2C9) (c.mem 0x2C8) = y at g1
      constructor
      · bv_omega
      · exact (y + 1).isLt
    obtain ⟨c2, r2, p2, m2, s2, e2, f2⟩ := rndMul (o := o) (v := v) (m1 ▸ hm) g2
    obtain ⟨c3, r3, p3, m3, s3, e3⟩ := rndDiv (o := o) (v := v) (x := c1.hl.toNat) (m2 ▸ m1 ▸ hm) p2 n.2 (by omega) e2 f2
    have m3' : c3.mem = c.mem := m3.trans (m2.trans m1)
    have s3' : c3.sp = c.sp := s3.trans (s2.trans s1)
    obtain ⟨d, r4, p4, s4, m4, a4⟩ := rndStore (o := o) (v := v) (m3'.symm ▸ hm) p3 (s3'.symm ▸ hs) (s3'.symm ▸ hs2)
    rw [m3', s3'] at p4
    rw [s3'] at s4
    refine ⟨d, r1.trans (r2.trans (r3.trans r4)), p4, s4, c3.hl, ?_, ?_, ?_⟩
    · rw [nextSeed, ← n.1]; omega
    · rw [m4, m3', Core.hl, lo8_word, hi8_word]
    · rw [a4, Core.hl, lo8_word]

end Z80.Routine
