import Verif.Proofs.ShufflePrint

/-!
# The printing of numbers in the test program: the digits
-/

set_option linter.unusedVariables false
set_option linter.unusedSimpArgs false

namespace Z80.Routine
open Spec Spec.Shuffle
variable {w : Nat} {O R I : Type} {o : Opt} {v : Env w O R I} {em : U8 → I → I}

/-- The character of a digit. -/
def digit (d : Nat) : U8 := BitVec.ofNat 8 (48 + d)

/-- The digits of `k` bytes. -/
def twos : Nat → Nat → List U8
  | 0, _ => []
  | k + 1, u => digit (u / 100 ^ k % 100 / 10) :: digit (u / 100 ^ k % 100 % 10) :: twos k u

theorem xor8_self (a : U8) : (xor8 a a).1 = 0 := by
  simp only [xor8, bne_self_eq_false]
  decide

theorem rld8_a (m : U8) (c : Bool) : (rld8 0 m c).1 = BitVec.ofNat 8 (m.toNat / 16) := by
  simp only [rld8, show (0 : U8).toNat = 0 from rfl, Nat.zero_div, Nat.zero_mul, Nat.zero_add]
theorem rld8_m (m : U8) (c : Bool) : (rld8 0 m c).2.1 = BitVec.ofNat 8 (m.toNat % 16 * 16) := by
  simp only [rld8, show (0 : U8).toNat = 0 from rfl, Nat.zero_mod, Nat.add_zero]
theorem rld8_z (m : U8) (c : Bool) : (rld8 0 m c).2.2.z = decide (m.toNat / 16 = 0) := by
  have h : (rld8 0 m c).1.toNat = m.toNat / 16 := by
    rw [rld8_a, BitVec.toNat_ofNat]
    have := m.isLt
    omega
  rw [← h]
  rfl

theorem add30 (x : U8) (n : Nat) (h : x.toNat = n) : (add8 x 0x30 false).1 = digit n := by
  apply BitVec.eq_of_toNat_eq
  rw [add8_val, digit, BitVec.toNat_ofNat, h, Bool.toNat_false, show (0x30 : U8).toNat = 48 from rfl]
  omega

theorem bcd_div : ∀ d, d < 100 → (bcd d).toNat / 16 = d / 10 ∧ (bcd d).toNat % 16 = d % 10 := by decide +kernel

theorem push_word (m : U16 → U8) (x : U16) : word (push m 0x5D2 x 0x5D1) (push m 0x5D2 x 0x5D0) = x := by
  have h1 : push m 0x5D2 x 0x5D1 = hi8 x := by
    rw [push_eq]; exact (put_other _ _ (by decide)).trans (put_same _ _ _)
  have h2 : push m 0x5D2 x 0x5D0 = lo8 x := by rw [push_eq]; exact put_same _ _ _
  rw [h1, h2, word_hi8_lo8]

theorem push_else (m : U16 → U8) (x a : U16) (h : ¬ (0x5D0 ≤ a.toNat ∧ a.toNat < 0x5D2)) : push m 0x5D2 x a = m a := by
  rw [push_eq]
  simp only [BitVec.reduceSub]
  rw [put_other, put_other]
  · intro e; rw [e] at h; exact h (by decide)
  · intro e; rw [e] at h; exact h (by decide)

/-- Sending the character in A: `RST 10h`. -/
theorem printA {c : Core} (he : Takes v 0x42 em) (hm : Loaded c.mem) (hop : c.mem c.pc = 0xD7) (hs : c.sp = 0x5D2) :
    RunOut o v em c [c.a] { c with mem := push c.mem 0x5D2 (c.pc + 1), pc := c.pc + 1, t := c.t + 32 } := by
  have h1 := rst10 (o := o) (v := v) c hop
  have hm1 := loaded_push hm (sp := 0x5D2) (c.pc + 1) (by decide)
  obtain ⟨a, f, b, c, d, e, h, l, a', f', b', c', d', e', h', l', sp, pc, m, t⟩ := c
  simp only at hm hs h1 hm1 ⊢
  subst hs
  refine .send (.step h1 (.refl _)) (outNA 0x42 he (opc hm1) (opc hm1)) (.run (.step (ret _ (opc hm1)) (.to (.refl _) ?_)))
  simp only [BitVec.reduceSub, BitVec.reduceAdd, Nat.add_assoc, Nat.reduceAdd, Core.mk.injEq, true_and, and_true]
  exact ⟨rfl, push_word m (pc + 1)⟩

/-- The digit in A. -/
theorem highDigit {c : Core} {n : Nat} (he : Takes v 0x42 em) (hm : Loaded c.mem) (hp : c.pc = 0x61) (hs : c.sp = 0x5D2)
    (ha : c.a.toNat = n) :
    ∃ d : Core, RunOut o v em c [digit n] d ∧ d.pc = 0x65 ∧ d.a = 0 ∧ d.sp = c.sp ∧ d.b = c.b ∧
      word d.h d.l = word c.h c.l ∧ (∀ a, ¬ (0x5D0 ≤ a.toNat ∧ a.toNat < 0x5D2) → d.mem a = c.mem a) := by
  have hd := add30 c.a n ha
  obtain ⟨a, f, b, c, d, e, h, l, a', f', b', c', d', e', h', l', sp, pc, m, t⟩ := c
  simp only at hm hp hs ha hd ⊢
  subst hp hs
  have r1 : Run o v ⟨a, f, b, c, d, e, h, l, a', f', b', c', d', e', h', l', 0x5D2, 0x61, m, t⟩
      ⟨digit n, (add8 a 0x30 false).2, b, c, d, e, h, l, a', f', b', c', d', e', h', l', 0x5D2, 0x63, m, t + 7⟩ := by
    exec addAN hm arg8 0x30
    rw [hd]
    exact .refl _
  have r2 := printA (o := o) (c := ⟨digit n, (add8 a 0x30 false).2, b, c, d, e, h, l, a', f', b', c', d', e', h', l', 0x5D2,
    0x63, m, t + 7⟩) he hm (opc hm) rfl
  have hm1 := loaded_push hm (sp := 0x5D2) (0x64 : U16) (by decide)
  refine ⟨?_, .before r1 (r2.behind ?_), ?_⟩
  rotate_left
  · dsimp only
    exec xorA hm1
    exact .refl _
  · exact ⟨rfl, xor8_self _, rfl, rfl, rfl, fun x hx => push_else m _ x hx⟩

/-- The digit in the high half of the byte. -/
theorem lowDigit {c : Core} {n : Nat} {q : U16} (he : Takes v 0x42 em) (hm : Loaded c.mem) (hp : c.pc = 0x65)
    (hs : c.sp = 0x5D2) (ha : c.a = 0) (hh : word c.h c.l = q) (hq : 974 ≤ q.toNat ∧ q.toNat < 994)
    (hn : (c.mem q).toNat / 16 = n) :
    ∃ d : Core, RunOut o v em c [digit n] d ∧ d.pc = 0x6C ∧ d.a = 0 ∧ d.sp = c.sp ∧ d.b = c.b ∧
      word d.h d.l = q + 1 ∧ (∀ a, a ≠ q → ¬ (0x5D0 ≤ a.toNat ∧ a.toNat < 0x5D2) → d.mem a = c.mem a) := by
  obtain ⟨a, f, b, c, d, e, h, l, a', f', b', c', d', e', h', l', sp, pc, m, t⟩ := c
  simp only at hm hp hs ha hh hn ⊢
  subst hp hs ha
  have hd := add30 (rld8 0 (m q) f.c).1 n (by
    rw [rld8_a, BitVec.toNat_ofNat, hn]
    have := (m q).isLt
    omega)
  have hm0 := loaded_put hm (a := q) (rld8 0 (m q) f.c).2.1 (by omega)
  have r1 : ∃ f1, Run o v ⟨0, f, b, c, d, e, h, l, a', f', b', c', d', e', h', l', 0x5D2, 0x65, m, t⟩
      ⟨digit n, f1, b, c, d, e, h, l, a', f', b', c', d', e', h', l', 0x5D2, 0x69, put m q (rld8 0 (m q) f.c).2.1,
        t + 18 + 7⟩ := by
    refine ⟨?_, ?_⟩
    rotate_left
    · exec rld hm two
      rw [hh]
      exec addAN hm0 arg8 0x30
      rw [hd]
      exact .refl _
  obtain ⟨f1, r1⟩ := r1
  have r2 := printA (o := o) (c := ⟨digit n, f1, b, c, d, e, h, l, a', f', b', c', d', e', h', l', 0x5D2,
    0x69, put m q (rld8 0 (m q) f.c).2.1, t + 18 + 7⟩) he hm0 (opc hm0) rfl
  have hm1 := loaded_push hm0 (sp := 0x5D2) (0x6A : U16) (by decide)
  refine ⟨?_, .before r1 (r2.behind ?_), ?_⟩
  rotate_left
  · dsimp only
    exec incHl hm1
    exec xorA hm1
    exact .refl _
  · refine ⟨rfl, xor8_self _, rfl, rfl, ?_, fun x hx hy => ?_⟩
    · dsimp only
      rw [word_hi8_lo8, hh]
    · dsimp only
      exact (push_else _ _ x hy).trans (put_other _ _ hx)

/-- Memory outside the buffer and the place of one return address does not change. -/
def Beside (m m' : U16 → U8) : Prop :=
  ∀ a, ¬ (974 ≤ a.toNat ∧ a.toNat < 994) → ¬ (0x5D0 ≤ a.toNat ∧ a.toNat < 0x5D2) → m' a = m a

theorem Beside.trans {a b c : U16 → U8} (h : Beside a b) (g : Beside b c) : Beside a c :=
  fun x hx hy => (g x hx hy).trans (h x hx hy)

theorem Beside.loaded {m m' : U16 → U8} (h : Beside m m') (hm : Loaded m) : Loaded m' := by
  intro i hi
  rw [h _ (by rw [BitVec.toNat_ofNat]; omega) (by rw [BitVec.toNat_ofNat]; omega), hm i hi]

/-- The first half of a byte: the high digit goes to A, the low digit takes its place. -/
theorem rldStep {c : Core} {q : U16} {d : Nat} (hc : c.mem c.pc = 0xED) (h1 : c.mem (c.pc + 1) = 0x6F) (ha : c.a = 0)
    (hh : word c.h c.l = q) (hd : d < 100) (hq : c.mem q = bcd d) :
    ∃ x : Core, One o v c x ∧ x.pc = c.pc + 1 + 1 ∧ x.a = BitVec.ofNat 8 (d / 10) ∧ x.f.z = decide (d / 10 = 0) ∧
      x.mem = put c.mem q (BitVec.ofNat 8 (d % 10 * 16)) ∧ x.sp = c.sp ∧ x.b = c.b ∧ word x.h x.l = q := by
  have h := rld (o := o) (v := v) c hc h1
  obtain ⟨b1, b2⟩ := bcd_div d hd
  refine ⟨_, h, rfl, ?_, ?_, ?_, rfl, rfl, hh⟩
  · show (rld8 c.a (c.mem (word c.h c.l)) c.f.c).1 = _
    rw [ha, hh, hq, rld8_a, b1]
  · show (rld8 c.a (c.mem (word c.h c.l)) c.f.c).2.2.z = _
    rw [ha, hh, hq, rld8_z, b1]
  · show put _ _ (rld8 c.a (c.mem (word c.h c.l)) c.f.c).2.1 = _
    rw [ha, hh, hq, rld8_m, b2]

/-- The bytes after the first one. -/
theorem restOut (k : Nat) (he : Takes v 0x42 em) : ∀ {c : Core} {u : Nat}, Loaded c.mem → c.pc = 0x6C → c.sp = 0x5D2 →
    c.a = 0 → k < 20 → c.b = BitVec.ofNat 8 (k + 1) → word c.h c.l = BitVec.ofNat 16 (994 - k) → Digits c.mem 993 k u →
    ∃ d : Core, RunOut o v em c (twos k u) d ∧ d.pc = 0x6E ∧ d.sp = c.sp ∧ Beside c.mem d.mem := by
  induction k with
  | zero =>
    intro c u hm hp hs ha hk hb hh hd
    have hj := djnzNot (o := o) (v := v) c (by rw [hp]; exact opc hm) (by rw [hb]; decide)
    rw [hp] at hj
    exact ⟨_, .run (.step hj (.refl _)), rfl, rfl, fun _ _ _ => rfl⟩
  | succ k ih =>
    intro c u hm hp hs ha hk hb hh hd
    have hb2 : c.b - 1 = BitVec.ofNat 8 (k + 1) := by
      rw [hb, BitVec.ofNat_add (k + 1)]
      exact BitVec.add_sub_cancel _ _
    have hj := djnz (o := o) (v := v) c 0x5F 0xF1 (by rw [hp]; exact opc hm) (by rw [hp]; exact opc hm)
      (by rw [hp]; decide +kernel) (by
        rw [hb2]
        intro e
        have := congrArg BitVec.toNat e
        rw [BitVec.toNat_ofNat] at this
        change (k + 1) % 256 = 0 at this
        omega)
    have hlt : u / 100 ^ k % 100 < 100 := Nat.mod_lt _ (by decide)
    have hq : (BitVec.ofNat 16 (994 - (k + 1))).toNat = 993 - k := by rw [BitVec.toNat_ofNat]; omega
    have hq2 : BitVec.ofNat 16 (994 - (k + 1)) = BitVec.ofNat 16 (993 - k) := by congr 1; omega
    obtain ⟨x, s1, xp, xa, -, xm, xs, xb, xh⟩ := rldStep (o := o) (v := v)
      (c := { c with b := c.b - 1, pc := 0x5F, t := c.t + 13 }) (opc hm) (opc hm) ha
      hh hlt (by show c.mem _ = _; rw [hq2]; exact hd k (by omega))
    have hm1 : Loaded x.mem := by
      rw [xm]
      exact loaded_put hm _ (by rw [hq]; omega)
    obtain ⟨d1, r1, p1, a1, sp1, b1, h1, m1⟩ := highDigit (o := o) (n := u / 100 ^ k % 100 / 10) (c := x) he
      hm1 xp (xs.trans hs) (by rw [xa, BitVec.toNat_ofNat]; omega)
    have hm2 : Loaded d1.mem := by
      intro i hi
      rw [m1 _ (by rw [BitVec.toNat_ofNat]; omega), hm1 i hi]
    obtain ⟨d2, r2, p2, a2, sp2, b2, h2, m2⟩ := lowDigit (o := o) (n := u / 100 ^ k % 100 % 10) (c := d1) he hm2 p1
      (sp1.trans (xs.trans hs)) a1 (h1.trans xh) (by rw [hq]; omega) (by
        rw [m1 _ (by rw [hq]; omega), xm, put_same, BitVec.toNat_ofNat]
        omega)
    have hB : Beside c.mem d2.mem := by
      intro a g1 g2
      have ne : a ≠ BitVec.ofNat 16 (994 - (k + 1)) := by
        intro e
        rw [e, hq] at g1
        omega
      rw [m2 a ne g2, m1 a g2, xm, put_other _ _ ne]
    obtain ⟨g, r3, g1, g2, g3⟩ := ih (c := d2) (u := u) (hB.loaded hm) p2 (sp2.trans (sp1.trans (xs.trans hs))) a2 (by omega)
      (by rw [b2, b1, xb]; exact hb2) (by
        rw [h2, show 994 - k = 994 - (k + 1) + 1 by omega, BitVec.ofNat_add (994 - (k + 1))]; rfl)
      (by
        intro j hj
        have e : (BitVec.ofNat 16 (993 - j)).toNat = 993 - j := by rw [BitVec.toNat_ofNat]; omega
        have ne : BitVec.ofNat 16 (993 - j) ≠ BitVec.ofNat 16 (994 - (k + 1)) :=
          ofNat_ne (by omega) (by omega) (by omega)
        rw [m2 _ ne (by rw [e]; omega), m1 _ (by rw [e]; omega), xm, put_other _ _ ne]
        exact hd j (by omega))
    refine ⟨g, ?_, g1, ?_, hB.trans g3⟩
    · exact .before (.step hj (.step s1 (.refl _))) (r1.trans (r2.trans r3))
    · rw [g2, sp2, sp1, xs]

/-- The first byte, without a leading zero. -/
def leadDigits (d : Nat) : List U8 := if d / 10 = 0 then [digit (d % 10)] else [digit (d / 10), digit (d % 10)]

/-- All digits, from 0x56. -/
theorem allOut {c : Core} {k u : Nat} (he : Takes v 0x42 em) (hm : Loaded c.mem) (hp : c.pc = 0x56) (hs : c.sp = 0x5D2)
    (hk : Num { c with c := c.c' } (k + 1) u) (hh : word c.h' c.l' = BitVec.ofNat 16 (994 - (k + 1))) :
    ∃ d : Core, RunOut o v em c (leadDigits (u / 100 ^ k) ++ twos k u) d ∧ d.pc = 0x6E ∧ d.sp = c.sp ∧
      Beside c.mem d.mem := by
  have hk5 := hk.le
  have hlt : u / 100 ^ k < 100 := Nat.div_lt_of_lt_mul (by rw [← Nat.pow_succ]; exact hk.lt)
  have hq : (BitVec.ofNat 16 (994 - (k + 1))).toNat = 993 - k := by rw [BitVec.toNat_ofNat]; omega
  have hq2 : BitVec.ofNat 16 (994 - (k + 1)) = BitVec.ofNat 16 (993 - k) := by congr 1; omega
  obtain ⟨d0, r0, p0, a0, b0, h0, s0, m0⟩ : ∃ d : Core, Run o v c d ∧ d.pc = 0x59 ∧ d.a = 0 ∧ d.b = c.c' ∧
      word d.h d.l = word c.h' c.l' ∧ d.sp = c.sp ∧ d.mem = c.mem := by
    clear hk hh hs
    obtain ⟨a, f, b, c, d, e, h, l, a', f', b', c', d', e', h', l', sp, pc, m, t⟩ := c
    simp only at hm hp ⊢
    subst hp
    refine ⟨?_, ?_, ?_⟩
    rotate_left
    · exec exx hm
      exec ldBC hm
      exec xorA hm
      exact .refl _
    · exact ⟨rfl, xor8_self _, rfl, rfl, rfl, rfl⟩
  have hm0 : Loaded d0.mem := m0 ▸ hm
  obtain ⟨x, s1, xp, xa, xz, xm, xs, xb, xh⟩ := rldStep (o := o) (v := v) (c := d0) (by rw [p0]; exact opc hm0)
    (by rw [p0]; exact opc hm0) a0 (h0.trans hh) hlt (by
      have := hk.dig k (by omega)
      rw [Nat.mod_eq_of_lt hlt] at this
      rw [m0, hq2]
      exact this)
  rw [p0] at xp
  have hm1 : Loaded x.mem := by
    rw [xm]
    exact loaded_put hm0 _ (by rw [hq]; omega)
  -- to 0x65
  obtain ⟨d1, r1, p1, a1, sp1, b1, h1, m1⟩ : ∃ d : Core,
      RunOut o v em x (if u / 100 ^ k / 10 = 0 then [] else [digit (u / 100 ^ k / 10)]) d ∧ d.pc = 0x65 ∧ d.a = 0 ∧
      d.sp = x.sp ∧ d.b = x.b ∧ word d.h d.l = word x.h x.l ∧
      (∀ a, ¬ (0x5D0 ≤ a.toNat ∧ a.toNat < 0x5D2) → d.mem a = x.mem a) := by
    by_cases hz : u / 100 ^ k / 10 = 0
    · rw [if_pos hz]
      have hxz : ¬ ((!x.f.z) = true) := by rw [xz, decide_eq_true hz]; decide
      have j1 := jrNzNot (o := o) (v := v) x (by rw [xp]; exact opc hm1) hxz
      rw [xp] at j1
      have j2 := jr (o := o) (v := v) { x with pc := 0x5D, t := x.t + 7 } 0x65 0x06 (opc hm1) (opc hm1)
        (by dsimp only; decide +kernel)
      refine ⟨_, .run (.step j1 (.step j2 (.refl _))), rfl, ?_, rfl, rfl, rfl, fun _ _ => rfl⟩
      show x.a = 0
      rw [xa, hz]
      rfl
    · rw [if_neg hz]
      have hxz : (!x.f.z) = true := by rw [xz, decide_eq_false hz]; rfl
      have j1 := jrNz (o := o) (v := v) x 0x61 0x04 (by rw [xp]; exact opc hm1) (by rw [xp]; exact opc hm1)
        (by rw [xp]; decide +kernel) hxz
      obtain ⟨d, r, g⟩ := highDigit (o := o) (n := u / 100 ^ k / 10) (c := { x with pc := 0x61, t := x.t + 12 }) he
        hm1 rfl (xs.trans (s0.trans hs)) (by
          show x.a.toNat = _
          rw [xa, BitVec.toNat_ofNat]
          generalize u / 100 ^ k = z at hlt ⊢
          omega)
      exact ⟨d, .before (.step j1 (.refl _)) r, g⟩
  have hm2 : Loaded d1.mem := by
    intro i hi
    rw [m1 _ (by rw [BitVec.toNat_ofNat]; omega), hm1 i hi]
  obtain ⟨d2, r2, p2, a2, sp2, b2, h2, m2⟩ := lowDigit (o := o) (n := u / 100 ^ k % 10) (c := d1) he hm2 p1
    (sp1.trans (xs.trans (s0.trans hs))) a1 (h1.trans xh) (by rw [hq]; omega) (by
      rw [m1 _ (by rw [hq]; omega), xm, put_same, BitVec.toNat_ofNat]
      omega)
  have hB : Beside c.mem d2.mem := by
    intro a g1 g2
    have ne : a ≠ BitVec.ofNat 16 (994 - (k + 1)) := by
      intro e
      rw [e, hq] at g1
      omega
    rw [m2 a ne g2, m1 a g2, xm, put_other _ _ ne, m0]
  obtain ⟨g, r3, g1, g2, g3⟩ := restOut (o := o) k he (c := d2) (u := u) (hB.loaded hm) p2
    (sp2.trans (sp1.trans (xs.trans (s0.trans hs)))) a2 (by omega)
    (by rw [b2, b1, xb, b0]; exact hk.c) (by
      rw [h2, show 994 - k = 994 - (k + 1) + 1 by omega, BitVec.ofNat_add (994 - (k + 1))]; rfl)
    (by
      intro j hj
      have e : (BitVec.ofNat 16 (993 - j)).toNat = 993 - j := by rw [BitVec.toNat_ofNat]; omega
      have ne : BitVec.ofNat 16 (993 - j) ≠ BitVec.ofNat 16 (994 - (k + 1)) :=
        ofNat_ne (by omega) (by omega) (by omega)
      rw [m2 _ ne (by rw [e]; omega), m1 _ (by rw [e]; omega), xm, put_other _ _ ne, m0]
      exact hk.dig j (by omega))
  refine ⟨g, ?_, g1, ?_, hB.trans g3⟩
  · have r := RunOut.before (r0.trans (.step s1 (.refl _))) (r1.trans (r2.trans r3))
    have e : (if u / 100 ^ k / 10 = 0 then [] else [digit (u / 100 ^ k / 10)]) ++ ([digit (u / 100 ^ k % 10)] ++ twos k u) =
        leadDigits (u / 100 ^ k) ++ twos k u := by
      unfold leadDigits
      split <;> rfl
    rw [← e]
    exact r
  · rw [g2, sp2, sp1, xs, s0]

end Z80.Routine
