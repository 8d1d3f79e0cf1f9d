import Verif.Proofs.ShuffleMul

/-!
# The printing of numbers in the test program

`kernel.rst20` (`/repo/tests/shuffle/shuffle.bin` 32-118): the number is doubled bit by bit in packed decimal, and its
digits are sent to a port.
-/

set_option linter.unusedVariables false
set_option linter.unusedSimpArgs false

namespace Z80.Routine
open Spec Spec.Shuffle
variable {w : Nat} {O R I : Type} {o : Opt} {v : Env w O R I}

/-- Twice a number of two decimal digits, with the carry. -/
theorem double_bcd : ∀ d, d < 100 → ∀ q : Bool,
    (daa8 (add8 (bcd d) (bcd d) q).1 (add8 (bcd d) (bcd d) q).2).1 = bcd ((2 * d + q.toNat) % 100) ∧
    (daa8 (add8 (bcd d) (bcd d) q).1 (add8 (bcd d) (bcd d) q).2).2.c = decide (100 ≤ 2 * d + q.toNat) := by
  decide +kernel

/-- `k` bytes of decimal digits of `u` from the address `p` downwards. -/
def Digits (m : U16 → U8) (p k u : Nat) : Prop := ∀ j, j < k → m (BitVec.ofNat 16 (p - j)) = bcd (u / 100 ^ j % 100)

theorem ofNat_ne {a b : Nat} (ha : a < 65536) (hb : b < 65536) (h : a ≠ b) : BitVec.ofNat 16 a ≠ BitVec.ofNat 16 b := by
  intro e
  have := congrArg BitVec.toNat e
  rw [BitVec.toNat_ofNat, BitVec.toNat_ofNat] at this
  omega

/-- Registers that do not change in the bank with the digits. -/
structure Bank (x y : Core) : Prop where
  sp : y.sp = x.sp
  d : y.d = x.d
  b' : y.b' = x.b'
  d' : y.d' = x.d'
  e' : y.e' = x.e'

theorem Bank.trans {a b c : Core} (h : Bank a b) (g : Bank b c) : Bank a c :=
  ⟨g.sp.trans h.sp, g.d.trans h.d, g.b'.trans h.b', g.d'.trans h.d', g.e'.trans h.e'⟩

/-- Twice a number, from address `p` downwards. -/
theorem doubleBytes (k : Nat) : ∀ {c : Core} {p u : Nat}, Loaded c.mem → c.pc = 0x41 → k < 19 → 712 + (k + 1) ≤ p →
    p < 65535 → word c.h c.l = BitVec.ofNat 16 (p + 1) → c.b = BitVec.ofNat 8 (k + 1) → Digits c.mem p (k + 1) u →
    u < 100 ^ (k + 1) →
    ∃ d : Core, Run o v c d ∧ Bank c d ∧ d.c = c.c ∧ d.pc = 0x48 ∧ word d.h d.l = BitVec.ofNat 16 (p - k) ∧
      Digits d.mem p (k + 1) (2 * u + c.f.c.toNat) ∧ d.f.c = decide (100 ^ (k + 1) ≤ 2 * u + c.f.c.toNat) ∧
      (∀ a, ¬ (p - k ≤ a.toNat ∧ a.toNat ≤ p) → d.mem a = c.mem a) := by
  -- one byte, up to DJNZ
  have one : ∀ {c : Core} {p u : Nat}, Loaded c.mem → c.pc = 0x41 → 713 ≤ p → p < 65535 →
      word c.h c.l = BitVec.ofNat 16 (p + 1) → c.mem (BitVec.ofNat 16 p) = bcd (u % 100) →
      ∃ d : Core, Run o v c d ∧ Bank c d ∧ d.c = c.c ∧ d.pc = 0x46 ∧ word d.h d.l = BitVec.ofNat 16 p ∧ d.b = c.b ∧
        d.mem = put c.mem (BitVec.ofNat 16 p) (bcd ((2 * u + c.f.c.toNat) % 100)) ∧
        d.f.c = decide (100 ≤ 2 * (u % 100) + c.f.c.toNat) := by
    intro c p u hm hp h1 h2 hh hd
    have hw : word c.h c.l - 1 = BitVec.ofNat 16 p := by
      rw [hh, BitVec.ofNat_add]
      exact BitVec.add_sub_cancel _ _
    obtain ⟨b1, b2⟩ := double_bcd (u % 100) (Nat.mod_lt _ (by decide)) c.f.c
    have hmod : (2 * (u % 100) + c.f.c.toNat) % 100 = (2 * u + c.f.c.toNat) % 100 := by omega
    rw [hmod] at b1
    obtain ⟨a, f, b, c, d, e, h, l, a', f', b', c', d', e', h', l', sp, pc, m, t⟩ := c
    simp only at hm hp hh hd hw b1 b2 ⊢
    subst hp
    refine ⟨?_, ?_, ?_⟩
    rotate_left
    · exec decHl hm
      exec ldAM hm
      exec adcAA hm
      exec daa hm
      exec ldMA hm
      exact .refl _
    · refine ⟨⟨rfl, rfl, rfl, rfl, rfl⟩, rfl, rfl, ?_, rfl, ?_, ?_⟩
      · simp only [word_hi8_lo8, hw]
      · simp only [word_hi8_lo8, hw, hd, b1]
      · simp only [word_hi8_lo8, hw, hd, b2]
  induction k with
  | zero =>
    intro c p u hm hp hk h1 h2 hh hb hd hu
    have hu' : u % 100 = u := Nat.mod_eq_of_lt (by simpa using hu)
    obtain ⟨d, r, kb, kc, d1, d2, d3, d4, d5⟩ := one (u := u) hm hp (by omega) h2 hh (by
      have := hd 0 (by decide)
      simpa using this)
    have hm2 : Loaded d.mem := by
      rw [d4]
      exact loaded_put hm _ (by rw [BitVec.toNat_ofNat]; omega)
    have hj := djnzNot (o := o) (v := v) d (by rw [d1]; exact opc hm2) (by
      rw [d3, hb]; decide)
    rw [d1] at hj
    refine ⟨_, r.trans (.step hj (.refl _)), ⟨kb.sp, kb.d, kb.b', kb.d', kb.e'⟩, kc, rfl, d2, ?_, ?_, ?_⟩
    · intro j hj
      have hj0 : j = 0 := by omega
      subst hj0
      show d.mem _ = _
      rw [d4, Nat.sub_zero, put_same, Nat.pow_zero, Nat.div_one]
    · show d.f.c = _
      rw [d5, hu', Nat.zero_add, Nat.pow_one]
    · intro a ha
      show d.mem a = _
      rw [d4, put_other]
      intro e
      rw [e, BitVec.toNat_ofNat] at ha
      omega
  | succ k ih =>
    intro c p u hm hp hk h1 h2 hh hb hd hu
    obtain ⟨d, r, kb, kc, d1, d2, d3, d4, d5⟩ := one (u := u) hm hp (by omega) h2 hh (by
      have := hd 0 (by omega)
      simpa using this)
    have hm2 : Loaded d.mem := by
      rw [d4]
      exact loaded_put hm _ (by rw [BitVec.toNat_ofNat]; omega)
    have hb2 : c.b - 1 = BitVec.ofNat 8 (k + 1) := by
      rw [hb, BitVec.ofNat_add (k + 1)]
      exact BitVec.add_sub_cancel _ _
    have hj := djnz (o := o) (v := v) d 0x41 0xF9 (by rw [d1]; exact opc hm2) (by rw [d1]; exact opc hm2)
      (by rw [d1]; decide +kernel) (by
        rw [d3, hb2]
        intro e
        have := congrArg BitVec.toNat e
        rw [BitVec.toNat_ofNat] at this
        change (k + 1) % 256 = 0 at this
        omega)
    obtain ⟨g, r2, kb2, kc2, g1, g2, g3, g4, g5⟩ := ih (c := { d with b := d.b - 1, pc := 0x41, t := d.t + 13 }) (p := p - 1)
      (u := u / 100) hm2 rfl (by omega) (by omega) (by omega) (by
        show word d.h d.l = _
        rw [d2, Nat.sub_add_cancel (by omega)])
      (by show d.b - 1 = _; rw [d3, hb2])
      (by
        intro j hj
        show d.mem _ = _
        rw [d4, put_other _ _ (ofNat_ne (by omega) (by omega) (by omega)), Nat.sub_sub, Nat.add_comm 1 j, hd (j + 1) (by omega),
          Nat.div_div_eq_div_mul, Nat.pow_succ, Nat.mul_comm (100 ^ j)])
      (by
        apply Nat.div_lt_of_lt_mul
        rw [Nat.mul_comm, ← Nat.pow_succ]
        exact hu)
    have hq : 2 * (u / 100) + d.f.c.toNat = (2 * u + c.f.c.toNat) / 100 := by
      rw [d5]
      have : c.f.c.toNat ≤ 1 := by cases c.f.c <;> decide
      by_cases hc : 100 ≤ 2 * (u % 100) + c.f.c.toNat
      · simp only [hc, decide_true, Bool.toNat_true]; omega
      · simp only [hc, decide_false, Bool.toNat_false]; omega
    change Digits g.mem (p - 1) (k + 1) (2 * (u / 100) + d.f.c.toNat) at g3
    change g.f.c = decide (_ ≤ 2 * (u / 100) + d.f.c.toNat) at g4
    rw [hq] at g3 g4
    refine ⟨g, r.trans (.step hj r2), kb.trans ⟨kb2.sp, kb2.d, kb2.b', kb2.d', kb2.e'⟩, kc2.trans kc, g1, ?_, ?_, ?_, ?_⟩
    · rw [g2]
      congr 1
      omega
    · intro j hj
      cases j with
      | zero =>
        rw [g5 _ (by rw [BitVec.toNat_ofNat]; omega)]
        show d.mem _ = _
        rw [d4, Nat.sub_zero, put_same, Nat.pow_zero, Nat.div_one]
      | succ j =>
        have := g3 j (by omega)
        rw [Nat.sub_sub, Nat.add_comm 1 j] at this
        rw [this, Nat.div_div_eq_div_mul, Nat.pow_succ, Nat.mul_comm (100 ^ j)]
    · rw [g4]
      apply decide_eq_decide.2
      rw [Nat.le_div_iff_mul_le (by decide), ← Nat.pow_succ]
    · intro a ha
      rw [g5 a (by omega)]
      show d.mem a = _
      rw [d4, put_other]
      intro e
      rw [e, BitVec.toNat_ofNat] at ha
      omega

/-- A number in the buffer, with as many bytes as it needs. -/
structure Num (x : Core) (n u : Nat) : Prop where
  c : x.c = BitVec.ofNat 8 n
  pos : 1 ≤ n
  le : n ≤ 5
  lt : u < 100 ^ n
  lead : n = 1 ∨ 100 ^ (n - 1) ≤ u
  dig : Digits x.mem 993 n u

/-- Memory outside the buffer does not change. -/
def Outside (m m' : U16 → U8) : Prop := ∀ a, ¬ (974 ≤ a.toNat ∧ a.toNat < 994) → m' a = m a

theorem Outside.trans {a b c : U16 → U8} (h : Outside a b) (g : Outside b c) : Outside a c :=
  fun x hx => (g x hx).trans (h x hx)

theorem Outside.loaded {m m' : U16 → U8} (h : Outside m m') (hm : Loaded m) : Loaded m' := by
  intro i hi
  rw [h _ (by rw [BitVec.toNat_ofNat]; omega), hm i hi]

theorem inc8_ofNat (n : Nat) (f : Fl) : (inc8 (BitVec.ofNat 8 n) f).1 = BitVec.ofNat 8 (n + 1) := by
  apply BitVec.eq_of_toNat_eq
  simp only [inc8, add8, BitVec.toNat_ofNat, Bool.toNat_false, show (1 : U8).toNat = 1 from rfl]
  omega

/-- One bit more. -/
theorem oneBit {c : Core} {n u : Nat} (hm : Loaded c.mem) (hp : c.pc = 0x3D) (hn : Num c n u)
    (hu : 2 * u + c.f.c.toNat < 4294967296) :
    ∃ (d : Core) (n' : Nat), Run o v c d ∧ Bank c d ∧ d.pc = 0x4E ∧ Num d n' (2 * u + c.f.c.toNat) ∧
      word d.h d.l = BitVec.ofNat 16 (994 - n') ∧ Outside c.mem d.mem := by
  have hq : c.f.c.toNat ≤ 1 := by cases c.f.c <;> decide
  obtain ⟨k, rfl⟩ : ∃ k, n = k + 1 := ⟨n - 1, by have := hn.pos; omega⟩
  have hk : k ≤ 4 := by have := hn.le; omega
  -- start
  obtain ⟨d1, r1, b1, c1, p1, h1, bb1, f1, m1⟩ : ∃ d : Core, Run o v c d ∧ Bank c d ∧ d.c = c.c ∧ d.pc = 0x41 ∧
      word d.h d.l = 994 ∧ d.b = c.c ∧ d.f = c.f ∧ d.mem = c.mem := by
    clear hn hu hq
    obtain ⟨a, f, b, c, d, e, h, l, a', f', b', c', d', e', h', l', sp, pc, m, t⟩ := c
    simp only at hm hp ⊢
    subst hp
    refine ⟨?_, ?_, ?_⟩
    rotate_left
    · exec ldHlNN hm arg16 0x3E2
      exec ldBC hm
      exact .refl _
    · exact ⟨⟨rfl, rfl, rfl, rfl, rfl⟩, rfl, rfl, by dsimp only; decide, rfl, rfl, rfl⟩
  -- the bytes
  obtain ⟨d2, r2, b2, c2, p2, h2, g2, f2, o2⟩ := doubleBytes (o := o) (v := v) k (c := d1) (p := 993) (u := u) (m1 ▸ hm) p1
    (by omega) (by omega) (by decide) h1 (by rw [bb1, hn.c]) (by rw [m1]; exact hn.dig) hn.lt
  rw [f1] at g2 f2
  have o2' : Outside c.mem d2.mem := by
    intro a ha
    rw [o2 a (by omega), m1]
  have hm2 : Loaded d2.mem := o2'.loaded hm
  have e2 : d2.c = BitVec.ofNat 8 (k + 1) := by rw [c2, c1, hn.c]
  by_cases hc : 100 ^ (k + 1) ≤ 2 * u + c.f.c.toNat
  · -- a new byte
    rw [decide_eq_true hc] at f2
    have hk' : k ≤ 3 := by
      rcases Nat.lt_or_ge k 4 with h | h
      · omega
      · have : k = 4 := by omega
        subst this
        simp only [Nat.reduceAdd, Nat.reducePow] at hc
        omega
    have hw : word d2.h d2.l - 1 = BitVec.ofNat 16 (993 - (k + 1)) := by
      rw [h2, show 993 - k = 993 - (k + 1) + 1 by omega, BitVec.ofNat_add]
      exact BitVec.add_sub_cancel _ _
    obtain ⟨d3, r3, b3, p3, c3, h3, m3⟩ : ∃ d : Core, Run o v d2 d ∧ Bank d2 d ∧ d.pc = 0x4E ∧
        d.c = (inc8 d2.c d2.f).1 ∧ word d.h d.l = word d2.h d2.l - 1 ∧ d.mem = put d2.mem (word d2.h d2.l - 1) 1 := by
      clear hn hu hq r1 r2 b1 b2 c1 c2 h1 h2 g2 o2 o2' e2 hw
      obtain ⟨a, f, b, c, d, e, h, l, a', f', b', c', d', e', h', l', sp, pc, m, t⟩ := d2
      simp only at hm2 p2 f2 ⊢
      subst p2
      refine ⟨?_, ?_, ?_⟩
      rotate_left
      · exec jrNcNot hm2 if (by dsimp only; rw [f2]; decide)
        exec incC hm2
        exec decHl hm2
        exec ldMN hm2 arg8 1
        exact .refl _
      · exact ⟨⟨rfl, rfl, rfl, rfl, rfl⟩, rfl, rfl, word_hi8_lo8 _, rfl⟩
    rw [hw] at h3 m3
    have ha : (BitVec.ofNat 16 (993 - (k + 1))).toNat = 993 - (k + 1) := by rw [BitVec.toNat_ofNat]; omega
    refine ⟨d3, k + 2, r1.trans (r2.trans r3), b1.trans (b2.trans b3), p3, ⟨?_, by omega, by omega, ?_, .inr hc, ?_⟩, ?_, ?_⟩
    · rw [c3, e2, inc8_ofNat]
    · have := hn.lt
      rw [Nat.pow_succ]
      omega
    · intro j hj
      by_cases e : j = k + 1
      · subst e
        rw [m3, put_same]
        have : (2 * u + c.f.c.toNat) / 100 ^ (k + 1) = 1 := by
          apply Nat.div_eq_of_lt_le
          · omega
          · have := hn.lt
            omega
        rw [this]
        decide
      · rw [m3, put_other _ _ (ofNat_ne (by omega) (by omega) (by omega))]
        exact g2 j (by omega)
    · rw [h3]
      congr 1
      omega
    · refine o2'.trans ?_
      intro a ha'
      rw [m3, put_other]
      intro e
      rw [e, ha] at ha'
      omega
  · rw [decide_eq_false hc] at f2
    have hj := jrNc (o := o) (v := v) d2 0x4E 0x04 (by rw [p2]; exact opc hm2) (by rw [p2]; exact opc hm2)
      (by rw [p2]; decide +kernel) (by rw [f2]; rfl)
    refine ⟨_, k + 1, r1.trans (r2.trans (.step hj (.refl _))), b1.trans ⟨b2.sp, b2.d, b2.b', b2.d', b2.e'⟩, rfl,
      ⟨e2, by omega, by omega, by omega, ?_, g2⟩, ?_, o2'⟩
    · rcases hn.lead with h | h
      · exact .inl h
      · exact .inr (by omega)
    · show word d2.h d2.l = _
      rw [h2]
      congr 1
      omega

theorem sla_val (x : U8) (c : Bool) : (Sh.sla.op x c).1.toNat = (x.toNat + x.toNat + 0) % 256 := by
  simp only [Sh.op, Sh.val, BitVec.toNat_ofNat]
  omega
theorem sla_c (x : U8) (c : Bool) : (Sh.sla.op x c).2.c = decide (256 ≤ x.toNat + x.toNat + 0) := by
  show decide (128 ≤ x.toNat) = _
  exact decide_eq_decide.2 (by omega)
theorem sla_z (x : U8) (c : Bool) : (Sh.sla.op x c).2.z = decide ((x.toNat + x.toNat + 0) % 256 = 0) := by
  rw [← sla_val x c]
  rfl

/-- The stack pointer and the other bank. -/
structure Other (x y : Core) : Prop where
  sp : y.sp = x.sp
  b' : y.b' = x.b'
  d' : y.d' = x.d'
  e' : y.e' = x.e'

theorem Other.trans {a b c : Core} (h : Other a b) (g : Other b c) : Other a c :=
  ⟨g.sp.trans h.sp, g.b'.trans h.b', g.d'.trans h.d', g.e'.trans h.e'⟩
theorem Bank.other {a b : Core} (h : Bank a b) : Other a b := ⟨h.sp, h.b', h.d', h.e'⟩

/-- The remaining bits of a byte. -/
theorem bitsAfter (n : Nat) : ∀ {c : Core} {r k u : Nat}, Loaded c.mem → c.pc = 0x4E → n ≤ 7 → r < 2 ^ n →
    c.d.toNat = (2 * r + 1) * 2 ^ (7 - n) → Num c k u → word c.h c.l = BitVec.ofNat 16 (994 - k) →
    u * 2 ^ n + r < 4294967296 →
    ∃ (d : Core) (k' : Nat), Run o v c d ∧ Other c d ∧ d.pc = 0x53 ∧ Num d k' (u * 2 ^ n + r) ∧
      word d.h d.l = BitVec.ofNat 16 (994 - k') ∧ Outside c.mem d.mem := by
  have sl : ∀ {c : Core}, Loaded c.mem → c.pc = 0x4E → One o v c
      { c with d := (Sh.sla.op c.d c.f.c).1, f := (Sh.sla.op c.d c.f.c).2, pc := 0x50, t := c.t + 8 } := by
    intro c hm hp
    have h := slaD (o := o) (v := v) c (by rw [hp]; exact opc hm) (by rw [hp]; exact opc hm)
    rw [hp] at h
    exact h
  induction n with
  | zero =>
    intro c r k u hm hp hn hr hd hk hh hu
    have hr0 : r = 0 := by simpa using hr
    subst hr0
    have hz : (Sh.sla.op c.d c.f.c).2.z = true := by
      rw [sla_z, hd]
      rfl
    refine ⟨_, k, .step (sl hm hp) (.step (jpNzNot _ (opc hm) (by dsimp only; rw [hz]; decide)) (.refl _)),
      ⟨rfl, rfl, rfl, rfl⟩, rfl, ?_, hh, fun _ _ => rfl⟩
    rw [Nat.pow_zero, Nat.mul_one, Nat.add_zero]
    exact ⟨hk.c, hk.pos, hk.le, hk.lt, hk.lead, hk.dig⟩
  | succ n ih =>
    intro c r k u hm hp hn hr hd hk hh hu
    obtain ⟨l1, l2, l3⟩ := bits_left n r c.d.toNat hn hr hd
    rw [← sla_c c.d c.f.c] at l1
    rw [← sla_val c.d c.f.c] at l2
    have hz : (Sh.sla.op c.d c.f.c).2.z = false := by
      rw [sla_z]
      exact decide_eq_false l3
    have hdm : 2 ^ n * (r / 2 ^ n) + r % 2 ^ n = r := Nat.div_add_mod r (2 ^ n)
    have hu2 : (2 * u + r / 2 ^ n) * 2 ^ n + r % 2 ^ n = u * 2 ^ (n + 1) + r := by
      rw [Nat.add_mul, Nat.add_assoc, Nat.mul_comm (r / 2 ^ n), hdm, Nat.pow_succ, Nat.mul_comm 2 u, Nat.mul_assoc,
        Nat.mul_comm 2]
    have hb : 2 * u + r / 2 ^ n < 4294967296 := by
      have h1 : (2 * u + r / 2 ^ n) * 1 ≤ (2 * u + r / 2 ^ n) * 2 ^ n := Nat.mul_le_mul_left _ (Nat.two_pow_pos n)
      omega
    have hj := jpNz (o := o) (v := v)
      { c with d := (Sh.sla.op c.d c.f.c).1, f := (Sh.sla.op c.d c.f.c).2, pc := 0x50, t := c.t + 8 } 0x3D (opc hm) (opc hm) (opc hm) (by dsimp only; rw [hz]; rfl)
    obtain ⟨d, k1, r1, b1, p1, n1, h1, o1⟩ := oneBit (o := o) (v := v)
      (c := { c with d := (Sh.sla.op c.d c.f.c).1, f := (Sh.sla.op c.d c.f.c).2, pc := 0x3D, t := c.t + 8 + 10 }) (n := k) (u := u) hm rfl
      ⟨hk.c, hk.pos, hk.le, hk.lt, hk.lead, hk.dig⟩ (by
        show 2 * u + (Sh.sla.op c.d c.f.c).2.c.toNat < _
        rw [l1]; exact hb)
    change Num d k1 (2 * u + (Sh.sla.op c.d c.f.c).2.c.toNat) at n1
    rw [l1] at n1
    obtain ⟨g, k2, r2, b2, p2, n2, h2, o2⟩ := ih (c := d) (r := r % 2 ^ n) (o1.loaded hm) p1 (by omega)
      (Nat.mod_lt _ (Nat.two_pow_pos n)) (by rw [b1.d]; exact l2) n1 h1 (by rw [hu2]; exact hu)
    rw [hu2] at n2
    refine ⟨g, k2, .step (sl hm hp) (.step hj (r1.trans r2)), ?_, p2, n2, h2, Outside.trans o1 o2⟩
    have := b1.other
    exact Other.trans ⟨this.sp, this.b', this.d', this.e'⟩ b2

/-- One byte more. -/
theorem oneByte {c : Core} {k u : Nat} (hm : Loaded c.mem) (hp : c.pc = 0x37) (hk : Num { c with c := c.c' } k u)
    (hu : u * 256 + (c.mem (word c.d c.e - 1)).toNat < 4294967296) :
    ∃ (d : Core) (k' : Nat), Run o v c d ∧ d.pc = 0x54 ∧ d.b = c.b ∧ word d.d d.e = word c.d c.e - 1 ∧ d.sp = c.sp ∧
      Num { d with c := d.c' } k' (u * 256 + (c.mem (word c.d c.e - 1)).toNat) ∧
      word d.h' d.l' = BitVec.ofNat 16 (994 - k') ∧ Outside c.mem d.mem := by
  have hx := (c.mem (word c.d c.e - 1)).isLt
  generalize hX : c.mem (word c.d c.e - 1) = x at *
  obtain ⟨d1, r1, p1, s1, c1, d1d, f1, b1, dd1, e1, m1⟩ : ∃ d : Core, Run o v c d ∧ d.pc = 0x3D ∧ d.sp = c.sp ∧
      d.c = c.c' ∧ d.d = (Sh.rl.accOp x { c.f with c := true }).1 ∧ d.f.c = (Sh.rl.carry x) ∧ d.b' = c.b ∧
      d.d' = hi8 (word c.d c.e - 1) ∧ d.e' = lo8 (word c.d c.e - 1) ∧ d.mem = c.mem := by
    clear hk hu
    obtain ⟨a, f, b, c, d, e, h, l, a', f', b', c', d', e', h', l', sp, pc, m, t⟩ := c
    simp only at hm hp hX ⊢
    subst hp
    refine ⟨?_, ?_, ?_⟩
    rotate_left
    · exec decDe hm
      exec ldADe hm
      exec exx hm
      execs scfRla hm
      exec ldDA hm
      exact .refl _
    · refine ⟨rfl, rfl, rfl, ?_, ?_, rfl, rfl, rfl, rfl⟩
      · simp only [word_hi8_lo8, hX]
      · simp only [word_hi8_lo8, hX, Sh.accOp]
  have hb : ∀ n, n < 256 → (decide (128 ≤ n)).toNat = n / 128 := by decide +kernel
  have hc : d1.f.c.toNat = x.toNat / 128 := by
    rw [f1]
    exact hb _ hx
  have hd : d1.d.toNat = (2 * (x.toNat % 128) + 1) * 2 ^ (7 - 7) := by
    rw [d1d]
    simp only [Sh.accOp, Sh.val, BitVec.toNat_ofNat, Bool.toNat_true]
    omega
  obtain ⟨d2, k2, r2, b2, p2, n2, h2, o2⟩ := oneBit (o := o) (v := v) (c := d1) (n := k) (u := u) (m1 ▸ hm) p1
    ⟨c1.trans hk.c, hk.pos, hk.le, hk.lt, hk.lead, by rw [m1]; exact hk.dig⟩ (by rw [hc]; omega)
  rw [hc] at n2
  rw [m1] at o2
  have hsum : (2 * u + x.toNat / 128) * 2 ^ 7 + x.toNat % 128 = u * 256 + x.toNat := by omega
  obtain ⟨d3, k3, r3, b3, p3, n3, h3, o3⟩ := bitsAfter (o := o) (v := v) 7 (c := d2) (r := x.toNat % 128) (o2.loaded hm) p2
    (by decide) (Nat.mod_lt _ (by decide)) (by rw [b2.d]; exact hd) n2 h2 (by rw [hsum]; exact hu)
  rw [hsum] at n3
  have o3' := o2.trans o3
  have hm3 := o3'.loaded hm
  have h := exx (o := o) (v := v) d3 (by rw [p3]; exact opc hm3)
  rw [p3] at h
  refine ⟨_, k3, r1.trans (r2.trans (r3.trans (.step h (.refl _)))), rfl, ?_, ?_, ?_,
    ⟨n3.c, n3.pos, n3.le, n3.lt, n3.lead, n3.dig⟩, h3, o3'⟩
  · show d3.b' = _
    rw [b3.b', b2.b', b1]
  · show word d3.d' d3.e' = _
    rw [b3.d', b3.e', b2.d', b2.e', dd1, e1, word_hi8_lo8]
  · show d3.sp = _
    rw [b3.sp, b2.sp, s1]

/-- The number in `k` bytes from an address on, lowest byte first. -/
def leVal (m : U16 → U8) (p : U16) : Nat → Nat
  | 0 => 0
  | k + 1 => (m (p + BitVec.ofNat 16 k)).toNat * 256 ^ k + leVal m p k

theorem leVal_congr {m m' : U16 → U8} {p : U16} {k : Nat} (h : ∀ j, j < k → m' (p + BitVec.ofNat 16 j) = m (p + BitVec.ofNat 16 j)) :
    leVal m' p k = leVal m p k := by
  induction k with
  | zero => rfl
  | succ k ih => rw [leVal, leVal, h k (by omega), ih (fun j hj => h j (by omega))]

/-- All bytes. -/
theorem allBytes (n : Nat) : ∀ {c : Core} {p : U16} {k u : Nat}, Loaded c.mem → c.pc = 0x37 → n < 255 →
    c.b = BitVec.ofNat 8 (n + 1) → word c.d c.e = p + BitVec.ofNat 16 (n + 1) → Num { c with c := c.c' } k u →
    (∀ j, j < n + 1 → ¬ (974 ≤ (p + BitVec.ofNat 16 j).toNat ∧ (p + BitVec.ofNat 16 j).toNat < 994)) →
    u * 256 ^ (n + 1) + leVal c.mem p (n + 1) < 4294967296 →
    ∃ (d : Core) (k' : Nat), Run o v c d ∧ d.pc = 0x56 ∧ d.sp = c.sp ∧
      Num { d with c := d.c' } k' (u * 256 ^ (n + 1) + leVal c.mem p (n + 1)) ∧
      word d.h' d.l' = BitVec.ofNat 16 (994 - k') ∧ Outside c.mem d.mem := by
  induction n with
  | zero =>
    intro c p k u hm hp hn hb hd hk ho hu
    have hw : word c.d c.e - 1 = p + BitVec.ofNat 16 0 := by
      rw [hd, BitVec.add_zero]
      exact BitVec.add_sub_cancel _ _
    have hl : leVal c.mem p (0 + 1) = (c.mem (word c.d c.e - 1)).toNat := by
      rw [hw]
      simp [leVal]
    rw [hl, Nat.zero_add, Nat.pow_one] at hu ⊢
    obtain ⟨d, k1, r, d1, d2, d3, d4, d5, d6, d7⟩ := oneByte (o := o) (v := v) hm hp hk hu
    have hm2 := d7.loaded hm
    have hj := djnzNot (o := o) (v := v) d (by rw [d1]; exact opc hm2) (by rw [d2, hb]; decide)
    rw [d1] at hj
    exact ⟨_, k1, r.trans (.step hj (.refl _)), rfl, d4, ⟨d5.c, d5.pos, d5.le, d5.lt, d5.lead, d5.dig⟩, d6, d7⟩
  | succ n ih =>
    intro c p k u hm hp hn hb hd hk ho hu
    have hw : word c.d c.e - 1 = p + BitVec.ofNat 16 (n + 1) := by
      rw [hd, BitVec.ofNat_add (n + 1), ← BitVec.add_assoc]
      exact BitVec.add_sub_cancel _ _
    have e1 : u * 256 ^ (n + 1 + 1) + leVal c.mem p (n + 1 + 1) =
        (u * 256 + (c.mem (word c.d c.e - 1)).toNat) * 256 ^ (n + 1) + leVal c.mem p (n + 1) := by
      rw [leVal, hw, Nat.add_mul, Nat.pow_succ 256 (n + 1), Nat.mul_comm (256 ^ (n + 1)) 256, Nat.mul_assoc, Nat.add_assoc]
    have hlt : u * 256 + (c.mem (word c.d c.e - 1)).toNat < 4294967296 := by
      have h1 := Nat.mul_le_mul_left (u * 256 + (c.mem (word c.d c.e - 1)).toNat)
        (show 1 ≤ 256 ^ (n + 1) from Nat.pow_pos (by decide))
      omega
    rw [e1] at hu ⊢
    obtain ⟨d, k1, r, d1, d2, d3, d4, d5, d6, d7⟩ := oneByte (o := o) (v := v) hm hp hk hlt
    have hm2 := d7.loaded hm
    have hb2 : c.b - 1 = BitVec.ofNat 8 (n + 1) := by
      rw [hb, BitVec.ofNat_add (n + 1)]
      exact BitVec.add_sub_cancel _ _
    have hj := djnz (o := o) (v := v) d 0x37 0xE1 (by rw [d1]; exact opc hm2) (by rw [d1]; exact opc hm2)
      (by rw [d1]; decide +kernel) (by
        rw [d2, hb2]
        intro e
        have := congrArg BitVec.toNat e
        rw [BitVec.toNat_ofNat] at this
        change (n + 1) % 256 = 0 at this
        omega)
    have hle : leVal d.mem p (n + 1) = leVal c.mem p (n + 1) := leVal_congr fun j hj => d7 _ (ho j (by omega))
    rw [← hle] at hu ⊢
    obtain ⟨g, k2, r2, g1, g2, g3, g4, g5⟩ := ih (c := { d with b := d.b - 1, pc := 0x37, t := d.t + 13 }) (p := p) (k := k1)
      hm2 rfl (by omega) (by show d.b - 1 = _; rw [d2, hb2]) (by show word d.d d.e = _; rw [d3, hw])
      ⟨d5.c, d5.pos, d5.le, d5.lt, d5.lead, d5.dig⟩ (fun j hj => ho j (by omega)) hu
    exact ⟨g, k2, r.trans (.step hj r2), g1, g2.trans d4, g3, g4, Outside.trans d7 g5⟩

end Z80.Routine
