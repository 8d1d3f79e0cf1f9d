import Verif.Proofs.ShuffleOut
import Verif.Proofs.ShuffleBoot

/-!
# The multiplication of the test program, from the call to the return

`/repo/tests/shuffle/shuffle.bin` 573-644 (0x23D-0x284) with the printing of numbers at 0x20.
-/

set_option linter.unusedVariables false

namespace Z80.Routine
open Spec Spec.Shuffle
variable {w : Nat} {O R I : Type} {o : Opt} {v : Env w O R I} {em : U8 → I → I}

theorem push_far (m : U16 → U8) {sp x a : U16} (h1 : a ≠ sp - 1) (h2 : a ≠ sp - 2) : push m sp x a = m a := by
  rw [push_eq, put_other _ _ h2, put_other _ _ h1]

/-- Not below the pushed word. -/
theorem push_off (m : U16 → U8) {sp x a : U16} (h : 2 ≤ sp.toNat) (h1 : ¬ (sp.toNat - 2 ≤ a.toNat ∧ a.toNat < sp.toNat)) :
    push m sp x a = m a :=
  push_far m (by bv_omega) (by bv_omega)

/-- Saving the registers, from 0x20. -/
theorem prologue {c : Core} (hm : Loaded c.mem) (hp : c.pc = 0x20) (hs : c.sp = 0x5DE) (hc : c.c = 4) (hd : c.d = 2)
    (he : c.e = 0xC8) :
    ∃ d : Core, Run o v c d ∧ d.pc = 0x37 ∧ d.sp = 0x5D2 ∧ d.b = 4 ∧ word d.d d.e = 716 ∧ d.c' = 1 ∧ d.mem 993 = 0 ∧
      (∀ a, a ≠ 993 → ¬ (0x5D2 ≤ a.toNat ∧ a.toNat < 0x5DE) → d.mem a = c.mem a) := by
  obtain ⟨a, f, b, c, d, e, h, l, a', f', b', c', d', e', h', l', sp, pc, m, t⟩ := c
  simp only at hm hp hs hc hd he ⊢
  subst hp hs hc hd he
  refine ⟨?_, ?_, ?_⟩
  rotate_left
  · exec pushAf hm
    have hm1 := loaded_push hm (sp := 0x5DE) (word a f.byte) (by decide)
    exec pushBc hm1
    have hm2 := loaded_push hm1 (sp := 0x5DC) (word b 4) (by decide)
    exec pushDe hm2
    have hm3 := loaded_push hm2 (sp := 0x5DA) (word 2 0xC8) (by decide)
    exec exx hm3
    exec pushBc hm3
    have hm4 := loaded_push hm3 (sp := 0x5D8) (word b' c') (by decide)
    exec pushDe hm4
    have hm5 := loaded_push hm4 (sp := 0x5D6) (word d' e') (by decide)
    exec pushHl hm5
    have hm6 := loaded_push hm5 (sp := 0x5D4) (word h' l') (by decide)
    exec exx hm6
    exec ldAC hm6
    exec ldBA hm6
    exec addAE hm6
    exec ldEA hm6
    exec adcAD hm6
    exec subE hm6
    exec ldDA hm6
    exec xorA hm6
    exec ldMemA hm6 arg16 0x3E1
    have hm7 := fun x => loaded_put hm6 (a := 0x3E1) x (by decide)
    exec exx (hm7 _)
    exec ldCN (hm7 _) arg8 1
    exec exx (hm7 _)
    exact .refl _
  · refine ⟨rfl, rfl, rfl, by dsimp only; decide +kernel, rfl, ?_, ?_⟩
    · dsimp only
      exact (put_same _ _ _).trans (xor8_self _)
    · intro a g1 g2
      dsimp only
      rw [put_other _ _ g1]
      rw [push_off, push_off, push_off, push_off, push_off, push_off]
      all_goals first | decide | (intro g; apply g2; revert g; simp only [BitVec.reduceToNat, BitVec.reduceSub]; omega)

/-- Restoring the registers, from 0x6E. -/
theorem epilogue {c : Core} (hm : Loaded c.mem) (hp : c.pc = 0x6E) (hs : c.sp = 0x5D2) :
    ∃ d : Core, Run o v c d ∧ d.pc = word (c.mem 0x5DF) (c.mem 0x5DE) ∧ d.sp = 0x5E0 ∧ d.mem = c.mem := by
  obtain ⟨a, f, b, c, d, e, h, l, a', f', b', c', d', e', h', l', sp, pc, m, t⟩ := c
  simp only at hm hp hs ⊢
  subst hp hs
  refine ⟨?_, ?_, ?_⟩
  rotate_left
  · exec exx hm
    exec popHl hm
    exec popDe hm
    exec popBc hm
    exec exx hm
    exec popDe hm
    exec popBc hm
    exec popAf hm
    exec ret hm
    exact .refl _
  · exact ⟨rfl, rfl, rfl⟩

/-! ### Decimal digits -/

theorem twos_last (k : Nat) : ∀ u, twos (k + 1) u = twos k (u / 100) ++ [digit (u % 100 / 10), digit (u % 100 % 10)] := by
  induction k with
  | zero =>
    intro u
    simp only [twos, Nat.pow_zero, Nat.div_one, List.nil_append]
  | succ k ih =>
    intro u
    have e : u / 100 ^ (k + 1) = u / 100 / 100 ^ k := by rw [Nat.div_div_eq_div_mul, Nat.pow_succ']
    rw [twos, ih, e]
    rfl

theorem digit_char {d : Nat} (h : d < 10) : BitVec.ofNat 8 (Nat.digitChar d).toNat = digit d := by
  have key : ∀ d : Fin 10, BitVec.ofNat 8 (Nat.digitChar d.val).toNat = digit d.val := by decide +kernel
  exact key ⟨d, h⟩

theorem decimal_eq (n : Nat) : decimal n =
    if n < 10 then [digit n] else decimal (n / 10) ++ [digit (n % 10)] := by
  unfold decimal
  rw [Nat.toString_eq_ofList_toDigits, String.toList_ofList, Nat.toDigits_eq_if (by decide)]
  split
  · rename_i h
    rw [List.map_cons, digit_char h]
    rfl
  · rw [List.map_append, Nat.toString_eq_ofList_toDigits, String.toList_ofList, List.map_cons,
      digit_char (Nat.mod_lt _ (by decide))]
    rfl

theorem decimal_two (n : Nat) (h : 100 ≤ n) : decimal n = decimal (n / 100) ++ [digit (n % 100 / 10), digit (n % 100 % 10)] := by
  rw [decimal_eq, if_neg (by omega), decimal_eq (n / 10), if_neg (by omega), List.append_assoc, Nat.div_div_eq_div_mul,
    show n / 10 % 10 = n % 100 / 10 by omega, show n % 10 = n % 100 % 10 by omega]
  rfl

theorem decimal_lead (n : Nat) (h : n < 100) : leadDigits n = decimal n := by
  unfold leadDigits
  rw [decimal_eq]
  by_cases hn : n < 10
  · rw [if_pos hn, if_pos (by omega), Nat.mod_eq_of_lt hn]
  · rw [if_neg hn, if_neg (by omega), decimal_eq, if_pos (by omega)]
    rfl

theorem decimal_out (k : Nat) : ∀ u, u < 100 ^ (k + 1) → (k = 0 ∨ 100 ^ k ≤ u) → leadDigits (u / 100 ^ k) ++ twos k u = decimal u := by
  induction k with
  | zero =>
    intro u h _
    rw [Nat.pow_zero, Nat.div_one, twos, List.append_nil]
    exact decimal_lead _ (by omega)
  | succ k ih =>
    intro u h1 h2
    have hp : 0 < 100 ^ k := Nat.pow_pos (by decide)
    have h3 : 100 ^ (k + 1) ≤ u := by
      rcases h2 with h | h
      · cases h
      · exact h
    have e : u / 100 ^ (k + 1) = u / 100 / 100 ^ k := by rw [Nat.div_div_eq_div_mul, Nat.pow_succ']
    rw [e, twos_last, ← List.append_assoc, ih, ← decimal_two]
    · rw [Nat.pow_succ] at h3
      generalize 100 ^ k = z at *
      omega
    · rw [Nat.pow_succ] at h1
      exact Nat.div_lt_of_lt_mul (by omega)
    · right
      rw [Nat.pow_succ] at h3
      exact (Nat.le_div_iff_mul_le (by decide)).2 h3

/-! ### The routine -/

theorem wide_lt (x y : U16) : wide x y < 4294967296 := by
  have h1 : x.toNat < 65536 := x.isLt
  have h2 : y.toNat < 65536 := y.isLt
  unfold wide
  omega

theorem wide_bytes {x y : U16} {a b c d : Nat} (h : a * 256 + b = x.toNat) (g : c * 256 + d = y.toNat) :
    a * 256 ^ 3 + (b * 256 ^ 2 + (c * 256 ^ 1 + (d * 256 ^ 0 + 0))) = wide x y := by
  unfold wide
  rw [← h, ← g, show 256 ^ 3 = 256 * 65536 from rfl, show 256 ^ 2 = 65536 from rfl, Nat.pow_one, Nat.pow_zero, Nat.mul_one,
    Nat.add_zero, Nat.add_mul, Nat.mul_assoc, Nat.add_assoc]

/-- The product is stored and printed (0x23D-0x284). -/
theorem times {c : Core} (ht : Takes v 0x42 em) (hm : Loaded c.mem) (hp : c.pc = 0x23D) (hs : c.sp = 0x5E0) :
    ∃ d : Core, RunOut o v em c (decimal (seed c.mem * multiplicator c.mem)) d ∧
      d.pc = word (c.mem 0x5E1) (c.mem 0x5E0) ∧ d.sp = 0x5E2 ∧ Loaded d.mem ∧
      product d.mem = seed c.mem * multiplicator c.mem ∧
      (∀ a, ¬ (712 ≤ a.toNat ∧ a.toNat < 716) → ¬ (974 ≤ a.toNat ∧ a.toNat < 994) →
        ¬ (0x5D0 ≤ a.toNat ∧ a.toNat < 0x5E0) → d.mem a = c.mem a) := by
  obtain ⟨d0, r0, p0, s0, c0, de0, x, y, m0, e0⟩ := multiply (o := o) (v := v) hm hp
  have ex : (hi8 x).toNat * 256 + (lo8 x).toNat = x.toNat := by rw [← word_val, word_hi8_lo8]
  have ey : (hi8 y).toNat * 256 + (lo8 y).toNat = y.toNat := by rw [← word_val, word_hi8_lo8]
  have hd0 : d0.d = 2 := by
    have h := congrArg hi8 de0
    rw [hi8_word] at h
    exact h
  have he0 : d0.e = 0xC8 := by
    have h := congrArg lo8 de0
    rw [lo8_word] at h
    exact h
  have k0 : ∀ a, ¬ (712 ≤ a.toNat ∧ a.toNat < 716) → d0.mem a = c.mem a := by
    intro a g
    rw [m0, put_other, put_other, put_other, put_other]
    all_goals
      intro e
      rw [e] at g
      exact g (by decide)
  have b2 : d0.mem 712 = lo8 y := by rw [m0, put_other _ _ (by decide), put_same]
  have b3 : d0.mem 713 = hi8 y := by rw [m0, put_same]
  have b4 : d0.mem 714 = lo8 x := by
    rw [m0, put_other _ _ (by decide), put_other _ _ (by decide), put_other _ _ (by decide), put_same]
  have b5 : d0.mem 715 = hi8 x := by rw [m0, put_other _ _ (by decide), put_other _ _ (by decide), put_same]
  clear m0
  have hm0 : Loaded d0.mem := by
    intro i hi
    rw [k0 _ (by rw [BitVec.toNat_ofNat]; omega), hm i hi]
  have hpr : wide x y = seed c.mem * multiplicator c.mem := by
    rw [e0, word_val, word_val]
    rfl
  -- the call of the printing
  have j1 := rst20 (o := o) (v := v) d0 (by rw [p0]; exact opc hm0)
  rw [s0, hs, p0] at j1
  have hm1 := loaded_push hm0 (sp := 0x5E0) 0x284 (by decide)
  obtain ⟨d2, r2, p2, s2, b2', w2, c2, z2, k2⟩ := prologue (o := o) (v := v)
    (c := { d0 with mem := push d0.mem 0x5E0 0x284, sp := 0x5DE, pc := 0x20, t := d0.t + 11 }) hm1 rfl rfl c0 hd0 he0
  have k2' : ∀ a : U16, ¬ (974 ≤ a.toNat ∧ a.toNat < 994) → ¬ (0x5D2 ≤ a.toNat ∧ a.toNat < 0x5E0) → d2.mem a = d0.mem a := by
    intro a g1 g2
    rw [k2 a (by intro e; rw [e] at g1; exact g1 (by decide)) (by omega)]
    exact push_off _ (by decide) (by intro g; apply g2; revert g; simp only [BitVec.reduceToNat]; omega)
  have hm2 : Loaded d2.mem := by
    intro i hi
    rw [k2' _ (by rw [BitVec.toNat_ofNat]; omega) (by rw [BitVec.toNat_ofNat]; omega), hm0 i hi]
  have ra : word (d2.mem 0x5DF) (d2.mem 0x5DE) = 0x284 := by
    rw [k2 _ (by decide) (by decide), k2 _ (by decide) (by decide)]
    show word (push d0.mem 0x5E0 0x284 0x5DF) (push d0.mem 0x5E0 0x284 0x5DE) = _
    have h1 : push d0.mem 0x5E0 0x284 0x5DF = hi8 0x284 := by
      rw [push_eq]; exact (put_other _ _ (by decide)).trans (put_same _ _ _)
    have h2 : push d0.mem 0x5E0 0x284 0x5DE = lo8 0x284 := by rw [push_eq]; exact put_same _ _ _
    rw [h1, h2, word_hi8_lo8]
  have hl : leVal d2.mem 712 4 = wide x y := by
    have g0 : d2.mem 712 = lo8 y := (k2' _ (by decide) (by decide)).trans b2
    have g1 : d2.mem 713 = hi8 y := (k2' _ (by decide) (by decide)).trans b3
    have g2 : d2.mem 714 = lo8 x := (k2' _ (by decide) (by decide)).trans b4
    have g3 : d2.mem 715 = hi8 x := (k2' _ (by decide) (by decide)).trans b5
    have f0 : (712 : U16) + BitVec.ofNat 16 0 = 712 := rfl
    have f1 : (712 : U16) + BitVec.ofNat 16 1 = 713 := rfl
    have f2 : (712 : U16) + BitVec.ofNat 16 2 = 714 := rfl
    have f3 : (712 : U16) + BitVec.ofNat 16 3 = 715 := rfl
    simp only [leVal]
    rw [f0, f1, f2, f3, g0, g1, g2, g3]
    exact wide_bytes ex ey
  have hlt : wide x y < 4294967296 := wide_lt x y
  have hn : Num { d2 with c := d2.c' } 1 0 := ⟨c2, by decide, by decide, by decide, .inl rfl, by
    intro j hj
    have : j = 0 := by omega
    subst this
    have e : BitVec.ofNat 16 (993 - 0) = 993 := rfl
    show d2.mem (BitVec.ofNat 16 (993 - 0)) = _
    rw [e, z2]
    decide +kernel⟩
  obtain ⟨d3, k, r3, p3, s3, n3, w3, o3⟩ := allBytes (o := o) (v := v) 3 (c := d2) (p := 712) hm2 p2 (by decide) b2' w2 hn
    (by
      intro j hj
      have : (712 + BitVec.ofNat 16 j : U16).toNat = 712 + j := by
        rw [BitVec.toNat_add, BitVec.toNat_ofNat]
        show (712 + _) % 65536 = _
        omega
      omega) (by rw [hl]; omega)
  rw [hl, Nat.zero_mul, Nat.zero_add] at n3
  obtain ⟨k, rfl⟩ : ∃ i, k = i + 1 := ⟨k - 1, by have := n3.pos; omega⟩
  obtain ⟨d4, r4, p4, s4, o4⟩ := allOut (o := o) ht (o3.loaded hm2) p3 (s3.trans s2) n3 w3
  have hm4 : Loaded d4.mem := o4.loaded (o3.loaded hm2)
  have k4 : ∀ a : U16, ¬ (974 ≤ a.toNat ∧ a.toNat < 994) → ¬ (0x5D0 ≤ a.toNat ∧ a.toNat < 0x5D2) → d4.mem a = d2.mem a :=
    fun a g1 g2 => (o4 a g1 g2).trans (o3 a g1)
  obtain ⟨d5, r5, p5, s5, m5⟩ := epilogue (o := o) (v := v) hm4 p4 (s4.trans (s3.trans s2))
  rw [k4 _ (by decide) (by decide), k4 _ (by decide) (by decide), ra] at p5
  have hm5 : Loaded d5.mem := m5 ▸ hm4
  have j6 := ret (o := o) (v := v) d5 (by rw [p5]; exact opc hm5)
  rw [s5, m5] at j6
  have K : ∀ a : U16, ¬ (712 ≤ a.toNat ∧ a.toNat < 716) → ¬ (974 ≤ a.toNat ∧ a.toNat < 994) →
        ¬ (0x5D0 ≤ a.toNat ∧ a.toNat < 0x5E0) → d4.mem a = c.mem a :=
    fun a g1 g2 g3 => (k4 a g2 (by omega)).trans ((k2' a g2 (by omega)).trans (k0 a g1))
  refine ⟨{ d5 with sp := 0x5E0 + 2, pc := word (d4.mem (0x5E0 + 1)) (d4.mem 0x5E0), mem := d4.mem, t := d5.t + 10 },
    ?_, ?_, ?_, hm4, ?_, K⟩
  · have r := (RunOut.before (r0.trans (.step j1 (r2.trans r3))) r4).behind (r5.trans (.step j6 (.refl _)))
    rw [decimal_out k _ n3.lt (n3.lead.imp (by omega) id), hpr] at r
    exact r
  · show word (d4.mem 0x5E1) (d4.mem 0x5E0) = _
    rw [K _ (by decide) (by decide) (by decide), K _ (by decide) (by decide) (by decide)]
  · rfl
  · show product d4.mem = _
    have q : ∀ a : U16, ¬ (974 ≤ a.toNat ∧ a.toNat < 994) → ¬ (0x5D0 ≤ a.toNat ∧ a.toNat < 0x5E0) → d4.mem a = d0.mem a :=
      fun a g1 g2 => (k4 a g1 (by omega)).trans (k2' a g1 (by omega))
    rw [← hpr]
    unfold product
    rw [q _ (by decide) (by decide), q _ (by decide) (by decide), q _ (by decide) (by decide), q _ (by decide) (by decide),
      b2, b3, b4, b5]
    unfold wide
    omega

end Z80.Routine
