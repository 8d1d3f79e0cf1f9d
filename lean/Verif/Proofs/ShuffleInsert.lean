import Verif.Proofs.ShuffleSelect

/-!
# The sorting routines of the test program

Insertion sort (`/repo/tests/shuffle/shuffle.bin` 317-398) on the specified machine. The ascending routine numbers the
elements from the first, the descending one from the last.
-/

set_option linter.unusedVariables false

namespace Z80.Routine
open Z80 Spec Spec.Shuffle
variable {w : Nat} {O R I : Type} {o : Opt} {v : Env w O R I}

/-- Address of the element with a number. -/
def vadrAsc (i : Nat) : U16 := adr i
/-- Address of the element with a number, counted from the end. -/
def vadrDesc (i : Nat) : U16 := adr (255 - i)

theorem vadrAsc_nat {i : Nat} (h : i < 256) : 716 ≤ (vadrAsc i).toNat ∧ (vadrAsc i).toNat < 972 := by
  rw [vadrAsc, adr_nat h]; omega
theorem vadrDesc_nat {i : Nat} (h : i < 256) : 716 ≤ (vadrDesc i).toNat ∧ (vadrDesc i).toNat < 972 := by
  rw [vadrDesc, adr_nat (by omega)]; omega
theorem vadrAsc_ne {i j : Nat} (hi : i < 256) (hj : j < 256) (h : i ≠ j) : vadrAsc i ≠ vadrAsc j := adr_ne hi hj h
theorem vadrDesc_ne {i j : Nat} (hi : i < 256) (hj : j < 256) (h : i ≠ j) : vadrDesc i ≠ vadrDesc j :=
  adr_ne (by omega) (by omega) (by omega)
theorem vadrAsc_next {i : Nat} (h : i < 255) : vadrAsc i + 1 = vadrAsc (i + 1) := adr_add i 1
theorem vadrDesc_next {i : Nat} (h : i < 255) : vadrDesc i - 1 = vadrDesc (i + 1) :=
  (adr_sub (j := 1) (by omega)).trans (by rw [vadrDesc]; congr 1)
theorem vadrAsc_prev {i : Nat} (h : i < 255) : vadrAsc (i + 1) - 1 = vadrAsc i := adr_sub (j := 1) (by omega)
theorem vadrDesc_prev {i : Nat} (h : i < 255) : vadrDesc (i + 1) + 1 = vadrDesc i :=
  (adr_add _ 1).trans (by rw [vadrDesc]; congr 1; omega)

theorem inc8_val (a : U8) (f : Fl) : (inc8 a f).1 = a + 1 := by
  unfold inc8 add8
  apply BitVec.eq_of_toNat_eq
  simp only [BitVec.toNat_ofNat, BitVec.toNat_add]
  rfl

theorem word_zero {n : Nat} (h : n < 256) : word 0 (BitVec.ofNat 8 n) = BitVec.ofNat 16 n := by
  unfold word
  apply BitVec.eq_of_toNat_eq
  rw [BitVec.toNat_append]
  simp only [BitVec.toNat_ofNat]
  rw [show (0 : U8).toNat = 0 from rfl, Nat.zero_shiftLeft, Nat.zero_or]
  omega

theorem push_top2 (m : U16 → U8) (sp x : U16) (h : sp = 0x5DE) :
    word (push m sp x 0x5DD) (push m sp x 0x5DC) = x := by
  subst h
  have h1 : push m 0x5DE x 0x5DD = hi8 x := by
    rw [push_eq]; exact (put_other _ _ (by decide)).trans (put_same _ _ _)
  have h2 : push m 0x5DE x 0x5DC = lo8 x := by rw [push_eq]; exact put_same _ _ _
  rw [h1, h2, word_hi8_lo8]

theorem push_top3 (m : U16 → U8) (x y : U16) :
    word (push (push m 0x5E0 x) 0x5DE y 0x5DF) (push (push m 0x5E0 x) 0x5DE y 0x5DE) = x := by
  have h : ∀ z : U16, z ≠ 0x5DD → z ≠ 0x5DC → push (push m 0x5E0 x) 0x5DE y z = push m 0x5E0 x z := by
    intro z h1 h2
    rw [push_eq _ 0x5DE]; exact (put_other _ _ h2).trans (put_other _ _ h1)
  rw [h _ (by decide) (by decide), h _ (by decide) (by decide)]
  exact push_top m x

/-- The most T-states for the last `n` elements. -/
def insCost : Nat → Nat
  | 0 => 0
  | n + 1 => insCost n + (123 + 45 * (255 - n))

theorem insCost_succ (n : Nat) : insCost (n + 1) = insCost n + (123 + 45 * (255 - n)) := rfl

theorem insCost_all : insCost (254 + 1) = 1500165 := by decide +kernel

/-- Nothing has changed but the array. -/
def Held (m m' : U16 → U8) : Prop := ∀ a, ¬ (716 ≤ a.toNat ∧ a.toNat < 972) → m' a = m a

theorem Held.trans {a b c : U16 → U8} (h : Held a b) (g : Held b c) : Held a c := fun x h1 => (g x h1).trans (h x h1)

/-- An element moved to a place before it, and those between moved up. -/
structure Inserted (V : Nat → U16) (m m' : U16 → U8) (p k : Nat) : Prop where
  place : m' (V p) = m (V k)
  moved : ∀ i, p < i → i ≤ k → m' (V i) = m (V (i - 1))
  rest : ∀ i, i < 256 → i < p ∨ k < i → m' (V i) = m (V i)

/-- As `Rearranged`, with the given addresses. -/
def Reordered (V : Nat → U16) (m m' : U16 → U8) : Prop :=
  ∃ p q : Nat → Nat, (∀ i, i < 256 → p i < 256 ∧ q (p i) = i) ∧ (∀ i, i < 256 → q i < 256 ∧ p (q i) = i) ∧
    ∀ i, i < 256 → m' (V i) = m (V (p i))

theorem Reordered.refl (V : Nat → U16) (m : U16 → U8) : Reordered V m m :=
  ⟨id, id, fun _ h => ⟨h, rfl⟩, fun _ h => ⟨h, rfl⟩, fun _ _ => rfl⟩

theorem Reordered.trans {V : Nat → U16} {a b c : U16 → U8} (h : Reordered V a b) (g : Reordered V b c) :
    Reordered V a c := by
  obtain ⟨p, q, hp, hq, h⟩ := h
  obtain ⟨r, s, hr, hs, g⟩ := g
  refine ⟨p ∘ r, s ∘ q, fun i hi => ⟨(hp _ (hr i hi).1).1, ?_⟩, fun i hi => ⟨(hs _ (hq i hi).1).1, ?_⟩, fun i hi => ?_⟩
  · show s (q (p (r i))) = i
    rw [(hp _ (hr i hi).1).2, (hr i hi).2]
  · show p (r (s (q i))) = i
    rw [(hs _ (hq i hi).1).2, (hq i hi).2]
  · rw [g i hi, h _ (hr i hi).1]; rfl

theorem Inserted.reordered {V : Nat → U16} {m m' : U16 → U8} {p k : Nat} (h : Inserted V m m' p k) (hp : p ≤ k)
    (hk : k < 256) : Reordered V m m' := by
  refine ⟨fun i => if i = p then k else if p < i ∧ i ≤ k then i - 1 else i,
    fun i => if i = k then p else if p ≤ i ∧ i < k then i + 1 else i, ?_, ?_, ?_⟩
  · intro i hi
    dsimp only
    by_cases h1 : i = p
    · subst h1; simp only [if_true]; exact ⟨hk, trivial⟩
    · by_cases h2 : p < i ∧ i ≤ k
      · rw [if_neg h1, if_pos h2]
        refine ⟨by omega, ?_⟩
        rw [if_neg (by omega), if_pos (by omega)]
        omega
      · rw [if_neg h1, if_neg h2]
        refine ⟨hi, ?_⟩
        rw [if_neg (by omega), if_neg (by omega)]
  · intro i hi
    dsimp only
    by_cases h1 : i = k
    · subst h1; simp only [if_true]; exact ⟨by omega, trivial⟩
    · by_cases h2 : p ≤ i ∧ i < k
      · rw [if_neg h1, if_pos h2]
        refine ⟨by omega, ?_⟩
        rw [if_neg (by omega), if_pos (by omega)]
        omega
      · rw [if_neg h1, if_neg h2]
        refine ⟨hi, ?_⟩
        rw [if_neg (by omega), if_neg (by omega)]
  · intro i hi
    dsimp only
    by_cases h1 : i = p
    · subst h1; rw [if_pos rfl]; exact h.place
    · by_cases h2 : p < i ∧ i ≤ k
      · rw [if_neg h1, if_pos h2]; exact h.moved i h2.1 h2.2
      · rw [if_neg h1, if_neg h2]; exact h.rest i hi (by omega)

theorem rearrangedAsc {m m' : U16 → U8} (h : Reordered vadrAsc m m') : Rearranged m m' := h
theorem rearrangedDesc {m m' : U16 → U8} (h : Reordered vadrDesc m m') : Rearranged m m' := by
  obtain ⟨p, q, hp, hq, h⟩ := h
  refine ⟨fun i => 255 - p (255 - i), fun i => 255 - q (255 - i), ?_, ?_, ?_⟩
  · intro i hi
    have := hp (255 - i) (by omega)
    dsimp only
    rw [show 255 - (255 - p (255 - i)) = p (255 - i) by omega, this.2]
    omega
  · intro i hi
    have := hq (255 - i) (by omega)
    dsimp only
    rw [show 255 - (255 - q (255 - i)) = q (255 - i) by omega, this.2]
    omega
  · intro i hi
    have := h (255 - i) (by omega)
    rw [vadrDesc, vadrDesc, show 255 - (255 - i) = i by omega] at this
    exact this

/-- The first elements are in order. -/
def Sorted (V : Nat → U16) (m : U16 → U8) (k : Nat) : Prop := ∀ i j, i ≤ j → j ≤ k → (m (V i)).toNat ≤ (m (V j)).toNat

theorem Inserted.sorted {V : Nat → U16} {m m' : U16 → U8} {p k : Nat} (h : Inserted V m m' p (k + 1)) (hs : Sorted V m k)
    (hk : k < 255) (hp : p ≤ k) (h1 : ∀ i, p ≤ i → i ≤ k → (m (V (k + 1))).toNat < (m (V i)).toNat)
    (h2 : p = 0 ∨ (m (V (p - 1))).toNat ≤ (m (V (k + 1))).toNat) : Sorted V m' (k + 1) := by
  have low : ∀ i, i < p → (m (V i)).toNat ≤ (m (V (k + 1))).toNat := by
    intro i hi
    rcases h2 with h2 | h2
    · omega
    · exact Nat.le_trans (hs i (p - 1) (by omega) (by omega)) h2
  intro i j hij hj
  rcases Nat.lt_trichotomy j p with hjp | hjp | hjp
  · rw [h.rest i (by omega) (by omega), h.rest j (by omega) (by omega)]
    exact hs i j hij (by omega)
  · subst hjp
    rw [h.place]
    rcases Nat.lt_or_ge i j with hi | hi
    · rw [h.rest i (by omega) (by omega)]; exact low i hi
    · obtain rfl : i = j := by omega
      rw [h.place]
  · rw [h.moved j hjp hj]
    rcases Nat.lt_trichotomy i p with hi | hi | hi
    · rw [h.rest i (by omega) (by omega)]
      exact hs i (j - 1) (by omega) (by omega)
    · subst hi
      rw [h.place]
      exact Nat.le_of_lt (h1 (j - 1) (by omega) (by omega))
    · rw [h.moved i hi (by omega)]
      exact hs (i - 1) (j - 1) (by omega) (by omega)

theorem ascendingOf {m : U16 → U8} (h : Sorted vadrAsc m 255) : Ascending m := fun i j h1 h2 => h i j h1 (by omega)
theorem descendingOf {m : U16 → U8} (h : Sorted vadrDesc m 255) : Descending m := by
  intro i j h1 h2
  have := h (255 - j) (255 - i) (by omega) (by omega)
  rw [vadrDesc, vadrDesc, show 255 - (255 - i) = i by omega, show 255 - (255 - j) = j by omega] at this
  exact this

/-! ### Ascending -/

/-- One element moved: from 0x158. -/
theorem insAsc1 {j : Nat} (hj : j + 1 < 256) {c : Core} (hm : Loaded c.mem) (hp : c.pc = 0x158)
    (hbc : word c.b c.c = BitVec.ofNat 16 (j + 1)) (hde : word c.d c.e = vadrAsc (j + 1)) (hhl : word c.h c.l = vadrAsc j)
    (hl1 : Loaded (put c.mem (vadrAsc (j + 1)) (c.mem (vadrAsc j)))) :
    ∃ d : Core, Run o v c d ∧ d.a = c.a ∧ d.sp = c.sp ∧ d.mem = put c.mem (vadrAsc (j + 1)) (c.mem (vadrAsc j)) ∧
      word d.d d.e = vadrAsc j ∧
      (j = 0 ∧ d.pc = 0x160 ∧ d.t = c.t + 26 ∨
       1 ≤ j ∧ c.a.toNat < (c.mem (vadrAsc (j - 1))).toNat ∧ d.pc = 0x158 ∧ word d.b d.c = BitVec.ofNat 16 j ∧
         word d.h d.l = vadrAsc (j - 1) ∧ d.t = c.t + 45 ∨
       1 ≤ j ∧ (c.mem (vadrAsc (j - 1))).toNat ≤ c.a.toNat ∧ d.pc = 0x160 ∧ d.t = c.t + 40) := by
  obtain ⟨a, f, b, c, d, e, h, l, a', f', b', c', d', e', h', l', sp, pc, m, t⟩ := c
  simp only at hm hp hbc hde hhl hl1 ⊢
  subst hp
  have hd : ∀ x : U16, x = vadrAsc (j + 1) - 1 → word (hi8 x) (lo8 x) = vadrAsc j := fun x e => by
    rw [word_hi8_lo8, e]; exact vadrAsc_prev (by omega)
  rcases Nat.eq_zero_or_pos j with rfl | hj0
  · refine ⟨?_, ?_, ?_⟩
    rotate_left
    · exec ldd hm two
      rw [hbc, hde, hhl]
      exec jpPo hl1 arg16 0x160 if (show (!decide (BitVec.ofNat 16 (0 + 1) - 1 ≠ (0 : U16))) = true by decide)
      exact .refl _
    · exact ⟨rfl, rfl, rfl, hd _ rfl, .inl ⟨rfl, rfl, rfl⟩⟩
  · have hnz : BitVec.ofNat 16 (j + 1) - 1 ≠ (0 : U16) := by simp only [BitVec.ofNat_eq_ofNat]; bv_omega
    have hprev : vadrAsc j - 1 = vadrAsc (j - 1) := by
      have := vadrAsc_prev (i := j - 1) (by omega)
      rw [Nat.sub_add_cancel hj0] at this
      exact this
    have hsame : put m (vadrAsc (j + 1)) (m (vadrAsc j)) (vadrAsc (j - 1)) = m (vadrAsc (j - 1)) :=
      put_other _ _ (vadrAsc_ne (by omega) hj (by omega))
    have hpv : ¬ ((!decide (BitVec.ofNat 16 (j + 1) - 1 ≠ (0 : U16))) = true) := by
      rw [decide_eq_true hnz]; decide
    by_cases hc : a.toNat < (m (vadrAsc (j - 1))).toNat
    · refine ⟨?_, ?_, ?_⟩
      rotate_left
      · exec ldd hm two
        rw [hbc, hde, hhl]
        exec jpPoNot hl1 if hpv
        exec cpM hl1
        rw [hprev, hsame]
        exec jrC hl1 goto 0x158 rel 0xF8 if (by rw [cp8_c]; exact decide_eq_true hc)
        exact .refl _
      · refine ⟨rfl, rfl, rfl, hd _ rfl, .inr (.inl ⟨hj0, hc, rfl, ?_, ?_, rfl⟩)⟩
        · dsimp only
          rw [word_hi8_lo8]; simp only [BitVec.ofNat_eq_ofNat]; bv_omega
        · exact word_hi8_lo8 _
    · refine ⟨?_, ?_, ?_⟩
      rotate_left
      · exec ldd hm two
        rw [hbc, hde, hhl]
        exec jpPoNot hl1 if hpv
        exec cpM hl1
        rw [hprev, hsame]
        exec jrCNot hl1 if (by rw [cp8_c]; simp only [decide_eq_true_eq]; exact hc)
        exact .refl _
      · exact ⟨rfl, rfl, rfl, hd _ rfl, .inr (.inr ⟨hj0, by omega, rfl, rfl⟩)⟩

/-- Moving greater elements up: 0x158 to 0x160. -/
theorem insAscMove (j : Nat) : 1 ≤ j → j < 256 → ∀ {c : Core}, Loaded c.mem → c.pc = 0x158 →
    word c.b c.c = BitVec.ofNat 16 j → word c.d c.e = vadrAsc j → word c.h c.l = vadrAsc (j - 1) →
    c.a.toNat < (c.mem (vadrAsc (j - 1))).toNat →
    ∃ (d : Core) (p : Nat), Run o v c d ∧ d.pc = 0x160 ∧ d.a = c.a ∧ d.sp = c.sp ∧ Loaded d.mem ∧ Held c.mem d.mem ∧
      word d.d d.e = vadrAsc p ∧ p < j ∧ (∀ i, p ≤ i → i < j → c.a.toNat < (c.mem (vadrAsc i)).toNat) ∧
      (p = 0 ∨ (c.mem (vadrAsc (p - 1))).toNat ≤ c.a.toNat) ∧
      (∀ i, p < i → i ≤ j → d.mem (vadrAsc i) = c.mem (vadrAsc (i - 1))) ∧
      (∀ i, i < 256 → i ≤ p ∨ j < i → d.mem (vadrAsc i) = c.mem (vadrAsc i)) ∧
      d.t ≤ c.t + 45 * j ∧ c.t + 26 ≤ d.t := by
  induction j with
  | zero => intro h; omega
  | succ j ih =>
    intro _ hj c hm hp hbc hde hhl hgt
    rw [Nat.add_sub_cancel] at hhl hgt
    have hr := vadrAsc_nat hj
    have hl1 : Loaded (put c.mem (vadrAsc (j + 1)) (c.mem (vadrAsc j))) := loaded_put hm _ (by omega)
    have hk1 : Held c.mem (put c.mem (vadrAsc (j + 1)) (c.mem (vadrAsc j))) := by
      intro a g1
      exact put_other _ _ fun e => g1 (by rw [e]; exact hr)
    have same : ∀ i, i < 256 → i ≠ j + 1 → put c.mem (vadrAsc (j + 1)) (c.mem (vadrAsc j)) (vadrAsc i) = c.mem (vadrAsc i) :=
      fun i hi h => put_other _ _ (vadrAsc_ne hi hj h)
    obtain ⟨d, r1, da, ds, dm, dde, dd⟩ := insAsc1 (o := o) (v := v) hj hm hp hbc hde hhl hl1
    rcases dd with ⟨rfl, dp, dt⟩ | ⟨hj0, hc, dp, dbc, dhl, dt⟩ | ⟨hj0, hc, dp, dt⟩
    · refine ⟨d, 0, r1, dp, da, ds, dm ▸ hl1, dm ▸ hk1, dde, by omega, ?_, .inl rfl, ?_, ?_, by omega, by omega⟩
      · intro i h1 h2
        obtain rfl : i = 0 := by omega
        exact hgt
      · intro i h1 h2
        obtain rfl : i = 1 := by omega
        rw [dm]
        exact put_same _ _ _
      · intro i h1 h2
        rw [dm]
        exact same i h1 (by omega)
    · obtain ⟨g, p, r2, gp, ga, gs, gl, gk, gd, hpj, g1, g2, g3, g4, gt1, gt2⟩ := ih hj0 (by omega) (c := d)
        (by rw [dm]; exact hl1) dp dbc dde dhl (by rw [da, dm, same _ (by omega) (by omega)]; exact hc)
      rw [dm, da] at g1 g2
      rw [dm] at g3 g4 gk
      refine ⟨g, p, r1.trans r2, gp, ga.trans da, gs.trans ds, gl, hk1.trans gk, gd, by omega, ?_, ?_, ?_, ?_,
        by omega, by omega⟩
      · intro i h1 h2
        rcases Nat.lt_or_ge i j with h3 | h3
        · have := g1 i h1 h3
          rw [same i (by omega) (by omega)] at this
          exact this
        · obtain rfl : i = j := by omega
          exact hgt
      · rcases g2 with g2 | g2
        · exact .inl g2
        · rw [same _ (by omega) (by omega)] at g2
          exact .inr g2
      · intro i h1 h2
        rcases Nat.lt_or_ge j i with h3 | h3
        · obtain rfl : i = j + 1 := by omega
          rw [g4 _ hj (by omega)]
          exact put_same _ _ _
        · rw [g3 i h1 h3, same _ (by omega) (by omega)]
      · intro i h1 h2
        rw [g4 i h1 (by omega), same i h1 (by omega)]
    · refine ⟨d, j, r1, dp, da, ds, dm ▸ hl1, dm ▸ hk1, dde, by omega, ?_, .inr (by omega), ?_, ?_, by omega, by omega⟩
      · intro i h1 h2
        obtain rfl : i = j := by omega
        exact hgt
      · intro i h1 h2
        obtain rfl : i = j + 1 := by omega
        rw [dm]
        exact put_same _ _ _
      · intro i h1 h2
        rw [dm]
        exact same i h1 (by omega)

/-- An element not less than the one before: from 0x147 to 0x14E. -/
theorem insAsc2 {x : U16} {c : Core} (hm : Loaded c.mem) (hp : c.pc = 0x147) (hx : word c.h c.l = x)
    (hc : c.e.toNat ≤ (c.mem (x + 1)).toNat) :
    ∃ d : Core, Run o v c d ∧ d.pc = 0x14E ∧ d.mem = c.mem ∧ d.sp = c.sp ∧ d.b = c.b ∧ d.c = c.c + 1 ∧
      d.e = c.mem (x + 1) ∧ word d.h d.l = x + 1 ∧ d.t = c.t + 32 := by
  obtain ⟨a, f, b, c, d, e, h, l, a', f', b', c', d', e', h', l', sp, pc, m, t⟩ := c
  simp only at hm hp hx hc ⊢
  subst hp hx
  refine ⟨?_, ?_, ?_⟩
  rotate_left
  · exec incHl hm
    exec incC hm
    exec ldAM hm
    exec cpE hm
    exec jrCNot hm if (by rw [cp8_c]; simp only [decide_eq_true_eq]; omega)
    exec ldEA hm
    exact .refl _
  · exact ⟨rfl, rfl, rfl, rfl, inc8_val c f, rfl, word_hi8_lo8 _, rfl⟩

/-- An element less than the one before: from 0x147 to 0x158. -/
theorem insAsc3 {x : U16} {c : Core} (hm : Loaded c.mem) (hp : c.pc = 0x147) (hx : word c.h c.l = x)
    (hs : c.sp = 0x5E0) (hc : (c.mem (x + 1)).toNat < c.e.toNat) :
    ∃ d : Core, Run o v c d ∧ d.pc = 0x158 ∧ d.mem = push (push c.mem 0x5E0 (word c.b (c.c + 1))) 0x5DE (x + 1) ∧
      d.sp = 0x5DC ∧ d.b = 0 ∧ d.c = c.c + 1 ∧ d.a = c.mem (x + 1) ∧ word d.d d.e = x + 1 ∧
      word d.h d.l = x + 1 - 1 ∧ d.t = c.t + 76 := by
  obtain ⟨a, f, b, c, d, e, h, l, a', f', b', c', d', e', h', l', sp, pc, m, t⟩ := c
  simp only at hm hp hx hs hc ⊢
  subst hp hx hs
  refine ⟨?_, ?_, ?_⟩
  rotate_left
  · exec incHl hm
    exec incC hm
    exec ldAM hm
    exec cpE hm
    exec jrC hm goto 0x151 rel 4 if (by rw [cp8_c]; exact decide_eq_true hc)
    rw [inc8_val]
    exec pushBc hm
    have hm1 := loaded_push hm (sp := 0x5E0) (word b (c + 1)) (by decide)
    exec pushHl hm1
    have hm2 := loaded_push hm1 (sp := 1502#16) (word h l + 1) (by decide)
    exec ldEL hm2
    exec ldDH hm2
    exec decHl hm2
    exec ldBN hm2 arg8 0
    exact .refl _
  · exact ⟨rfl, rfl, rfl, rfl, rfl, rfl, word_hi8_lo8 _, word_hi8_lo8 _, rfl⟩

/-- Putting the element in its place: 0x160 to 0x163. -/
theorem insAsc4 {c : Core} {x y : U16} (hm : Loaded c.mem) (hp : c.pc = 0x160) (hs : c.sp = 0x5DC)
    (hd : 716 ≤ (word c.d c.e).toNat ∧ (word c.d c.e).toNat < 972)
    (hx : word (c.mem 0x5DD) (c.mem 0x5DC) = x) (hy : word (c.mem 0x5DF) (c.mem 0x5DE) = y) :
    ∃ d : Core, Run o v c d ∧ d.pc = 0x163 ∧ d.mem = put c.mem (word c.d c.e) c.a ∧ d.sp = 0x5E0 ∧ d.b = hi8 y ∧
      d.c = lo8 y ∧ word d.h d.l = x ∧ d.t = c.t + 27 := by
  obtain ⟨a, f, b, c, d, e, h, l, a', f', b', c', d', e', h', l', sp, pc, m, t⟩ := c
  simp only at hm hp hx hs hd hy ⊢
  subst hp hs
  have hm1 := loaded_put hm a (a := word d e) (by omega)
  have ne : ∀ z : U16, 972 ≤ z.toNat → put m (word d e) a z = m z := fun z hz =>
    put_other _ _ fun e => by rw [← e] at hd; omega
  refine ⟨?_, ?_, ?_⟩
  rotate_left
  · exec ldDeA hm
    exec popHl hm1
    exec popBc hm1
    exact .refl _
  · refine ⟨rfl, rfl, rfl, ?_, ?_, ?_, rfl⟩
    · exact (ne _ (by decide)).trans (by rw [← hy, hi8_word]; rfl)
    · exact (ne _ (by decide)).trans (by rw [← hy, lo8_word]; rfl)
    · rw [← hx]
      exact congr (congrArg word (ne _ (by decide))) (ne _ (by decide))

/-- `DJNZ` at 0x14E. -/
theorem insAsc5 {c : Core} (hm : Loaded c.mem) (hp : c.pc = 0x14E) :
    Run o v c (if c.b - 1 ≠ 0 then { c with b := c.b - 1, pc := 0x147, t := c.t + 13 }
      else { c with b := c.b - 1, pc := 0x150, t := c.t + 8 }) := by
  obtain ⟨a, f, b, c, d, e, h, l, a', f', b', c', d', e', h', l', sp, pc, m, t⟩ := c
  simp only at hm hp ⊢
  subst hp
  by_cases hb : b - 1 ≠ 0
  · rw [if_pos hb]
    exec djnz hm goto 0x147 rel 0xF7 if hb
    exact .refl _
  · rw [if_neg hb]
    exec djnzNot hm if hb
    exact .refl _

/-- `DJNZ` at 0x163, and the load of the next element. -/
theorem insAsc6 {c : Core} (hm : Loaded c.mem) (hp : c.pc = 0x163) :
    Run o v c (if c.b - 1 ≠ 0 then { c with b := c.b - 1, e := c.mem (word c.h c.l), pc := 0x147, t := c.t + 20 }
      else { c with b := c.b - 1, pc := 0x165, t := c.t + 8 }) := by
  obtain ⟨a, f, b, c, d, e, h, l, a', f', b', c', d', e', h', l', sp, pc, m, t⟩ := c
  simp only at hm hp ⊢
  subst hp
  by_cases hb : b - 1 ≠ 0
  · rw [if_pos hb]
    exec djnz hm goto 0x146 rel 0xE1 if hb
    exec ldEM hm
    exact .refl _
  · rw [if_neg hb]
    exec djnzNot hm if hb
    exact .refl _

/-- One more element: either the next one follows, or the end. -/
theorem insAscStep {k : Nat} (hk : k < 255) {c : Core} (hm : Loaded c.mem) (hp : c.pc = 0x147) (hs : c.sp = 0x5E0)
    (hb : c.b = BitVec.ofNat 8 (255 - k)) (hc : c.c = BitVec.ofNat 8 k) (he : c.e = c.mem (vadrAsc k))
    (hx : word c.h c.l = vadrAsc k) (hso : Sorted vadrAsc c.mem k) :
    ∃ d : Core, Run o v c d ∧ d.sp = 0x5E0 ∧ Loaded d.mem ∧ Kept c.mem d.mem ∧ Sorted vadrAsc d.mem (k + 1) ∧
      Reordered vadrAsc c.mem d.mem ∧ d.t ≤ c.t + 123 + 45 * (k + 1) ∧
      (k < 254 ∧ d.pc = 0x147 ∧ d.b = BitVec.ofNat 8 (255 - (k + 1)) ∧ d.c = BitVec.ofNat 8 (k + 1) ∧
         d.e = d.mem (vadrAsc (k + 1)) ∧ word d.h d.l = vadrAsc (k + 1) ∧ c.t + 45 ≤ d.t ∨
       k = 254 ∧ (d.pc = 0x150 ∨ d.pc = 0x165) ∧ c.t + 40 ≤ d.t) := by
  have hnx := vadrAsc_next hk
  have hb1 : c.b - 1 = BitVec.ofNat 8 (255 - (k + 1)) := by rw [hb]; simp only [BitVec.ofNat_eq_ofNat]; bv_omega
  have hc1 : c.c + 1 = BitVec.ofNat 8 (k + 1) := by rw [hc]; simp only [BitVec.ofNat_eq_ofNat]; bv_omega
  have hz : k = 254 → ¬ c.b - 1 ≠ 0 := by rintro rfl; rw [hb1]; decide
  have hnz : k < 254 → c.b - 1 ≠ 0 := by intro h; rw [hb1]; simp only [BitVec.ofNat_eq_ofNat]; bv_omega
  by_cases hlt : (c.mem (vadrAsc (k + 1))).toNat < c.e.toNat
  · obtain ⟨d, r1, dp, dm, ds, db, dc, da, dd, dh, dt⟩ := insAsc3 (o := o) (v := v) hm hp hx hs (by rw [hnx]; exact hlt)
    rw [hnx] at dm da dd dh
    have hin : ∀ i, i < 256 → d.mem (vadrAsc i) = c.mem (vadrAsc i) := by
      intro i hi
      have := vadrAsc_nat hi
      rw [dm, push_eq, push_eq, put_other, put_other, put_other, put_other]
      all_goals (intro e; rw [e] at this; exact absurd this (by decide))
    have hl : Loaded d.mem := by
      rw [dm]; exact loaded_push (loaded_push hm _ (by decide)) _ (by decide)
    have hkd : Kept c.mem d.mem := by
      intro a g1 g2
      rw [dm, push_eq, push_eq, put_other, put_other, put_other, put_other]
      all_goals (intro e; subst e; exact g2 (by decide))
    obtain ⟨g, p, r2, gp, ga, gs, gl, gk, gd, hpj, g1, g2, g3, g4, gt1, gt2⟩ := insAscMove (o := o) (v := v) (k + 1)
      (by omega) (by omega) hl dp (by rw [db, dc, hc1]; exact word_zero (by omega)) dd
      (by rw [dh]; exact vadrAsc_prev (by omega))
      (by rw [da, Nat.add_sub_cancel, hin _ (by omega), ← he]; exact hlt)
    have top : ∀ z : U16, 1500 ≤ z.toNat → g.mem z = d.mem z := fun z hz => gk z (by omega)
    have hpn := vadrAsc_nat (i := p) (by omega)
    obtain ⟨y, r3, yp, ym, ys, yb, yc, yx, yt⟩ := insAsc4 (o := o) (v := v) (x := vadrAsc (k + 1))
      (y := word c.b (c.c + 1)) gl gp (gs.trans ds) (by rw [gd]; exact hpn)
      (by rw [top _ (by decide), top _ (by decide), dm]; exact push_top2 _ _ _ (by decide))
      (by rw [top _ (by decide), top _ (by decide), dm]; exact push_top3 _ _ _)
    rw [hi8_word] at yb
    rw [lo8_word] at yc
    rw [gd, ga, da] at ym
    have yl : Loaded y.mem := by rw [ym]; exact loaded_put gl _ (by omega)
    have hins : Inserted vadrAsc c.mem y.mem p (k + 1) := by
      refine ⟨?_, ?_, ?_⟩
      · rw [ym]; exact put_same _ _ _
      · intro i h1 h2
        rw [ym, put_other _ _ (vadrAsc_ne (by omega) (by omega) (by omega)), g3 i h1 h2, hin _ (by omega)]
      · intro i h1 h2
        rw [ym, put_other _ _ (vadrAsc_ne (by omega) (by omega) (by omega)), g4 i h1 (by omega), hin _ (by omega)]
    have hky : Kept c.mem y.mem := by
      refine hkd.trans (Kept.trans (fun a h1 _ => gk a h1) ?_)
      rw [ym]
      intro a h1 _
      exact put_other _ _ fun e => h1 (by rw [e]; exact hpn)
    have hsy : Sorted vadrAsc y.mem (k + 1) := by
      refine hins.sorted hso hk (by omega) ?_ ?_
      · intro i h1 h2
        have := g1 i h1 (by omega)
        rw [da, hin _ (by omega)] at this
        exact this
      · rcases g2 with g2 | g2
        · exact .inl g2
        · rw [da, hin _ (by omega)] at g2
          exact .inr g2
    have r4 := insAsc6 (o := o) (v := v) yl yp
    rw [yb] at r4
    rcases Nat.lt_or_ge k 254 with h | h
    · rw [if_pos (hnz h)] at r4
      refine ⟨_, ((r1.trans r2).trans r3).trans r4, ys, yl, hky, hsy, hins.reordered (by omega) (by omega), ?_,
        .inl ⟨h, rfl, hb1, yc.trans hc1, ?_, yx, ?_⟩⟩
      · show y.t + 20 ≤ _; omega
      · show y.mem (word y.h y.l) = _; rw [yx]
      · show _ ≤ y.t + 20; omega
    · rw [if_neg (hz (by omega))] at r4
      refine ⟨_, ((r1.trans r2).trans r3).trans r4, ys, yl, hky, hsy, hins.reordered (by omega) (by omega), ?_,
        .inr ⟨by omega, .inr rfl, ?_⟩⟩
      · show y.t + 8 ≤ _; omega
      · show _ ≤ y.t + 8; omega
  · obtain ⟨d, r1, dp, dm, ds, db, dc, de, dh, dt⟩ := insAsc2 (o := o) (v := v) hm hp hx (by rw [hnx]; omega)
    rw [hnx] at de dh
    have r2 := insAsc5 (o := o) (v := v) (dm ▸ hm) dp
    have hsd : Sorted vadrAsc d.mem (k + 1) := by
      rw [dm]
      intro i j h1 h2
      rcases Nat.lt_or_ge k j with h3 | h3
      · obtain rfl : j = k + 1 := by omega
        rcases Nat.lt_or_ge k i with h4 | h4
        · obtain rfl : i = k + 1 := by omega
          exact Nat.le_refl _
        · have := hso i k h4 (Nat.le_refl _)
          rw [← he] at this
          omega
      · exact hso i j h1 h3
    have hkd : Kept c.mem d.mem := by rw [dm]; exact fun _ _ _ => rfl
    have hrd : Reordered vadrAsc c.mem d.mem := by rw [dm]; exact .refl _ _
    rw [db] at r2
    rcases Nat.lt_or_ge k 254 with h | h
    · rw [if_pos (hnz h)] at r2
      refine ⟨_, r1.trans r2, ds.trans hs, dm ▸ hm, hkd, hsd, hrd, ?_, .inl ⟨h, rfl, hb1, dc.trans hc1, ?_, dh, ?_⟩⟩
      · show d.t + 13 ≤ _; omega
      · show d.e = d.mem _; rw [de, dm]
      · show _ ≤ d.t + 13; omega
    · rw [if_neg (hz (by omega))] at r2
      refine ⟨_, r1.trans r2, ds.trans hs, dm ▸ hm, hkd, hsd, hrd, ?_, .inr ⟨by omega, .inl rfl, ?_⟩⟩
      · show d.t + 8 ≤ _; omega
      · show _ ≤ d.t + 8; omega

/-- All elements. -/
theorem insAscLoop (n : Nat) : ∀ {k : Nat}, k + n = 254 → ∀ {c : Core}, Loaded c.mem → c.pc = 0x147 → c.sp = 0x5E0 →
    c.b = BitVec.ofNat 8 (255 - k) → c.c = BitVec.ofNat 8 k → c.e = c.mem (vadrAsc k) → word c.h c.l = vadrAsc k →
    Sorted vadrAsc c.mem k →
    ∃ d : Core, Run o v c d ∧ d.sp = 0x5E0 ∧ Loaded d.mem ∧ Kept c.mem d.mem ∧ Sorted vadrAsc d.mem 255 ∧
      Reordered vadrAsc c.mem d.mem ∧ d.t ≤ c.t + insCost (n + 1) ∧ c.t + 45 * n + 40 ≤ d.t ∧
      (d.pc = 0x150 ∨ d.pc = 0x165) := by
  induction n with
  | zero =>
    intro k hk c hm hp hs hb hc he hx hso
    obtain ⟨d, r, ds, dl, dk, dso, dr, dt, dd⟩ := insAscStep (o := o) (v := v) (by omega) hm hp hs hb hc he hx hso
    obtain rfl : k = 254 := by omega
    rcases dd with ⟨h, _⟩ | ⟨_, dp, dt2⟩
    · omega
    · exact ⟨d, r, ds, dl, dk, dso, dr, Nat.le_trans dt (Nat.le_of_eq (Nat.add_assoc _ 123 _)), by omega, dp⟩
  | succ n ih =>
    intro k hk c hm hp hs hb hc he hx hso
    obtain ⟨d, r, ds, dl, dk, dso, dr, dt, dd⟩ := insAscStep (o := o) (v := v) (by omega) hm hp hs hb hc he hx hso
    rcases dd with ⟨h, dp, db, dc, de, dx, dt2⟩ | ⟨h, _⟩
    · obtain ⟨g, r2, gs, gl, gk, gso, gr, gt1, gt2, gp⟩ := ih (k := k + 1) (by omega) dl dp ds db dc de dx dso
      exact ⟨g, r.trans r2, gs, gl, dk.trans gk, gso, dr.trans gr, by rw [insCost_succ]; omega, by omega, gp⟩
    · omega

/-- The routine. -/
theorem insAscAll {c : Core} (hm : Loaded c.mem) (hp : c.pc = 0x13D) (hs : c.sp = 0x5E0) :
    ∃ d : Core, Run o v c d ∧ d.pc = word (c.mem 0x5E1) (c.mem 0x5E0) ∧ d.sp = 0x5E2 ∧ Loaded d.mem ∧
      Ascending d.mem ∧ Rearranged c.mem d.mem ∧ Kept c.mem d.mem ∧ d.t ≤ c.t + 1500215 ∧ c.t + 11520 ≤ d.t := by
  have r1 : ∃ d : Core, Run o v c d ∧ d.pc = 0x147 ∧ d.mem = c.mem ∧ d.sp = c.sp ∧ d.b = 255 ∧ d.c = 0 ∧
      d.e = c.mem (vadrAsc 0) ∧ word d.h d.l = vadrAsc 0 ∧ d.t = c.t + 40 := by
    obtain ⟨a, f, b, c, d, e, h, l, a', f', b', c', d', e', h', l', sp, pc, m, t⟩ := c
    simp only at hm hp hs ⊢
    subst hp
    refine ⟨?_, ?_, ?_⟩
    rotate_left
    · exec ldHlNN hm arg16 0x2CC
      exec ldBN hm arg8 0
      exec decB hm
      exec retZNot hm if (by exact Bool.false_ne_true)
      exec ldCN hm arg8 0
      exec ldEM hm
      exact .refl _
    · exact ⟨rfl, rfl, rfl, rfl, rfl, rfl, word_hi8_lo8 _, rfl⟩
  obtain ⟨d, r1, dp, dm, ds, db, dc, de, dx, dt⟩ := r1
  obtain ⟨g, r2, gs, gl, gk, ga, gr, gt1, gt2, gp⟩ := insAscLoop (o := o) (v := v) 254 (k := 0) (by omega)
    (dm ▸ hm) dp (ds.trans hs) db dc (dm ▸ de) dx (fun i j h1 h2 => by
      obtain rfl : i = j := by omega
      exact Nat.le_refl _)
  rw [insCost_all] at gt1
  rw [dm] at gr gk
  have r3 : ∃ y : Core, Run o v g y ∧ y.pc = word (c.mem 0x5E1) (c.mem 0x5E0) ∧ y.mem = g.mem ∧ y.sp = 0x5E2 ∧
      y.t = g.t + 10 := by
    have e1 : g.mem 0x5E1 = c.mem 0x5E1 := gk _ (by decide) (by decide)
    have e2 : g.mem 0x5E0 = c.mem 0x5E0 := gk _ (by decide) (by decide)
    rw [← e1, ← e2]
    clear gt1 gt2 r2 e1 e2 gk gr ga
    obtain ⟨a, f, b, c, d, e, h, l, a', f', b', c', d', e', h', l', sp, pc, m, t⟩ := g
    simp only at gl gp gs ⊢
    subst gs
    rcases gp with gp | gp
    all_goals
      subst gp
      refine ⟨?_, ?_, ?_⟩
      rotate_left
      · exec ret gl
        exact .refl _
      · exact ⟨rfl, rfl, rfl, rfl⟩
  obtain ⟨y, r3, yp, ym, ys, yt⟩ := r3
  exact ⟨y, (r1.trans r2).trans r3, yp, ys, ym ▸ gl, ym ▸ ascendingOf ga, ym ▸ rearrangedAsc gr, ym ▸ gk,
    by omega, by omega⟩

/-! ### Descending -/

/-- One element moved: from 0x181. -/
theorem insDesc1 {j : Nat} (hj : j + 1 < 256) {c : Core} (hm : Loaded c.mem) (hp : c.pc = 0x181)
    (hbc : word c.b c.c = BitVec.ofNat 16 (j + 1)) (hde : word c.d c.e = vadrDesc (j + 1)) (hhl : word c.h c.l = vadrDesc j)
    (hl1 : Loaded (put c.mem (vadrDesc (j + 1)) (c.mem (vadrDesc j)))) :
    ∃ d : Core, Run o v c d ∧ d.a = c.a ∧ d.sp = c.sp ∧ d.mem = put c.mem (vadrDesc (j + 1)) (c.mem (vadrDesc j)) ∧
      word d.d d.e = vadrDesc j ∧
      (j = 0 ∧ d.pc = 0x189 ∧ d.t = c.t + 26 ∨
       1 ≤ j ∧ c.a.toNat < (c.mem (vadrDesc (j - 1))).toNat ∧ d.pc = 0x181 ∧ word d.b d.c = BitVec.ofNat 16 j ∧
         word d.h d.l = vadrDesc (j - 1) ∧ d.t = c.t + 45 ∨
       1 ≤ j ∧ (c.mem (vadrDesc (j - 1))).toNat ≤ c.a.toNat ∧ d.pc = 0x189 ∧ d.t = c.t + 40) := by
  obtain ⟨a, f, b, c, d, e, h, l, a', f', b', c', d', e', h', l', sp, pc, m, t⟩ := c
  simp only at hm hp hbc hde hhl hl1 ⊢
  subst hp
  have hd : ∀ x : U16, x = vadrDesc (j + 1) + 1 → word (hi8 x) (lo8 x) = vadrDesc j := fun x e => by
    rw [word_hi8_lo8, e]; exact vadrDesc_prev (by omega)
  rcases Nat.eq_zero_or_pos j with rfl | hj0
  · refine ⟨?_, ?_, ?_⟩
    rotate_left
    · exec ldi hm two
      rw [hbc, hde, hhl]
      exec jpPo hl1 arg16 0x189 if (show (!decide (BitVec.ofNat 16 (0 + 1) - 1 ≠ (0 : U16))) = true by decide)
      exact .refl _
    · exact ⟨rfl, rfl, rfl, hd _ rfl, .inl ⟨rfl, rfl, rfl⟩⟩
  · have hnz : BitVec.ofNat 16 (j + 1) - 1 ≠ (0 : U16) := by simp only [BitVec.ofNat_eq_ofNat]; bv_omega
    have hprev : vadrDesc j + 1 = vadrDesc (j - 1) := by
      have := vadrDesc_prev (i := j - 1) (by omega)
      rw [Nat.sub_add_cancel hj0] at this
      exact this
    have hsame : put m (vadrDesc (j + 1)) (m (vadrDesc j)) (vadrDesc (j - 1)) = m (vadrDesc (j - 1)) :=
      put_other _ _ (vadrDesc_ne (by omega) hj (by omega))
    have hpv : ¬ ((!decide (BitVec.ofNat 16 (j + 1) - 1 ≠ (0 : U16))) = true) := by
      rw [decide_eq_true hnz]; decide
    by_cases hc : a.toNat < (m (vadrDesc (j - 1))).toNat
    · refine ⟨?_, ?_, ?_⟩
      rotate_left
      · exec ldi hm two
        rw [hbc, hde, hhl]
        exec jpPoNot hl1 if hpv
        exec cpM hl1
        rw [hprev, hsame]
        exec jrC hl1 goto 0x181 rel 0xF8 if (by rw [cp8_c]; exact decide_eq_true hc)
        exact .refl _
      · refine ⟨rfl, rfl, rfl, hd _ rfl, .inr (.inl ⟨hj0, hc, rfl, ?_, ?_, rfl⟩)⟩
        · dsimp only
          rw [word_hi8_lo8]; simp only [BitVec.ofNat_eq_ofNat]; bv_omega
        · exact word_hi8_lo8 _
    · refine ⟨?_, ?_, ?_⟩
      rotate_left
      · exec ldi hm two
        rw [hbc, hde, hhl]
        exec jpPoNot hl1 if hpv
        exec cpM hl1
        rw [hprev, hsame]
        exec jrCNot hl1 if (by rw [cp8_c]; simp only [decide_eq_true_eq]; exact hc)
        exact .refl _
      · exact ⟨rfl, rfl, rfl, hd _ rfl, .inr (.inr ⟨hj0, by omega, rfl, rfl⟩)⟩

/-- Moving greater elements up: 0x181 to 0x189. -/
theorem insDescMove (j : Nat) : 1 ≤ j → j < 256 → ∀ {c : Core}, Loaded c.mem → c.pc = 0x181 →
    word c.b c.c = BitVec.ofNat 16 j → word c.d c.e = vadrDesc j → word c.h c.l = vadrDesc (j - 1) →
    c.a.toNat < (c.mem (vadrDesc (j - 1))).toNat →
    ∃ (d : Core) (p : Nat), Run o v c d ∧ d.pc = 0x189 ∧ d.a = c.a ∧ d.sp = c.sp ∧ Loaded d.mem ∧ Held c.mem d.mem ∧
      word d.d d.e = vadrDesc p ∧ p < j ∧ (∀ i, p ≤ i → i < j → c.a.toNat < (c.mem (vadrDesc i)).toNat) ∧
      (p = 0 ∨ (c.mem (vadrDesc (p - 1))).toNat ≤ c.a.toNat) ∧
      (∀ i, p < i → i ≤ j → d.mem (vadrDesc i) = c.mem (vadrDesc (i - 1))) ∧
      (∀ i, i < 256 → i ≤ p ∨ j < i → d.mem (vadrDesc i) = c.mem (vadrDesc i)) ∧
      d.t ≤ c.t + 45 * j ∧ c.t + 26 ≤ d.t := by
  induction j with
  | zero => intro h; omega
  | succ j ih =>
    intro _ hj c hm hp hbc hde hhl hgt
    rw [Nat.add_sub_cancel] at hhl hgt
    have hr := vadrDesc_nat hj
    have hl1 : Loaded (put c.mem (vadrDesc (j + 1)) (c.mem (vadrDesc j))) := loaded_put hm _ (by omega)
    have hk1 : Held c.mem (put c.mem (vadrDesc (j + 1)) (c.mem (vadrDesc j))) := by
      intro a g1
      exact put_other _ _ fun e => g1 (by rw [e]; exact hr)
    have same : ∀ i, i < 256 → i ≠ j + 1 → put c.mem (vadrDesc (j + 1)) (c.mem (vadrDesc j)) (vadrDesc i) = c.mem (vadrDesc i) :=
      fun i hi h => put_other _ _ (vadrDesc_ne hi hj h)
    obtain ⟨d, r1, da, ds, dm, dde, dd⟩ := insDesc1 (o := o) (v := v) hj hm hp hbc hde hhl hl1
    rcases dd with ⟨rfl, dp, dt⟩ | ⟨hj0, hc, dp, dbc, dhl, dt⟩ | ⟨hj0, hc, dp, dt⟩
    · refine ⟨d, 0, r1, dp, da, ds, dm ▸ hl1, dm ▸ hk1, dde, by omega, ?_, .inl rfl, ?_, ?_, by omega, by omega⟩
      · intro i h1 h2
        obtain rfl : i = 0 := by omega
        exact hgt
      · intro i h1 h2
        obtain rfl : i = 1 := by omega
        rw [dm]
        exact put_same _ _ _
      · intro i h1 h2
        rw [dm]
        exact same i h1 (by omega)
    · obtain ⟨g, p, r2, gp, ga, gs, gl, gk, gd, hpj, g1, g2, g3, g4, gt1, gt2⟩ := ih hj0 (by omega) (c := d)
        (by rw [dm]; exact hl1) dp dbc dde dhl (by rw [da, dm, same _ (by omega) (by omega)]; exact hc)
      rw [dm, da] at g1 g2
      rw [dm] at g3 g4 gk
      refine ⟨g, p, r1.trans r2, gp, ga.trans da, gs.trans ds, gl, hk1.trans gk, gd, by omega, ?_, ?_, ?_, ?_,
        by omega, by omega⟩
      · intro i h1 h2
        rcases Nat.lt_or_ge i j with h3 | h3
        · have := g1 i h1 h3
          rw [same i (by omega) (by omega)] at this
          exact this
        · obtain rfl : i = j := by omega
          exact hgt
      · rcases g2 with g2 | g2
        · exact .inl g2
        · rw [same _ (by omega) (by omega)] at g2
          exact .inr g2
      · intro i h1 h2
        rcases Nat.lt_or_ge j i with h3 | h3
        · obtain rfl : i = j + 1 := by omega
          rw [g4 _ hj (by omega)]
          exact put_same _ _ _
        · rw [g3 i h1 h3, same _ (by omega) (by omega)]
      · intro i h1 h2
        rw [g4 i h1 (by omega), same i h1 (by omega)]
    · refine ⟨d, j, r1, dp, da, ds, dm ▸ hl1, dm ▸ hk1, dde, by omega, ?_, .inr (by omega), ?_, ?_, by omega, by omega⟩
      · intro i h1 h2
        obtain rfl : i = j := by omega
        exact hgt
      · intro i h1 h2
        obtain rfl : i = j + 1 := by omega
        rw [dm]
        exact put_same _ _ _
      · intro i h1 h2
        rw [dm]
        exact same i h1 (by omega)

/-- An element not less than the one before: from 0x170 to 0x177. -/
theorem insDesc2 {x : U16} {c : Core} (hm : Loaded c.mem) (hp : c.pc = 0x170) (hx : word c.h c.l = x)
    (hc : c.e.toNat ≤ (c.mem (x - 1)).toNat) :
    ∃ d : Core, Run o v c d ∧ d.pc = 0x177 ∧ d.mem = c.mem ∧ d.sp = c.sp ∧ d.b = c.b ∧ d.c = c.c + 1 ∧
      d.e = c.mem (x - 1) ∧ word d.h d.l = x - 1 ∧ d.t = c.t + 32 := by
  obtain ⟨a, f, b, c, d, e, h, l, a', f', b', c', d', e', h', l', sp, pc, m, t⟩ := c
  simp only at hm hp hx hc ⊢
  subst hp hx
  refine ⟨?_, ?_, ?_⟩
  rotate_left
  · exec decHl hm
    exec incC hm
    exec ldAM hm
    exec cpE hm
    exec jrCNot hm if (by rw [cp8_c]; simp only [decide_eq_true_eq]; omega)
    exec ldEA hm
    exact .refl _
  · exact ⟨rfl, rfl, rfl, rfl, inc8_val c f, rfl, word_hi8_lo8 _, rfl⟩

/-- An element less than the one before: from 0x170 to 0x181. -/
theorem insDesc3 {x : U16} {c : Core} (hm : Loaded c.mem) (hp : c.pc = 0x170) (hx : word c.h c.l = x)
    (hs : c.sp = 0x5E0) (hc : (c.mem (x - 1)).toNat < c.e.toNat) :
    ∃ d : Core, Run o v c d ∧ d.pc = 0x181 ∧ d.mem = push (push c.mem 0x5E0 (word c.b (c.c + 1))) 0x5DE (x - 1) ∧
      d.sp = 0x5DC ∧ d.b = 0 ∧ d.c = c.c + 1 ∧ d.a = c.mem (x - 1) ∧ word d.d d.e = x - 1 ∧
      word d.h d.l = x - 1 + 1 ∧ d.t = c.t + 76 := by
  obtain ⟨a, f, b, c, d, e, h, l, a', f', b', c', d', e', h', l', sp, pc, m, t⟩ := c
  simp only at hm hp hx hs hc ⊢
  subst hp hx hs
  refine ⟨?_, ?_, ?_⟩
  rotate_left
  · exec decHl hm
    exec incC hm
    exec ldAM hm
    exec cpE hm
    exec jrC hm goto 0x17A rel 4 if (by rw [cp8_c]; exact decide_eq_true hc)
    rw [inc8_val]
    exec pushBc hm
    have hm1 := loaded_push hm (sp := 0x5E0) (word b (c + 1)) (by decide)
    exec pushHl hm1
    have hm2 := loaded_push hm1 (sp := 1502#16) (word h l - 1) (by decide)
    exec ldEL hm2
    exec ldDH hm2
    exec incHl hm2
    exec ldBN hm2 arg8 0
    exact .refl _
  · exact ⟨rfl, rfl, rfl, rfl, rfl, rfl, word_hi8_lo8 _, word_hi8_lo8 _, rfl⟩

/-- Putting the element in its place: 0x189 to 0x18C. -/
theorem insDesc4 {c : Core} {x y : U16} (hm : Loaded c.mem) (hp : c.pc = 0x189) (hs : c.sp = 0x5DC)
    (hd : 716 ≤ (word c.d c.e).toNat ∧ (word c.d c.e).toNat < 972)
    (hx : word (c.mem 0x5DD) (c.mem 0x5DC) = x) (hy : word (c.mem 0x5DF) (c.mem 0x5DE) = y) :
    ∃ d : Core, Run o v c d ∧ d.pc = 0x18C ∧ d.mem = put c.mem (word c.d c.e) c.a ∧ d.sp = 0x5E0 ∧ d.b = hi8 y ∧
      d.c = lo8 y ∧ word d.h d.l = x ∧ d.t = c.t + 27 := by
  obtain ⟨a, f, b, c, d, e, h, l, a', f', b', c', d', e', h', l', sp, pc, m, t⟩ := c
  simp only at hm hp hx hs hd hy ⊢
  subst hp hs
  have hm1 := loaded_put hm a (a := word d e) (by omega)
  have ne : ∀ z : U16, 972 ≤ z.toNat → put m (word d e) a z = m z := fun z hz =>
    put_other _ _ fun e => by rw [← e] at hd; omega
  refine ⟨?_, ?_, ?_⟩
  rotate_left
  · exec ldDeA hm
    exec popHl hm1
    exec popBc hm1
    exact .refl _
  · refine ⟨rfl, rfl, rfl, ?_, ?_, ?_, rfl⟩
    · exact (ne _ (by decide)).trans (by rw [← hy, hi8_word]; rfl)
    · exact (ne _ (by decide)).trans (by rw [← hy, lo8_word]; rfl)
    · rw [← hx]
      exact congr (congrArg word (ne _ (by decide))) (ne _ (by decide))

/-- `DJNZ` at 0x177. -/
theorem insDesc5 {c : Core} (hm : Loaded c.mem) (hp : c.pc = 0x177) :
    Run o v c (if c.b - 1 ≠ 0 then { c with b := c.b - 1, pc := 0x170, t := c.t + 13 }
      else { c with b := c.b - 1, pc := 0x179, t := c.t + 8 }) := by
  obtain ⟨a, f, b, c, d, e, h, l, a', f', b', c', d', e', h', l', sp, pc, m, t⟩ := c
  simp only at hm hp ⊢
  subst hp
  by_cases hb : b - 1 ≠ 0
  · rw [if_pos hb]
    exec djnz hm goto 0x170 rel 0xF7 if hb
    exact .refl _
  · rw [if_neg hb]
    exec djnzNot hm if hb
    exact .refl _

/-- `DJNZ` at 0x18C, and the load of the next element. -/
theorem insDesc6 {c : Core} (hm : Loaded c.mem) (hp : c.pc = 0x18C) :
    Run o v c (if c.b - 1 ≠ 0 then { c with b := c.b - 1, e := c.mem (word c.h c.l), pc := 0x170, t := c.t + 20 }
      else { c with b := c.b - 1, pc := 0x18E, t := c.t + 8 }) := by
  obtain ⟨a, f, b, c, d, e, h, l, a', f', b', c', d', e', h', l', sp, pc, m, t⟩ := c
  simp only at hm hp ⊢
  subst hp
  by_cases hb : b - 1 ≠ 0
  · rw [if_pos hb]
    exec djnz hm goto 0x16F rel 0xE1 if hb
    exec ldEM hm
    exact .refl _
  · rw [if_neg hb]
    exec djnzNot hm if hb
    exact .refl _

/-- One more element: either the next one follows, or the end. -/
theorem insDescStep {k : Nat} (hk : k < 255) {c : Core} (hm : Loaded c.mem) (hp : c.pc = 0x170) (hs : c.sp = 0x5E0)
    (hb : c.b = BitVec.ofNat 8 (255 - k)) (hc : c.c = BitVec.ofNat 8 k) (he : c.e = c.mem (vadrDesc k))
    (hx : word c.h c.l = vadrDesc k) (hso : Sorted vadrDesc c.mem k) :
    ∃ d : Core, Run o v c d ∧ d.sp = 0x5E0 ∧ Loaded d.mem ∧ Kept c.mem d.mem ∧ Sorted vadrDesc d.mem (k + 1) ∧
      Reordered vadrDesc c.mem d.mem ∧ d.t ≤ c.t + 123 + 45 * (k + 1) ∧
      (k < 254 ∧ d.pc = 0x170 ∧ d.b = BitVec.ofNat 8 (255 - (k + 1)) ∧ d.c = BitVec.ofNat 8 (k + 1) ∧
         d.e = d.mem (vadrDesc (k + 1)) ∧ word d.h d.l = vadrDesc (k + 1) ∧ c.t + 45 ≤ d.t ∨
       k = 254 ∧ (d.pc = 0x179 ∨ d.pc = 0x18E) ∧ c.t + 40 ≤ d.t) := by
  have hnx := vadrDesc_next hk
  have hb1 : c.b - 1 = BitVec.ofNat 8 (255 - (k + 1)) := by rw [hb]; simp only [BitVec.ofNat_eq_ofNat]; bv_omega
  have hc1 : c.c + 1 = BitVec.ofNat 8 (k + 1) := by rw [hc]; simp only [BitVec.ofNat_eq_ofNat]; bv_omega
  have hz : k = 254 → ¬ c.b - 1 ≠ 0 := by rintro rfl; rw [hb1]; decide
  have hnz : k < 254 → c.b - 1 ≠ 0 := by intro h; rw [hb1]; simp only [BitVec.ofNat_eq_ofNat]; bv_omega
  by_cases hlt : (c.mem (vadrDesc (k + 1))).toNat < c.e.toNat
  · obtain ⟨d, r1, dp, dm, ds, db, dc, da, dd, dh, dt⟩ := insDesc3 (o := o) (v := v) hm hp hx hs (by rw [hnx]; exact hlt)
    rw [hnx] at dm da dd dh
    have hin : ∀ i, i < 256 → d.mem (vadrDesc i) = c.mem (vadrDesc i) := by
      intro i hi
      have := vadrDesc_nat hi
      rw [dm, push_eq, push_eq, put_other, put_other, put_other, put_other]
      all_goals (intro e; rw [e] at this; exact absurd this (by decide))
    have hl : Loaded d.mem := by
      rw [dm]; exact loaded_push (loaded_push hm _ (by decide)) _ (by decide)
    have hkd : Kept c.mem d.mem := by
      intro a g1 g2
      rw [dm, push_eq, push_eq, put_other, put_other, put_other, put_other]
      all_goals (intro e; subst e; exact g2 (by decide))
    obtain ⟨g, p, r2, gp, ga, gs, gl, gk, gd, hpj, g1, g2, g3, g4, gt1, gt2⟩ := insDescMove (o := o) (v := v) (k + 1)
      (by omega) (by omega) hl dp (by rw [db, dc, hc1]; exact word_zero (by omega)) dd
      (by rw [dh]; exact vadrDesc_prev (by omega))
      (by rw [da, Nat.add_sub_cancel, hin _ (by omega), ← he]; exact hlt)
    have top : ∀ z : U16, 1500 ≤ z.toNat → g.mem z = d.mem z := fun z hz => gk z (by omega)
    have hpn := vadrDesc_nat (i := p) (by omega)
    obtain ⟨y, r3, yp, ym, ys, yb, yc, yx, yt⟩ := insDesc4 (o := o) (v := v) (x := vadrDesc (k + 1))
      (y := word c.b (c.c + 1)) gl gp (gs.trans ds) (by rw [gd]; exact hpn)
      (by rw [top _ (by decide), top _ (by decide), dm]; exact push_top2 _ _ _ (by decide))
      (by rw [top _ (by decide), top _ (by decide), dm]; exact push_top3 _ _ _)
    rw [hi8_word] at yb
    rw [lo8_word] at yc
    rw [gd, ga, da] at ym
    have yl : Loaded y.mem := by rw [ym]; exact loaded_put gl _ (by omega)
    have hins : Inserted vadrDesc c.mem y.mem p (k + 1) := by
      refine ⟨?_, ?_, ?_⟩
      · rw [ym]; exact put_same _ _ _
      · intro i h1 h2
        rw [ym, put_other _ _ (vadrDesc_ne (by omega) (by omega) (by omega)), g3 i h1 h2, hin _ (by omega)]
      · intro i h1 h2
        rw [ym, put_other _ _ (vadrDesc_ne (by omega) (by omega) (by omega)), g4 i h1 (by omega), hin _ (by omega)]
    have hky : Kept c.mem y.mem := by
      refine hkd.trans (Kept.trans (fun a h1 _ => gk a h1) ?_)
      rw [ym]
      intro a h1 _
      exact put_other _ _ fun e => h1 (by rw [e]; exact hpn)
    have hsy : Sorted vadrDesc y.mem (k + 1) := by
      refine hins.sorted hso hk (by omega) ?_ ?_
      · intro i h1 h2
        have := g1 i h1 (by omega)
        rw [da, hin _ (by omega)] at this
        exact this
      · rcases g2 with g2 | g2
        · exact .inl g2
        · rw [da, hin _ (by omega)] at g2
          exact .inr g2
    have r4 := insDesc6 (o := o) (v := v) yl yp
    rw [yb] at r4
    rcases Nat.lt_or_ge k 254 with h | h
    · rw [if_pos (hnz h)] at r4
      refine ⟨_, ((r1.trans r2).trans r3).trans r4, ys, yl, hky, hsy, hins.reordered (by omega) (by omega), ?_,
        .inl ⟨h, rfl, hb1, yc.trans hc1, ?_, yx, ?_⟩⟩
      · show y.t + 20 ≤ _; omega
      · show y.mem (word y.h y.l) = _; rw [yx]
      · show _ ≤ y.t + 20; omega
    · rw [if_neg (hz (by omega))] at r4
      refine ⟨_, ((r1.trans r2).trans r3).trans r4, ys, yl, hky, hsy, hins.reordered (by omega) (by omega), ?_,
        .inr ⟨by omega, .inr rfl, ?_⟩⟩
      · show y.t + 8 ≤ _; omega
      · show _ ≤ y.t + 8; omega
  · obtain ⟨d, r1, dp, dm, ds, db, dc, de, dh, dt⟩ := insDesc2 (o := o) (v := v) hm hp hx (by rw [hnx]; omega)
    rw [hnx] at de dh
    have r2 := insDesc5 (o := o) (v := v) (dm ▸ hm) dp
    have hsd : Sorted vadrDesc d.mem (k + 1) := by
      rw [dm]
      intro i j h1 h2
      rcases Nat.lt_or_ge k j with h3 | h3
      · obtain rfl : j = k + 1 := by omega
        rcases Nat.lt_or_ge k i with h4 | h4
        · obtain rfl : i = k + 1 := by omega
          exact Nat.le_refl _
        · have := hso i k h4 (Nat.le_refl _)
          rw [← he] at this
          omega
      · exact hso i j h1 h3
    have hkd : Kept c.mem d.mem := by rw [dm]; exact fun _ _ _ => rfl
    have hrd : Reordered vadrDesc c.mem d.mem := by rw [dm]; exact .refl _ _
    rw [db] at r2
    rcases Nat.lt_or_ge k 254 with h | h
    · rw [if_pos (hnz h)] at r2
      refine ⟨_, r1.trans r2, ds.trans hs, dm ▸ hm, hkd, hsd, hrd, ?_, .inl ⟨h, rfl, hb1, dc.trans hc1, ?_, dh, ?_⟩⟩
      · show d.t + 13 ≤ _; omega
      · show d.e = d.mem _; rw [de, dm]
      · show _ ≤ d.t + 13; omega
    · rw [if_neg (hz (by omega))] at r2
      refine ⟨_, r1.trans r2, ds.trans hs, dm ▸ hm, hkd, hsd, hrd, ?_, .inr ⟨by omega, .inl rfl, ?_⟩⟩
      · show d.t + 8 ≤ _; omega
      · show _ ≤ d.t + 8; omega

/-- All elements. -/
theorem insDescLoop (n : Nat) : ∀ {k : Nat}, k + n = 254 → ∀ {c : Core}, Loaded c.mem → c.pc = 0x170 → c.sp = 0x5E0 →
    c.b = BitVec.ofNat 8 (255 - k) → c.c = BitVec.ofNat 8 k → c.e = c.mem (vadrDesc k) → word c.h c.l = vadrDesc k →
    Sorted vadrDesc c.mem k →
    ∃ d : Core, Run o v c d ∧ d.sp = 0x5E0 ∧ Loaded d.mem ∧ Kept c.mem d.mem ∧ Sorted vadrDesc d.mem 255 ∧
      Reordered vadrDesc c.mem d.mem ∧ d.t ≤ c.t + insCost (n + 1) ∧ c.t + 45 * n + 40 ≤ d.t ∧
      (d.pc = 0x179 ∨ d.pc = 0x18E) := by
  induction n with
  | zero =>
    intro k hk c hm hp hs hb hc he hx hso
    obtain ⟨d, r, ds, dl, dk, dso, dr, dt, dd⟩ := insDescStep (o := o) (v := v) (by omega) hm hp hs hb hc he hx hso
    obtain rfl : k = 254 := by omega
    rcases dd with ⟨h, _⟩ | ⟨_, dp, dt2⟩
    · omega
    · exact ⟨d, r, ds, dl, dk, dso, dr, Nat.le_trans dt (Nat.le_of_eq (Nat.add_assoc _ 123 _)), by omega, dp⟩
  | succ n ih =>
    intro k hk c hm hp hs hb hc he hx hso
    obtain ⟨d, r, ds, dl, dk, dso, dr, dt, dd⟩ := insDescStep (o := o) (v := v) (by omega) hm hp hs hb hc he hx hso
    rcases dd with ⟨h, dp, db, dc, de, dx, dt2⟩ | ⟨h, _⟩
    · obtain ⟨g, r2, gs, gl, gk, gso, gr, gt1, gt2, gp⟩ := ih (k := k + 1) (by omega) dl dp ds db dc de dx dso
      exact ⟨g, r.trans r2, gs, gl, dk.trans gk, gso, dr.trans gr, by rw [insCost_succ]; omega, by omega, gp⟩
    · omega

/-- The routine. -/
theorem insDescAll {c : Core} (hm : Loaded c.mem) (hp : c.pc = 0x166) (hs : c.sp = 0x5E0) :
    ∃ d : Core, Run o v c d ∧ d.pc = word (c.mem 0x5E1) (c.mem 0x5E0) ∧ d.sp = 0x5E2 ∧ Loaded d.mem ∧
      Descending d.mem ∧ Rearranged c.mem d.mem ∧ Kept c.mem d.mem ∧ d.t ≤ c.t + 1500215 ∧ c.t + 11520 ≤ d.t := by
  have r1 : ∃ d : Core, Run o v c d ∧ d.pc = 0x170 ∧ d.mem = c.mem ∧ d.sp = c.sp ∧ d.b = 255 ∧ d.c = 0 ∧
      d.e = c.mem (vadrDesc 0) ∧ word d.h d.l = vadrDesc 0 ∧ d.t = c.t + 40 := by
    obtain ⟨a, f, b, c, d, e, h, l, a', f', b', c', d', e', h', l', sp, pc, m, t⟩ := c
    simp only at hm hp hs ⊢
    subst hp
    refine ⟨?_, ?_, ?_⟩
    rotate_left
    · exec ldHlNN hm arg16 0x3CB
      exec ldBN hm arg8 0
      exec decB hm
      exec retZNot hm if (by exact Bool.false_ne_true)
      exec ldCN hm arg8 0
      exec ldEM hm
      exact .refl _
    · exact ⟨rfl, rfl, rfl, rfl, rfl, rfl, word_hi8_lo8 _, rfl⟩
  obtain ⟨d, r1, dp, dm, ds, db, dc, de, dx, dt⟩ := r1
  obtain ⟨g, r2, gs, gl, gk, ga, gr, gt1, gt2, gp⟩ := insDescLoop (o := o) (v := v) 254 (k := 0) (by omega)
    (dm ▸ hm) dp (ds.trans hs) db dc (dm ▸ de) dx (fun i j h1 h2 => by
      obtain rfl : i = j := by omega
      exact Nat.le_refl _)
  rw [insCost_all] at gt1
  rw [dm] at gr gk
  have r3 : ∃ y : Core, Run o v g y ∧ y.pc = word (c.mem 0x5E1) (c.mem 0x5E0) ∧ y.mem = g.mem ∧ y.sp = 0x5E2 ∧
      y.t = g.t + 10 := by
    have e1 : g.mem 0x5E1 = c.mem 0x5E1 := gk _ (by decide) (by decide)
    have e2 : g.mem 0x5E0 = c.mem 0x5E0 := gk _ (by decide) (by decide)
    rw [← e1, ← e2]
    clear gt1 gt2 r2 e1 e2 gk gr ga
    obtain ⟨a, f, b, c, d, e, h, l, a', f', b', c', d', e', h', l', sp, pc, m, t⟩ := g
    simp only at gl gp gs ⊢
    subst gs
    rcases gp with gp | gp
    all_goals
      subst gp
      refine ⟨?_, ?_, ?_⟩
      rotate_left
      · exec ret gl
        exact .refl _
      · exact ⟨rfl, rfl, rfl, rfl⟩
  obtain ⟨y, r3, yp, ym, ys, yt⟩ := r3
  exact ⟨y, (r1.trans r2).trans r3, yp, ys, ym ▸ gl, ym ▸ descendingOf ga, ym ▸ rearrangedDesc gr, ym ▸ gk,
    by omega, by omega⟩

end Z80.Routine
