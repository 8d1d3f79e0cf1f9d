import Verif.Proofs.Routine
import Mathlib.Tactic.Ring

/-!
# The sorting routines of the test program

Selection sort (`/repo/tests/shuffle/shuffle.bin` 255-316) on the specified machine.
-/

set_option linter.unusedVariables false

namespace Z80.Routine
open Spec Spec.Shuffle
variable {w : Nat} {O R I : Type} {o : Opt} {v : Env w O R I}

theorem nextAsc (x : U16) (j : Nat) : x - 1 - BitVec.ofNat 16 j = x - BitVec.ofNat 16 (j + 1) := by
  simp only [BitVec.ofNat_eq_ofNat]; bv_omega
theorem nextDesc (x : U16) (j : Nat) : x + 1 + BitVec.ofNat 16 j = x + BitVec.ofNat 16 (j + 1) := by
  simp only [BitVec.ofNat_eq_ofNat]; bv_omega

/-! ### The array -/

/-- Address of an element. -/
def adr (i : Nat) : U16 := BitVec.ofNat 16 (716 + i)

theorem adr_nat {i : Nat} (h : i < 256) : (adr i).toNat = 716 + i := by
  rw [adr, BitVec.toNat_ofNat]; omega

theorem adr_ne {i j : Nat} (hi : i < 256) (hj : j < 256) (h : i ≠ j) : adr i ≠ adr j := by
  intro e
  have := congrArg BitVec.toNat e
  rw [adr_nat hi, adr_nat hj] at this
  omega

theorem adr_sub {p j : Nat} (h : j ≤ p) : adr p - BitVec.ofNat 16 j = adr (p - j) := by
  unfold adr; apply BitVec.eq_of_toNat_eq; rw [BitVec.toNat_sub]; simp only [BitVec.toNat_ofNat]; omega

theorem adr_add (p j : Nat) : adr p + BitVec.ofNat 16 j = adr (p + j) := by
  unfold adr; apply BitVec.eq_of_toNat_eq; rw [BitVec.toNat_add]; simp only [BitVec.toNat_ofNat]; omega

theorem elem_put {m : U16 → U8} {a : U16} (x : U8) {i : Nat} (hi : i < 256) (h : a.toNat < 716 ∨ 972 ≤ a.toNat) :
    elem (put m a x) i = elem m i := by
  unfold elem
  rw [put_other]
  intro e
  have := congrArg BitVec.toNat e
  rw [BitVec.toNat_ofNat] at this
  omega

theorem elem_push {m : U16 → U8} (x : U16) {i : Nat} (hi : i < 256) {sp : U16} (h : 974 ≤ sp.toNat) :
    elem (push m sp x) i = elem m i := by
  rw [push_eq, elem_put _ hi (.inr (by bv_omega)), elem_put _ hi (.inr (by bv_omega))]

/-- Two elements swapped. -/
structure Swapped (m m' : U16 → U8) (p q : Nat) : Prop where
  left : elem m' p = elem m q
  right : elem m' q = elem m p
  rest : ∀ i, i < 256 → i ≠ p → i ≠ q → elem m' i = elem m i

theorem swapped_put {m : U16 → U8} {p q : Nat} (hp : p < 256) (hq : q < 256) :
    Swapped m (put (put m (adr p) (m (adr q))) (adr q) (m (adr p))) p q := by
  refine ⟨?_, ?_, ?_⟩
  · unfold elem
    by_cases h : p = q
    · subst h; exact put_same _ _ _
    · exact (put_other _ _ (adr_ne hp hq h)).trans (put_same _ _ _)
  · exact put_same _ _ _
  · intro i hi h1 h2
    exact (put_other _ _ (adr_ne hi hq h2)).trans (put_other _ _ (adr_ne hi hp h1))

theorem _root_.Z80.Spec.Shuffle.Rearranged.refl (m : U16 → U8) : Rearranged m m :=
  ⟨id, id, fun _ h => ⟨h, rfl⟩, fun _ h => ⟨h, rfl⟩, fun _ _ => rfl⟩

theorem _root_.Z80.Spec.Shuffle.Rearranged.trans {a b c : U16 → U8} (h : Rearranged a b) (g : Rearranged b c) : Rearranged a c := by
  obtain ⟨p, q, hp, hq, h⟩ := h
  obtain ⟨r, s, hr, hs, g⟩ := g
  refine ⟨p ∘ r, s ∘ q, fun i hi => ⟨(hp _ (hr i hi).1).1, ?_⟩, fun i hi => ⟨(hs _ (hq i hi).1).1, ?_⟩, fun i hi => ?_⟩
  · show s (q (p (r i))) = i
    rw [(hp _ (hr i hi).1).2, (hr i hi).2]
  · show p (r (s (q i))) = i
    rw [(hs _ (hq i hi).1).2, (hq i hi).2]
  · rw [g i hi, h _ (hr i hi).1]; rfl

theorem _root_.Z80.Spec.Shuffle.Rearranged.same {a b : U16 → U8} (h : ∀ i, i < 256 → elem b i = elem a i) : Rearranged a b :=
  ⟨id, id, fun _ h => ⟨h, rfl⟩, fun _ h => ⟨h, rfl⟩, h⟩

theorem Swapped.rearranged {m m' : U16 → U8} {p q : Nat} (h : Swapped m m' p q) (hp : p < 256) (hq : q < 256) :
    Rearranged m m' := by
  let f : Nat → Nat := fun i => if i = p then q else if i = q then p else i
  have hf : ∀ i, i < 256 → f i < 256 ∧ f (f i) = i := by
    intro i hi
    simp only [f]
    by_cases h1 : i = p
    · subst h1; simp only [if_true]; refine ⟨hq, ?_⟩
      by_cases h2 : q = i
      · rw [if_pos h2, h2]
      · rw [if_neg h2]
    · by_cases h2 : i = q
      · subst h2; simp only [if_neg h1, if_true]; exact ⟨hp, trivial⟩
      · simp only [if_neg h1, if_neg h2]; exact ⟨hi, trivial⟩
  refine ⟨f, f, hf, hf, fun i hi => ?_⟩
  simp only [f]
  by_cases h1 : i = p
  · rw [if_pos h1, h1, h.left]
  · by_cases h2 : i = q
    · rw [if_neg h1, if_pos h2, h2, h.right]
    · rw [if_neg h1, if_neg h2, h.rest i hi h1 h2]

theorem Swapped.of_same {m n m' : U16 → U8} {p q : Nat} (h : Swapped n m' p q) (e : ∀ i, i < 256 → elem n i = elem m i)
    (hp : p < 256) (hq : q < 256) : Swapped m m' p q :=
  ⟨h.left.trans (e q hq), h.right.trans (e p hp), fun i hi h1 h2 => (h.rest i hi h1 h2).trans (e i hi)⟩

/-- Nothing has changed but the array and the stack below the return address. -/
def Kept (m m' : U16 → U8) : Prop :=
  ∀ a, ¬ (716 ≤ a.toNat ∧ a.toNat < 972) → ¬ (994 ≤ a.toNat ∧ a.toNat < 1504) → m' a = m a

theorem Kept.trans {a b c : U16 → U8} (h : Kept a b) (g : Kept b c) : Kept a c :=
  fun x h1 h2 => (g x h1 h2).trans (h x h1 h2)

theorem kept_put {m : U16 → U8} {i : Nat} (hi : i < 256) (x : U8) : Kept m (put m (adr i) x) := by
  intro a h1 _
  refine put_other _ _ fun e => h1 ?_
  rw [e, adr_nat hi]; omega

theorem kept_push (m : U16 → U8) (x : U16) : Kept m (push m 0x5E0 x) := by
  intro a _ h2
  rw [push_eq]
  refine (put_other _ _ ?_).trans (put_other _ _ ?_) <;> intro e <;> subst e <;> exact h2 (by decide)

theorem push_top (m : U16 → U8) (x : U16) : word (push m 0x5E0 x 0x5DF) (push m 0x5E0 x 0x5DE) = x := by
  have h1 : push m 0x5E0 x 0x5DF = hi8 x := by
    rw [push_eq]; exact (put_other _ _ (by decide)).trans (put_same _ _ _)
  have h2 : push m 0x5E0 x 0x5DE = lo8 x := by rw [push_eq]; exact put_same _ _ _
  rw [h1, h2, word_hi8_lo8]

/-! ### Selection sort, ascending -/

/-- One comparison: 0x10B to 0x112. -/
theorem selAsc1 {c : Core} {x : U16} (hm : Loaded c.mem) (hp : c.pc = 0x10B) (hx : word c.h c.l = x) :
    ∃ d : Core, Run o v c d ∧ d.pc = 0x112 ∧ d.mem = c.mem ∧ d.sp = c.sp ∧ d.b = c.b ∧ d.c = c.c ∧
      word d.h d.l = x - 1 ∧
      (d.t = c.t + 25 ∧ (c.mem (x - 1)).toNat ≤ c.a.toNat ∧ d.a = c.a ∧ word d.d d.e = word c.d c.e ∨
       d.t = c.t + 35 ∧ c.a.toNat < (c.mem (x - 1)).toNat ∧ d.a = c.mem (x - 1) ∧ word d.d d.e = x - 1) := by
  obtain ⟨a, f, b, c, d, e, h, l, a', f', b', c', d', e', h', l', sp, pc, m, t⟩ := c
  simp only at hm hp hx ⊢
  subst hp hx
  by_cases hc : a.toNat < (m (word h l - 1)).toNat
  · refine ⟨?_, ?_, ?_⟩
    rotate_left
    · exec decHl hm
      exec cpM hm
      exec jrNcNot hm if (by simp only [cp8_c, hc]; decide)
      exec ldAM hm
      exec ldEL hm
      exec ldDH hm
      exact .refl _
    · refine ⟨rfl, rfl, rfl, rfl, rfl, word_hi8_lo8 _, .inr ⟨rfl, hc, rfl, ?_⟩⟩
      exact word_hi8_lo8 _
  · refine ⟨?_, ?_, ?_⟩
    rotate_left
    · exec decHl hm
      exec cpM hm
      exec jrNc hm goto 0x112 rel 3 if (by simp only [cp8_c, hc]; decide)
      exact .refl _
    · exact ⟨rfl, rfl, rfl, rfl, rfl, word_hi8_lo8 _, .inl ⟨rfl, by omega, rfl, rfl⟩⟩

/-- `DJNZ` at 0x112. -/
theorem selAsc2 {c : Core} (hm : Loaded c.mem) (hp : c.pc = 0x112) :
    Run o v c (if c.b - 1 ≠ 0 then { c with b := c.b - 1, pc := 0x10B, t := c.t + 13 }
      else { c with b := c.b - 1, pc := 0x114, t := c.t + 8 }) := by
  obtain ⟨a, f, b, c, d, e, h, l, a', f', b', c', d', e', h', l', sp, pc, m, t⟩ := c
  simp only at hm hp ⊢
  subst hp
  by_cases hb : b - 1 ≠ 0
  · rw [if_pos hb]
    exec djnz hm goto 0x10B rel 0xF7 if hb
    exact .refl _
  · rw [if_neg hb]
    exec djnzNot hm if hb
    exact .refl _

/-- The search for the greatest element. -/
theorem selAscInner (n : Nat) : 1 ≤ n → n < 256 → ∀ {c : Core} {x : U16}, Loaded c.mem → c.pc = 0x10B →
    c.b = BitVec.ofNat 8 n → word c.h c.l = x →
    ∃ d : Core, Run o v c d ∧ d.pc = 0x114 ∧ d.mem = c.mem ∧ d.sp = c.sp ∧ d.c = c.c ∧
      d.t ≤ c.t + 48 * n ∧ c.t + 38 * n ≤ d.t + 5 ∧ c.a.toNat ≤ d.a.toNat ∧
      (∀ j, 1 ≤ j → j ≤ n → (c.mem (x - BitVec.ofNat 16 j)).toNat ≤ d.a.toNat) ∧
      (d.a = c.a ∧ word d.d d.e = word c.d c.e ∨
        ∃ j, 1 ≤ j ∧ j ≤ n ∧ d.a = c.mem (x - BitVec.ofNat 16 j) ∧ word d.d d.e = x - BitVec.ofNat 16 j) := by
  induction n with
  | zero => intro h; omega
  | succ n ih =>
    intro _ hn c x hm hp hb hx
    obtain ⟨d, r, dp, dm, ds, db, dc, dx, dd⟩ := selAsc1 (o := o) (v := v) hm hp hx
    have r2 := selAsc2 (o := o) (v := v) (dm ▸ hm) dp
    have ha : c.a.toNat ≤ d.a.toNat := by
      rcases dd with ⟨_, h, e, _⟩ | ⟨_, h, e, _⟩ <;> rw [e] <;> omega
    have hm1 : (c.mem (x - 1)).toNat ≤ d.a.toNat := by
      rcases dd with ⟨_, h, e, _⟩ | ⟨_, h, e, _⟩ <;> rw [e] <;> omega
    have ht : d.t ≤ c.t + 35 ∧ c.t + 25 ≤ d.t := by
      rcases dd with ⟨h, _⟩ | ⟨h, _⟩ <;> omega
    rcases Nat.eq_zero_or_pos n with rfl | hn0
    · rw [if_neg (by rw [db, hb]; decide)] at r2
      refine ⟨_, r.trans r2, rfl, dm, ds, dc, ?_, ?_, ha, ?_, ?_⟩
      · show d.t + 8 ≤ _; omega
      · show _ ≤ d.t + 8 + 5; omega
      · intro j h1 h2
        obtain rfl : j = 1 := by omega
        exact hm1
      · rcases dd with ⟨_, _, h, e⟩ | ⟨_, _, h, e⟩
        · exact .inl ⟨h, e⟩
        · exact .inr ⟨1, by omega, by omega, h, e⟩
    · rw [if_pos (by rw [db, hb]; simp only [BitVec.ofNat_eq_ofNat]; bv_omega)] at r2
      have hb2 : d.b - 1 = BitVec.ofNat 8 n := by rw [db, hb]; bv_omega
      obtain ⟨g, r3, gp, gm, gs, gc, gt1, gt2, ga, gj, gd⟩ := ih hn0 (by omega)
        (c := { d with b := d.b - 1, pc := 0x10B, t := d.t + 13 }) (dm ▸ hm) rfl hb2 dx
      simp only at gm gs gc gt1 gt2 ga gj gd
      have hsub := fun j => nextAsc x j
      refine ⟨g, (r.trans r2).trans r3, gp, gm.trans dm, gs.trans ds, gc.trans dc, by omega, by omega, by omega, ?_, ?_⟩
      · intro j h1 h2
        rcases Nat.lt_or_ge 1 j with h3 | h3
        · have := gj (j - 1) (by omega) (by omega)
          rw [hsub, Nat.sub_add_cancel h1, dm] at this
          exact this
        · obtain rfl : j = 1 := by omega
          exact Nat.le_trans hm1 ga
      · rcases gd with ⟨h, e⟩ | ⟨j, h1, h2, h, e⟩
        · rw [h, e]
          rcases dd with ⟨_, _, h, e⟩ | ⟨_, _, h, e⟩
          · exact .inl ⟨h, e⟩
          · exact .inr ⟨1, by omega, by omega, h, e⟩
        · exact .inr ⟨j + 1, by omega, by omega, by rw [h, hsub, dm], by rw [e, hsub]⟩

/-- Before the search: 0x106 to 0x10B. -/
theorem selAsc3 {c : Core} {x : U16} (hm : Loaded c.mem) (hp : c.pc = 0x106) (hx : word c.h c.l = x) :
    ∃ d : Core, Run o v c d ∧ d.pc = 0x10B ∧ d.mem = push c.mem c.sp x ∧ d.sp = c.sp - 2 ∧ d.b = c.b ∧ d.c = c.b ∧
      word d.h d.l = x ∧ word d.d d.e = x ∧ d.a = c.mem x ∧ d.t = c.t + 30 := by
  obtain ⟨a, f, b, c, d, e, h, l, a', f', b', c', d', e', h', l', sp, pc, m, t⟩ := c
  simp only at hm hp hx ⊢
  subst hp hx
  refine ⟨?_, ?_, ?_⟩
  rotate_left
  · exec ldCB hm
    exec ldAM hm
    exec ldEL hm
    exec ldDH hm
    exec pushHl hm
    exact .refl _
  · exact ⟨rfl, rfl, rfl, rfl, rfl, rfl, rfl, rfl, rfl⟩

/-- After the search: 0x114 to 0x11B. -/
theorem selAsc4 {c : Core} {x : U16} (hm : Loaded c.mem) (hp : c.pc = 0x114)
    (hx : word (c.mem (c.sp + 1)) (c.mem c.sp) = x) (h1 : 712 ≤ x.toNat) (h2 : 712 ≤ (word c.d c.e).toNat) :
    ∃ d : Core, Run o v c d ∧ d.pc = 0x11B ∧ d.mem = put (put c.mem x c.a) (word c.d c.e) (c.mem x) ∧
      d.sp = c.sp + 2 ∧ d.b = c.c ∧ word d.h d.l = x - 1 ∧ d.t = c.t + 45 := by
  obtain ⟨a, f, b, c, d, e, h, l, a', f', b', c', d', e', h', l', sp, pc, m, t⟩ := c
  simp only at hm hp hx h1 h2 ⊢
  subst hp
  refine ⟨?_, ?_, ?_⟩
  rotate_left
  · exec ldBC hm
    exec popHl hm
    exec ldCM hm
    exec ldMA hm
    rw [hx]
    have hm1 := loaded_put hm a h1
    exec ldAC hm1
    exec ldDeA hm1
    have hm2 := loaded_put hm1 (m x) h2
    exec decHl hm2
    exact .refl _
  · exact ⟨rfl, rfl, rfl, rfl, by rw [← hx]; exact word_hi8_lo8 _, rfl⟩

/-- `DJNZ` at 0x11B. -/
theorem selAsc5 {c : Core} (hm : Loaded c.mem) (hp : c.pc = 0x11B) :
    Run o v c (if c.b - 1 ≠ 0 then { c with b := c.b - 1, pc := 0x106, t := c.t + 13 }
      else { c with b := c.b - 1, pc := 0x11D, t := c.t + 8 }) := by
  obtain ⟨a, f, b, c, d, e, h, l, a', f', b', c', d', e', h', l', sp, pc, m, t⟩ := c
  simp only at hm hp ⊢
  subst hp
  by_cases hb : b - 1 ≠ 0
  · rw [if_pos hb]
    exec djnz hm goto 0x106 rel 0xE9 if hb
    exact .refl _
  · rw [if_neg hb]
    exec djnzNot hm if hb
    exact .refl _

/-- One pass. -/
theorem selAscPass {p j : Nat} (hj : p = j) (h1 : 1 ≤ j) (h2 : j < 256) {c : Core} (hm : Loaded c.mem)
    (hp : c.pc = 0x106) (hs : c.sp = 0x5E0) (hb : c.b = BitVec.ofNat 8 j) (hx : word c.h c.l = adr p) :
    ∃ (d : Core) (k : Nat), Run o v c d ∧ d.pc = 0x11B ∧ d.sp = 0x5E0 ∧ d.b = c.b ∧ Loaded d.mem ∧
      word d.h d.l = adr p - 1 ∧ k ≤ p ∧ (∀ i, i ≤ p → (elem c.mem i).toNat ≤ (elem c.mem k).toNat) ∧
      Swapped c.mem d.mem p k ∧ Kept c.mem d.mem ∧ d.t ≤ c.t + 48 * j + 75 ∧ c.t + 38 * j + 70 ≤ d.t := by
  obtain ⟨d, r, dp, dm, ds, db, dc, dx, de, da, dt⟩ := selAsc3 (o := o) (v := v) hm hp hx
  rw [hs] at dm ds
  have hpp : p < 256 := by omega
  have hl1 : Loaded d.mem := by rw [dm]; exact loaded_push hm _ (by decide)
  have hel : ∀ i, i < 256 → elem d.mem i = elem c.mem i := fun i hi => by rw [dm]; exact elem_push _ hi (by decide)
  obtain ⟨g, r2, gp, gm, gs, gc, gt1, gt2, ga, gj, gd⟩ := selAscInner (o := o) (v := v) j h1 h2 hl1 dp
    (db.trans hb) dx
  have hae : d.a = elem d.mem p := by
    rw [da, hel p hpp]; rfl
  have hk : ∃ k, k ≤ p ∧ g.a = d.mem (adr k) ∧ word g.d g.e = adr k := by
    rcases gd with ⟨h, e⟩ | ⟨i, i1, i2, h, e⟩
    · exact ⟨p, by omega, h.trans hae, e.trans de⟩
    · refine ⟨p - i, by omega, ?_, ?_⟩
      · rw [h, adr_sub (by omega)]
      · rw [e, adr_sub (by omega)]
  obtain ⟨k, hk, hka, hkd⟩ := hk
  have hk' : k < 256 := by omega
  have hl2 : Loaded g.mem := gm ▸ hl1
  obtain ⟨y, r3, yp, ym, ys, yb, yx, yt⟩ := selAsc4 (o := o) (v := v) (x := adr p) hl2 gp
    (by rw [gm, dm, gs, ds]; exact push_top _ _) (by rw [adr_nat hpp]; omega) (by rw [hkd, adr_nat hk']; omega)
  rw [hka, hkd, gm] at ym
  refine ⟨y, k, (r.trans r2).trans r3, yp, by rw [ys, gs, ds]; decide, by rw [yb, gc, dc], ?_, yx, hk, ?_, ?_, ?_,
    by omega, by omega⟩
  · rw [ym]
    exact loaded_put (loaded_put hl1 _ (by rw [adr_nat hpp]; omega)) _ (by rw [adr_nat hk']; omega)
  · intro i hi
    have hi' : i < 256 := by omega
    have hke : elem c.mem k = g.a := by rw [hka, ← hel k hk']; rfl
    rw [hke, ← hel i hi']
    by_cases hip : i = p
    · rw [hip, ← hae]; exact ga
    · have := gj (p - i) (by omega) (by omega)
      rw [adr_sub (by omega), show p - (p - i) = i by omega] at this
      exact this
  · rw [ym]
    exact (swapped_put hpp hk').of_same hel hpp hk'
  · rw [ym]
    refine Kept.trans ?_ (Kept.trans (kept_put hpp _) (kept_put hk' _))
    rw [dm]; exact kept_push _ _

/-- The passes. -/
theorem selAscLoop (j : Nat) : ∀ {p : Nat}, p = j → 1 ≤ j → j < 256 → ∀ {c : Core}, Loaded c.mem →
    c.pc = 0x106 → c.sp = 0x5E0 → c.b = BitVec.ofNat 8 j → word c.h c.l = adr p →
    (∀ i i', i ≤ i' → i' < 256 → p < i' → (elem c.mem i).toNat ≤ (elem c.mem i').toNat) →
    ∃ d : Core, Run o v c d ∧ d.pc = 0x11D ∧ d.sp = 0x5E0 ∧ Loaded d.mem ∧ Ascending d.mem ∧
      Rearranged c.mem d.mem ∧ Kept c.mem d.mem ∧ d.t ≤ c.t + 24 * j * (j + 1) + 88 * j ∧
      c.t + 19 * j * (j + 1) + 83 * j ≤ d.t + 5 := by
  induction j with
  | zero => intro p _ h; omega
  | succ j ih =>
    intro p hj _ h2 c hm hp hs hb hx hinv
    obtain ⟨d, k, r, dp, ds, db, dl, dx, hk, hmax, hsw, hkept, dt1, dt2⟩ :=
      selAscPass (o := o) (v := v) hj (by omega) h2 hm hp hs hb hx
    have hpp : p < 256 := by omega
    have hk' : k < 256 := by omega
    have r2 := selAsc5 (o := o) (v := v) dl dp
    have hin : ∀ i, i ≤ p → ∃ i2, i2 ≤ p ∧ elem d.mem i = elem c.mem i2 := by
      intro i hi
      by_cases e1 : i = p
      · exact ⟨k, by omega, by rw [e1, hsw.left]⟩
      · by_cases e2 : i = k
        · exact ⟨p, by omega, by rw [e2, hsw.right]⟩
        · exact ⟨i, by omega, hsw.rest i (by omega) e1 e2⟩
    have hout : ∀ i, i < 256 → p < i → elem d.mem i = elem c.mem i :=
      fun i hi h => hsw.rest i hi (by omega) (by omega)
    have hinv2 : ∀ i i', i ≤ i' → i' < 256 → p ≤ i' →
        (elem d.mem i).toNat ≤ (elem d.mem i').toNat := by
      intro i i' h1 h2 h3
      by_cases e : i' = p
      · obtain ⟨i2, hi2, e2⟩ := hin i (by omega)
        rw [e2, e, hsw.left]
        exact hmax i2 hi2
      · rw [hout i' (by omega) (by omega)]
        by_cases h4 : i ≤ p
        · obtain ⟨i2, hi2, e2⟩ := hin i h4
          rw [e2]
          exact hinv _ _ (by omega) (by omega) (by omega)
        · rw [hout i (by omega) (by omega)]
          exact hinv _ _ h1 h2 (by omega)
    have hre := hsw.rearranged hpp hk'
    rcases Nat.eq_zero_or_pos j with rfl | hj0
    · rw [if_neg (by rw [db, hb]; simp)] at r2
      refine ⟨_, r.trans r2, rfl, ds, dl, ?_, hre, hkept, ?_, ?_⟩
      · intro i i' h1 h2
        by_cases e : i = i'
        · exact e ▸ Nat.le_refl _
        · exact hinv2 i i' h1 h2 (by omega)
      · show d.t + 8 ≤ _; omega
      · show _ ≤ d.t + 8 + 5; omega
    · rw [if_pos (by rw [db, hb]; simp only [BitVec.ofNat_eq_ofNat]; bv_omega)] at r2
      obtain ⟨g, r3, gp, gs, gl, gasc, gre, gk, gt1, gt2⟩ := ih (p := p - 1) (by omega) hj0 (by omega)
        (c := { d with b := d.b - 1, pc := 0x106, t := d.t + 13 }) dl rfl ds
        (by rw [db, hb]; simp only [BitVec.ofNat_eq_ofNat]; bv_omega)
        (dx.trans (adr_sub (j := 1) (by omega))) (fun i i' a1 a2 a3 => hinv2 i i' a1 a2 (by omega))
      refine ⟨g, (r.trans r2).trans r3, gp, gs, gl, gasc, Rearranged.trans hre gre, hkept.trans gk, ?_, ?_⟩
      · simp only at gt1
        have : 24 * (j + 1) * (j + 1 + 1) = 24 * j * (j + 1) + 48 * (j + 1) := by ring
        omega
      · simp only at gt2
        have : 19 * (j + 1) * (j + 1 + 1) = 19 * j * (j + 1) + 38 * (j + 1) := by ring
        omega

/-- The routine. -/
theorem selAscAll {c : Core} (hm : Loaded c.mem) (hp : c.pc = 0xFF) (hs : c.sp = 0x5E0) :
    ∃ d : Core, Run o v c d ∧ d.pc = word (c.mem 0x5E1) (c.mem 0x5E0) ∧ d.sp = 0x5E2 ∧ Loaded d.mem ∧
      Ascending d.mem ∧ Rearranged c.mem d.mem ∧ Kept c.mem d.mem ∧ d.t ≤ c.t + 1589196 ∧ c.t + 1261516 ≤ d.t := by
  have r1 : ∃ d : Core, Run o v c d ∧ d.pc = 0x106 ∧ d.mem = c.mem ∧ d.sp = c.sp ∧ d.b = 255 ∧
      word d.h d.l = adr 255 ∧ d.t = c.t + 26 := by
    obtain ⟨a, f, b, c, d, e, h, l, a', f', b', c', d', e', h', l', sp, pc, m, t⟩ := c
    simp only at hm hp hs ⊢
    subst hp
    refine ⟨?_, ?_, ?_⟩
    rotate_left
    · exec ldHlNN hm arg16 0x3CB
      exec ldBN hm arg8 0
      exec decB hm
      exec retZNot hm if (by exact Bool.false_ne_true)
      exact .refl _
    · exact ⟨rfl, rfl, rfl, rfl, word_hi8_lo8 _, rfl⟩
  obtain ⟨d, r1, dp, dm, ds, db, dx, dt⟩ := r1
  obtain ⟨g, r2, gp, gs, gl, ga, gr, gk, gt1, gt2⟩ := selAscLoop (o := o) (v := v) 255 (p := 255) (by omega)
    (by omega) (by omega) (dm ▸ hm) dp (ds.trans hs) db dx (by omega)
  rw [dm] at gr gk
  have r3 : ∃ y : Core, Run o v g y ∧ y.pc = word (c.mem 0x5E1) (c.mem 0x5E0) ∧ y.mem = g.mem ∧ y.sp = 0x5E2 ∧
      y.t = g.t + 10 := by
    have e1 : g.mem 0x5E1 = c.mem 0x5E1 := gk _ (by decide) (by decide)
    have e2 : g.mem 0x5E0 = c.mem 0x5E0 := gk _ (by decide) (by decide)
    rw [← e1, ← e2]
    clear gt1 gt2 r2 e1 e2 gk gr ga
    obtain ⟨a, f, b, c, d, e, h, l, a', f', b', c', d', e', h', l', sp, pc, m, t⟩ := g
    simp only at gl gp gs ⊢
    subst gp gs
    refine ⟨?_, ?_, ?_⟩
    rotate_left
    · exec ret gl
      exact .refl _
    · exact ⟨rfl, rfl, rfl, rfl⟩
  obtain ⟨y, r3, yp, ym, ys, yt⟩ := r3
  exact ⟨y, (r1.trans r2).trans r3, yp, ys, ym ▸ gl, ym ▸ ga, ym ▸ gr, ym ▸ gk, by omega, by omega⟩

/-! ### Selection sort, descending -/

/-- One comparison: 0x12A to 0x131. -/
theorem selDesc1 {c : Core} {x : U16} (hm : Loaded c.mem) (hp : c.pc = 0x12A) (hx : word c.h c.l = x) :
    ∃ d : Core, Run o v c d ∧ d.pc = 0x131 ∧ d.mem = c.mem ∧ d.sp = c.sp ∧ d.b = c.b ∧ d.c = c.c ∧
      word d.h d.l = x + 1 ∧
      (d.t = c.t + 25 ∧ (c.mem (x + 1)).toNat ≤ c.a.toNat ∧ d.a = c.a ∧ word d.d d.e = word c.d c.e ∨
       d.t = c.t + 35 ∧ c.a.toNat < (c.mem (x + 1)).toNat ∧ d.a = c.mem (x + 1) ∧ word d.d d.e = x + 1) := by
  obtain ⟨a, f, b, c, d, e, h, l, a', f', b', c', d', e', h', l', sp, pc, m, t⟩ := c
  simp only at hm hp hx ⊢
  subst hp hx
  by_cases hc : a.toNat < (m (word h l + 1)).toNat
  · refine ⟨?_, ?_, ?_⟩
    rotate_left
    · exec incHl hm
      exec cpM hm
      exec jrNcNot hm if (by simp only [cp8_c, hc]; decide)
      exec ldAM hm
      exec ldEL hm
      exec ldDH hm
      exact .refl _
    · refine ⟨rfl, rfl, rfl, rfl, rfl, word_hi8_lo8 _, .inr ⟨rfl, hc, rfl, ?_⟩⟩
      exact word_hi8_lo8 _
  · refine ⟨?_, ?_, ?_⟩
    rotate_left
    · exec incHl hm
      exec cpM hm
      exec jrNc hm goto 0x131 rel 3 if (by simp only [cp8_c, hc]; decide)
      exact .refl _
    · exact ⟨rfl, rfl, rfl, rfl, rfl, word_hi8_lo8 _, .inl ⟨rfl, by omega, rfl, rfl⟩⟩

/-- `DJNZ` at 0x131. -/
theorem selDesc2 {c : Core} (hm : Loaded c.mem) (hp : c.pc = 0x131) :
    Run o v c (if c.b - 1 ≠ 0 then { c with b := c.b - 1, pc := 0x12A, t := c.t + 13 }
      else { c with b := c.b - 1, pc := 0x133, t := c.t + 8 }) := by
  obtain ⟨a, f, b, c, d, e, h, l, a', f', b', c', d', e', h', l', sp, pc, m, t⟩ := c
  simp only at hm hp ⊢
  subst hp
  by_cases hb : b - 1 ≠ 0
  · rw [if_pos hb]
    exec djnz hm goto 0x12A rel 0xF7 if hb
    exact .refl _
  · rw [if_neg hb]
    exec djnzNot hm if hb
    exact .refl _

/-- The search for the greatest element. -/
theorem selDescInner (n : Nat) : 1 ≤ n → n < 256 → ∀ {c : Core} {x : U16}, Loaded c.mem → c.pc = 0x12A →
    c.b = BitVec.ofNat 8 n → word c.h c.l = x →
    ∃ d : Core, Run o v c d ∧ d.pc = 0x133 ∧ d.mem = c.mem ∧ d.sp = c.sp ∧ d.c = c.c ∧
      d.t ≤ c.t + 48 * n ∧ c.t + 38 * n ≤ d.t + 5 ∧ c.a.toNat ≤ d.a.toNat ∧
      (∀ j, 1 ≤ j → j ≤ n → (c.mem (x + BitVec.ofNat 16 j)).toNat ≤ d.a.toNat) ∧
      (d.a = c.a ∧ word d.d d.e = word c.d c.e ∨
        ∃ j, 1 ≤ j ∧ j ≤ n ∧ d.a = c.mem (x + BitVec.ofNat 16 j) ∧ word d.d d.e = x + BitVec.ofNat 16 j) := by
  induction n with
  | zero => intro h; omega
  | succ n ih =>
    intro _ hn c x hm hp hb hx
    obtain ⟨d, r, dp, dm, ds, db, dc, dx, dd⟩ := selDesc1 (o := o) (v := v) hm hp hx
    have r2 := selDesc2 (o := o) (v := v) (dm ▸ hm) dp
    have ha : c.a.toNat ≤ d.a.toNat := by
      rcases dd with ⟨_, h, e, _⟩ | ⟨_, h, e, _⟩ <;> rw [e] <;> omega
    have hm1 : (c.mem (x + 1)).toNat ≤ d.a.toNat := by
      rcases dd with ⟨_, h, e, _⟩ | ⟨_, h, e, _⟩ <;> rw [e] <;> omega
    have ht : d.t ≤ c.t + 35 ∧ c.t + 25 ≤ d.t := by
      rcases dd with ⟨h, _⟩ | ⟨h, _⟩ <;> omega
    rcases Nat.eq_zero_or_pos n with rfl | hn0
    · rw [if_neg (by rw [db, hb]; decide)] at r2
      refine ⟨_, r.trans r2, rfl, dm, ds, dc, ?_, ?_, ha, ?_, ?_⟩
      · show d.t + 8 ≤ _; omega
      · show _ ≤ d.t + 8 + 5; omega
      · intro j h1 h2
        obtain rfl : j = 1 := by omega
        exact hm1
      · rcases dd with ⟨_, _, h, e⟩ | ⟨_, _, h, e⟩
        · exact .inl ⟨h, e⟩
        · exact .inr ⟨1, by omega, by omega, h, e⟩
    · rw [if_pos (by rw [db, hb]; simp only [BitVec.ofNat_eq_ofNat]; bv_omega)] at r2
      have hb2 : d.b - 1 = BitVec.ofNat 8 n := by rw [db, hb]; bv_omega
      obtain ⟨g, r3, gp, gm, gs, gc, gt1, gt2, ga, gj, gd⟩ := ih hn0 (by omega)
        (c := { d with b := d.b - 1, pc := 0x12A, t := d.t + 13 }) (dm ▸ hm) rfl hb2 dx
      simp only at gm gs gc gt1 gt2 ga gj gd
      have hsub := fun j => nextDesc x j
      refine ⟨g, (r.trans r2).trans r3, gp, gm.trans dm, gs.trans ds, gc.trans dc, by omega, by omega, by omega, ?_, ?_⟩
      · intro j h1 h2
        rcases Nat.lt_or_ge 1 j with h3 | h3
        · have := gj (j - 1) (by omega) (by omega)
          rw [hsub, Nat.sub_add_cancel h1, dm] at this
          exact this
        · obtain rfl : j = 1 := by omega
          exact Nat.le_trans hm1 ga
      · rcases gd with ⟨h, e⟩ | ⟨j, h1, h2, h, e⟩
        · rw [h, e]
          rcases dd with ⟨_, _, h, e⟩ | ⟨_, _, h, e⟩
          · exact .inl ⟨h, e⟩
          · exact .inr ⟨1, by omega, by omega, h, e⟩
        · exact .inr ⟨j + 1, by omega, by omega, by rw [h, hsub, dm], by rw [e, hsub]⟩

/-- Before the search: 0x125 to 0x12A. -/
theorem selDesc3 {c : Core} {x : U16} (hm : Loaded c.mem) (hp : c.pc = 0x125) (hx : word c.h c.l = x) :
    ∃ d : Core, Run o v c d ∧ d.pc = 0x12A ∧ d.mem = push c.mem c.sp x ∧ d.sp = c.sp - 2 ∧ d.b = c.b ∧ d.c = c.b ∧
      word d.h d.l = x ∧ word d.d d.e = x ∧ d.a = c.mem x ∧ d.t = c.t + 30 := by
  obtain ⟨a, f, b, c, d, e, h, l, a', f', b', c', d', e', h', l', sp, pc, m, t⟩ := c
  simp only at hm hp hx ⊢
  subst hp hx
  refine ⟨?_, ?_, ?_⟩
  rotate_left
  · exec ldCB hm
    exec ldAM hm
    exec ldEL hm
    exec ldDH hm
    exec pushHl hm
    exact .refl _
  · exact ⟨rfl, rfl, rfl, rfl, rfl, rfl, rfl, rfl, rfl⟩

/-- After the search: 0x133 to 0x13A. -/
theorem selDesc4 {c : Core} {x : U16} (hm : Loaded c.mem) (hp : c.pc = 0x133)
    (hx : word (c.mem (c.sp + 1)) (c.mem c.sp) = x) (h1 : 712 ≤ x.toNat) (h2 : 712 ≤ (word c.d c.e).toNat) :
    ∃ d : Core, Run o v c d ∧ d.pc = 0x13A ∧ d.mem = put (put c.mem x c.a) (word c.d c.e) (c.mem x) ∧
      d.sp = c.sp + 2 ∧ d.b = c.c ∧ word d.h d.l = x + 1 ∧ d.t = c.t + 45 := by
  obtain ⟨a, f, b, c, d, e, h, l, a', f', b', c', d', e', h', l', sp, pc, m, t⟩ := c
  simp only at hm hp hx h1 h2 ⊢
  subst hp
  refine ⟨?_, ?_, ?_⟩
  rotate_left
  · exec ldBC hm
    exec popHl hm
    exec ldCM hm
    exec ldMA hm
    rw [hx]
    have hm1 := loaded_put hm a h1
    exec ldAC hm1
    exec ldDeA hm1
    have hm2 := loaded_put hm1 (m x) h2
    exec incHl hm2
    exact .refl _
  · exact ⟨rfl, rfl, rfl, rfl, by rw [← hx]; exact word_hi8_lo8 _, rfl⟩

/-- `DJNZ` at 0x13A. -/
theorem selDesc5 {c : Core} (hm : Loaded c.mem) (hp : c.pc = 0x13A) :
    Run o v c (if c.b - 1 ≠ 0 then { c with b := c.b - 1, pc := 0x125, t := c.t + 13 }
      else { c with b := c.b - 1, pc := 0x13C, t := c.t + 8 }) := by
  obtain ⟨a, f, b, c, d, e, h, l, a', f', b', c', d', e', h', l', sp, pc, m, t⟩ := c
  simp only at hm hp ⊢
  subst hp
  by_cases hb : b - 1 ≠ 0
  · rw [if_pos hb]
    exec djnz hm goto 0x125 rel 0xE9 if hb
    exact .refl _
  · rw [if_neg hb]
    exec djnzNot hm if hb
    exact .refl _

/-- One pass. -/
theorem selDescPass {p j : Nat} (hj : p + j = 255) (h1 : 1 ≤ j) (h2 : j < 256) {c : Core} (hm : Loaded c.mem)
    (hp : c.pc = 0x125) (hs : c.sp = 0x5E0) (hb : c.b = BitVec.ofNat 8 j) (hx : word c.h c.l = adr p) :
    ∃ (d : Core) (k : Nat), Run o v c d ∧ d.pc = 0x13A ∧ d.sp = 0x5E0 ∧ d.b = c.b ∧ Loaded d.mem ∧
      word d.h d.l = adr p + 1 ∧ (p ≤ k ∧ k < 256) ∧ (∀ i, (p ≤ i ∧ i < 256) → (elem c.mem i).toNat ≤ (elem c.mem k).toNat) ∧
      Swapped c.mem d.mem p k ∧ Kept c.mem d.mem ∧ d.t ≤ c.t + 48 * j + 75 ∧ c.t + 38 * j + 70 ≤ d.t := by
  obtain ⟨d, r, dp, dm, ds, db, dc, dx, de, da, dt⟩ := selDesc3 (o := o) (v := v) hm hp hx
  rw [hs] at dm ds
  have hpp : p < 256 := by omega
  have hl1 : Loaded d.mem := by rw [dm]; exact loaded_push hm _ (by decide)
  have hel : ∀ i, i < 256 → elem d.mem i = elem c.mem i := fun i hi => by rw [dm]; exact elem_push _ hi (by decide)
  obtain ⟨g, r2, gp, gm, gs, gc, gt1, gt2, ga, gj, gd⟩ := selDescInner (o := o) (v := v) j h1 h2 hl1 dp
    (db.trans hb) dx
  have hae : d.a = elem d.mem p := by
    rw [da, hel p hpp]; rfl
  have hk : ∃ k, (p ≤ k ∧ k < 256) ∧ g.a = d.mem (adr k) ∧ word g.d g.e = adr k := by
    rcases gd with ⟨h, e⟩ | ⟨i, i1, i2, h, e⟩
    · exact ⟨p, by omega, h.trans hae, e.trans de⟩
    · refine ⟨p + i, by omega, ?_, ?_⟩
      · rw [h, adr_add]
      · rw [e, adr_add]
  obtain ⟨k, hk, hka, hkd⟩ := hk
  have hk' : k < 256 := by omega
  have hl2 : Loaded g.mem := gm ▸ hl1
  obtain ⟨y, r3, yp, ym, ys, yb, yx, yt⟩ := selDesc4 (o := o) (v := v) (x := adr p) hl2 gp
    (by rw [gm, dm, gs, ds]; exact push_top _ _) (by rw [adr_nat hpp]; omega) (by rw [hkd, adr_nat hk']; omega)
  rw [hka, hkd, gm] at ym
  refine ⟨y, k, (r.trans r2).trans r3, yp, by rw [ys, gs, ds]; decide, by rw [yb, gc, dc], ?_, yx, hk, ?_, ?_, ?_,
    by omega, by omega⟩
  · rw [ym]
    exact loaded_put (loaded_put hl1 _ (by rw [adr_nat hpp]; omega)) _ (by rw [adr_nat hk']; omega)
  · intro i hi
    have hi' : i < 256 := by omega
    have hke : elem c.mem k = g.a := by rw [hka, ← hel k hk']; rfl
    rw [hke, ← hel i hi']
    by_cases hip : i = p
    · rw [hip, ← hae]; exact ga
    · have := gj (i - p) (by omega) (by omega)
      rw [adr_add, show p + (i - p) = i by omega] at this
      exact this
  · rw [ym]
    exact (swapped_put hpp hk').of_same hel hpp hk'
  · rw [ym]
    refine Kept.trans ?_ (Kept.trans (kept_put hpp _) (kept_put hk' _))
    rw [dm]; exact kept_push _ _

/-- The passes. -/
theorem selDescLoop (j : Nat) : ∀ {p : Nat}, p + j = 255 → 1 ≤ j → j < 256 → ∀ {c : Core}, Loaded c.mem →
    c.pc = 0x125 → c.sp = 0x5E0 → c.b = BitVec.ofNat 8 j → word c.h c.l = adr p →
    (∀ i i', i ≤ i' → i' < 256 → i < p → (elem c.mem i').toNat ≤ (elem c.mem i).toNat) →
    ∃ d : Core, Run o v c d ∧ d.pc = 0x13C ∧ d.sp = 0x5E0 ∧ Loaded d.mem ∧ Descending d.mem ∧
      Rearranged c.mem d.mem ∧ Kept c.mem d.mem ∧ d.t ≤ c.t + 24 * j * (j + 1) + 88 * j ∧
      c.t + 19 * j * (j + 1) + 83 * j ≤ d.t + 5 := by
  induction j with
  | zero => intro p _ h; omega
  | succ j ih =>
    intro p hj _ h2 c hm hp hs hb hx hinv
    obtain ⟨d, k, r, dp, ds, db, dl, dx, hk, hmax, hsw, hkept, dt1, dt2⟩ :=
      selDescPass (o := o) (v := v) hj (by omega) h2 hm hp hs hb hx
    have hpp : p < 256 := by omega
    have hk' : k < 256 := by omega
    have r2 := selDesc5 (o := o) (v := v) dl dp
    have hin : ∀ i, (p ≤ i ∧ i < 256) → ∃ i2, (p ≤ i2 ∧ i2 < 256) ∧ elem d.mem i = elem c.mem i2 := by
      intro i hi
      by_cases e1 : i = p
      · exact ⟨k, by omega, by rw [e1, hsw.left]⟩
      · by_cases e2 : i = k
        · exact ⟨p, by omega, by rw [e2, hsw.right]⟩
        · exact ⟨i, by omega, hsw.rest i (by omega) e1 e2⟩
    have hout : ∀ i, i < 256 → i < p → elem d.mem i = elem c.mem i :=
      fun i hi h => hsw.rest i hi (by omega) (by omega)
    have hinv2 : ∀ i i', i ≤ i' → i' < 256 → i ≤ p →
        (elem d.mem i').toNat ≤ (elem d.mem i).toNat := by
      intro i i' h1 h2 h3
      by_cases e : i = p
      · obtain ⟨i2, hi2, e2⟩ := hin i' (by omega)
        rw [e2, e, hsw.left]
        exact hmax i2 hi2
      · rw [hout i (by omega) (by omega)]
        by_cases h4 : p ≤ i' ∧ i' < 256
        · obtain ⟨i2, hi2, e2⟩ := hin i' h4
          rw [e2]
          exact hinv _ _ (by omega) (by omega) (by omega)
        · rw [hout i' (by omega) (by omega)]
          exact hinv _ _ h1 h2 (by omega)
    have hre := hsw.rearranged hpp hk'
    rcases Nat.eq_zero_or_pos j with rfl | hj0
    · rw [if_neg (by rw [db, hb]; simp)] at r2
      refine ⟨_, r.trans r2, rfl, ds, dl, ?_, hre, hkept, ?_, ?_⟩
      · intro i i' h1 h2
        by_cases e : i = i'
        · exact e ▸ Nat.le_refl _
        · exact hinv2 i i' h1 h2 (by omega)
      · show d.t + 8 ≤ _; omega
      · show _ ≤ d.t + 8 + 5; omega
    · rw [if_pos (by rw [db, hb]; simp only [BitVec.ofNat_eq_ofNat]; bv_omega)] at r2
      obtain ⟨g, r3, gp, gs, gl, gasc, gre, gk, gt1, gt2⟩ := ih (p := p + 1) (by omega) hj0 (by omega)
        (c := { d with b := d.b - 1, pc := 0x125, t := d.t + 13 }) dl rfl ds
        (by rw [db, hb]; simp only [BitVec.ofNat_eq_ofNat]; bv_omega)
        (dx.trans (adr_add p 1)) (fun i i' a1 a2 a3 => hinv2 i i' a1 a2 (by omega))
      refine ⟨g, (r.trans r2).trans r3, gp, gs, gl, gasc, Rearranged.trans hre gre, hkept.trans gk, ?_, ?_⟩
      · simp only at gt1
        have : 24 * (j + 1) * (j + 1 + 1) = 24 * j * (j + 1) + 48 * (j + 1) := by ring
        omega
      · simp only at gt2
        have : 19 * (j + 1) * (j + 1 + 1) = 19 * j * (j + 1) + 38 * (j + 1) := by ring
        omega

/-- The routine. -/
theorem selDescAll {c : Core} (hm : Loaded c.mem) (hp : c.pc = 0x11E) (hs : c.sp = 0x5E0) :
    ∃ d : Core, Run o v c d ∧ d.pc = word (c.mem 0x5E1) (c.mem 0x5E0) ∧ d.sp = 0x5E2 ∧ Loaded d.mem ∧
      Descending d.mem ∧ Rearranged c.mem d.mem ∧ Kept c.mem d.mem ∧ d.t ≤ c.t + 1589196 ∧ c.t + 1261516 ≤ d.t := by
  have r1 : ∃ d : Core, Run o v c d ∧ d.pc = 0x125 ∧ d.mem = c.mem ∧ d.sp = c.sp ∧ d.b = 255 ∧
      word d.h d.l = adr 0 ∧ d.t = c.t + 26 := by
    obtain ⟨a, f, b, c, d, e, h, l, a', f', b', c', d', e', h', l', sp, pc, m, t⟩ := c
    simp only at hm hp hs ⊢
    subst hp
    refine ⟨?_, ?_, ?_⟩
    rotate_left
    · exec ldHlNN hm arg16 0x2CC
      exec ldBN hm arg8 0
      exec decB hm
      exec retZNot hm if (by exact Bool.false_ne_true)
      exact .refl _
    · exact ⟨rfl, rfl, rfl, rfl, word_hi8_lo8 _, rfl⟩
  obtain ⟨d, r1, dp, dm, ds, db, dx, dt⟩ := r1
  obtain ⟨g, r2, gp, gs, gl, ga, gr, gk, gt1, gt2⟩ := selDescLoop (o := o) (v := v) 255 (p := 0) (by omega)
    (by omega) (by omega) (dm ▸ hm) dp (ds.trans hs) db dx (by omega)
  rw [dm] at gr gk
  have r3 : ∃ y : Core, Run o v g y ∧ y.pc = word (c.mem 0x5E1) (c.mem 0x5E0) ∧ y.mem = g.mem ∧ y.sp = 0x5E2 ∧
      y.t = g.t + 10 := by
    have e1 : g.mem 0x5E1 = c.mem 0x5E1 := gk _ (by decide) (by decide)
    have e2 : g.mem 0x5E0 = c.mem 0x5E0 := gk _ (by decide) (by decide)
    rw [← e1, ← e2]
    clear gt1 gt2 r2 e1 e2 gk gr ga
    obtain ⟨a, f, b, c, d, e, h, l, a', f', b', c', d', e', h', l', sp, pc, m, t⟩ := g
    simp only at gl gp gs ⊢
    subst gp gs
    refine ⟨?_, ?_, ?_⟩
    rotate_left
    · exec ret gl
      exact .refl _
    · exact ⟨rfl, rfl, rfl, rfl⟩
  obtain ⟨y, r3, yp, ym, ys, yt⟩ := r3
  exact ⟨y, (r1.trans r2).trans r3, yp, ys, ym ▸ gl, ym ▸ ga, ym ▸ gr, ym ▸ gk, by omega, by omega⟩

end Z80.Routine
