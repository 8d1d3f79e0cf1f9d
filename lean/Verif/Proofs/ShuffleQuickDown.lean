import Verif.Proofs.ShuffleQuickDownRun
import Verif.Proofs.ShuffleQuickSort

/-!
# The quick sort routine for descending order: scans and the partition

`/repo/tests/shuffle/shuffle.bin` 500-551 on the specified machine. With indices counted from the end of the array the
routine does what the one for ascending order does.
-/

set_option linter.unusedVariables false

namespace Z80.Routine.Down
open Spec Spec.Shuffle
variable {w : Nat} {O R I : Type} {o : Opt} {v : Env w O R I}

/-- Address of an element, counted from the end. -/
def adr (i : Nat) : U16 := BitVec.ofNat 16 (971 - i)

/-- The element at an index counted from the end. -/
def elem (m : U16 → U8) (i : Nat) : U8 := m (adr i)

theorem adr_nat {i : Nat} (h : i ≤ 256) : (adr i).toNat = 971 - i := by
  rw [adr, BitVec.toNat_ofNat]; omega

theorem adr_ne {i j : Nat} (hi : i < 256) (hj : j < 256) (h : i ≠ j) : adr i ≠ adr j := by
  intro e
  have := congrArg BitVec.toNat e
  rw [adr_nat (by omega), adr_nat (by omega)] at this
  omega

theorem elem_put {m : U16 → U8} {a : U16} (x : U8) {i : Nat} (hi : i < 256) (h : a.toNat < 716 ∨ 972 ≤ a.toNat) :
    elem (put m a x) i = elem m i := by
  unfold elem
  rw [put_other]
  intro e
  have := congrArg BitVec.toNat e
  rw [adr_nat (by omega)] at this
  omega

theorem elem_push {m : U16 → U8} (x : U16) {i : Nat} (hi : i < 256) {sp : U16} (h : 974 ≤ sp.toNat) :
    elem (push m sp x) i = elem m i := by
  rw [push_eq, elem_put _ hi (.inr (by bv_omega)), elem_put _ hi (.inr (by bv_omega))]

/-- Two elements swapped. -/
structure Swapped (m m' : U16 → U8) (p q : Nat) : Prop where
  left : elem m' p = elem m q
  right : elem m' q = elem m p
  rest : ∀ i, i < 256 → i ≠ p → i ≠ q → elem m' i = elem m i

theorem swapped_put {m : U16 → U8} {p q : Nat} (hp : p < 256) (hq : q < 256) :
    Swapped m (put (put m (adr p) (m (adr q))) (adr q) (m (adr p))) p q := by
  refine ⟨?_, ?_, ?_⟩
  · unfold elem
    by_cases h : p = q
    · subst h; exact put_same _ _ _
    · exact (put_other _ _ (adr_ne hp hq h)).trans (put_same _ _ _)
  · exact put_same _ _ _
  · intro i hi h1 h2
    exact (put_other _ _ (adr_ne hi hq h2)).trans (put_other _ _ (adr_ne hi hp h1))

/-- The element at an index, as a number. -/
def val (m : U16 → U8) (x : Nat) : Nat := (elem m x).toNat

/-- The elements from `lo` to `hi` have changed places, the others are as they were. -/
def Mixed (lo hi : Nat) (m m' : U16 → U8) : Prop :=
  ∃ p q : Nat → Nat, (∀ x, q (p x) = x) ∧ (∀ x, p (q x) = x) ∧ (∀ x, ¬ (lo ≤ x ∧ x ≤ hi) → p x = x) ∧
    ∀ x, x < 256 → elem m' x = elem m (p x)

theorem Mixed.same {lo hi : Nat} {m m' : U16 → U8} (h : ∀ x, x < 256 → elem m' x = elem m x) : Mixed lo hi m m' :=
  ⟨id, id, fun _ => rfl, fun _ => rfl, fun _ _ => rfl, h⟩

theorem Mixed.trans {lo hi : Nat} {a b c : U16 → U8} (hh : hi < 256) (h : Mixed lo hi a b) (g : Mixed lo hi b c) :
    Mixed lo hi a c := by
  obtain ⟨p, q, p1, p2, p3, p4⟩ := h
  obtain ⟨r, s, r1, r2, r3, r4⟩ := g
  refine ⟨p ∘ r, s ∘ q, fun x => ?_, fun x => ?_, fun x hx => ?_, fun x hx => ?_⟩
  · show s (q (p (r x))) = x
    rw [p1, r1]
  · show p (r (s (q x))) = x
    rw [r2, p2]
  · show p (r x) = x
    rw [r3 x hx, p3 x hx]
  · rw [r4 x hx, p4]
    · rfl
    · by_cases k : lo ≤ x ∧ x ≤ hi
      · have := mixed_within r1 r3 k
        omega
      · rw [r3 x k]; exact hx

theorem Mixed.mono {lo hi lo' hi' : Nat} {m m' : U16 → U8} (h : Mixed lo hi m m') (h1 : lo' ≤ lo) (h2 : hi ≤ hi') :
    Mixed lo' hi' m m' := by
  obtain ⟨p, q, p1, p2, p3, p4⟩ := h
  exact ⟨p, q, p1, p2, fun x hx => p3 x (by omega), p4⟩

theorem Mixed.other {lo hi : Nat} {m m' : U16 → U8} (h : Mixed lo hi m m') {x : Nat} (hx : x < 256)
    (h1 : ¬ (lo ≤ x ∧ x ≤ hi)) : val m' x = val m x := by
  obtain ⟨p, q, p1, p2, p3, p4⟩ := h
  unfold val
  rw [p4 x hx, p3 x h1]

/-- What holds for all of the elements holds for them in another order. -/
theorem Mixed.all {lo hi : Nat} {m m' : U16 → U8} (h : Mixed lo hi m m') (hh : hi < 256) {P : Nat → Prop}
    (g : ∀ x, lo ≤ x → x ≤ hi → P (val m x)) (x : Nat) (h1 : lo ≤ x) (h2 : x ≤ hi) : P (val m' x) := by
  obtain ⟨p, q, p1, p2, p3, p4⟩ := h
  have := mixed_within p1 p3 ⟨h1, h2⟩
  unfold val
  rw [p4 x (by omega)]
  exact g _ this.1 this.2

theorem elem_true (m : U16 → U8) {x : Nat} (hx : x < 256) : Spec.Shuffle.elem m x = elem m (255 - x) := by
  unfold Spec.Shuffle.elem elem adr
  rw [show 971 - (255 - x) = 716 + x by omega]

theorem Mixed.rearranged {m m' : U16 → U8} (h : Mixed 0 255 m m') : Rearranged m m' := by
  obtain ⟨p, q, p1, p2, p3, p4⟩ := h
  have q3 : ∀ x, ¬ (0 ≤ x ∧ x ≤ 255) → q x = x := fun x hx => by
    have := congrArg q (p3 x hx)
    rw [p1] at this
    exact this.symm
  refine ⟨fun x => 255 - p (255 - x), fun x => 255 - q (255 - x), fun x hx => ⟨by simp only; omega, ?_⟩,
    fun x hx => ⟨by simp only; omega, ?_⟩, fun x hx => ?_⟩
  · have := mixed_within p1 p3 (x := 255 - x) (by omega)
    show 255 - q (255 - (255 - p (255 - x))) = x
    rw [show 255 - (255 - p (255 - x)) = p (255 - x) by omega, p1]
    omega
  · have := mixed_within p2 q3 (x := 255 - x) (by omega)
    show 255 - p (255 - (255 - q (255 - x))) = x
    rw [show 255 - (255 - q (255 - x)) = q (255 - x) by omega, p2]
    omega
  · have := mixed_within p1 p3 (x := 255 - x) (by omega)
    rw [elem_true m' hx, p4 _ (by omega), elem_true m (by simp only; omega),
      show 255 - (255 - p (255 - x)) = p (255 - x) by omega]

theorem Swapped.mixed {m m' : U16 → U8} {i j lo hi : Nat} (h : Swapped m m' i j) (hi1 : lo ≤ i) (hi2 : i ≤ hi)
    (hj1 : lo ≤ j) (hj2 : j ≤ hi) : Mixed lo hi m m' := by
  let f : Nat → Nat := fun x => if x = i then j else if x = j then i else x
  have hf : ∀ x, f (f x) = x := by
    intro x
    simp only [f]
    by_cases h1 : x = i
    · subst h1
      rw [if_pos rfl]
      by_cases h2 : j = x
      · rw [if_pos h2, h2]
      · rw [if_neg h2, if_pos rfl]
    · by_cases h2 : x = j
      · subst h2
        rw [if_neg h1, if_pos rfl, if_pos rfl]
      · rw [if_neg h1, if_neg h2, if_neg h1, if_neg h2]
  refine ⟨f, f, hf, hf, fun x hx => ?_, fun x hx => ?_⟩
  · show (if x = i then j else if x = j then i else x) = x
    rw [if_neg (by omega), if_neg (by omega)]
  · show _ = elem m (if x = i then j else if x = j then i else x)
    by_cases h1 : x = i
    · rw [if_pos h1, h1, h.left]
    · by_cases h2 : x = j
      · rw [if_neg h1, if_pos h2, h2, h.right]
      · rw [if_neg h1, if_neg h2, h.rest x hx h1 h2]

/-- Nothing has changed but elements from `lo` to `hi` and memory from `F` up to `b`. -/
def Frame (F b lo hi : Nat) (m m' : U16 → U8) : Prop :=
  ∀ a : U16, ¬ (971 ≤ a.toNat + hi ∧ a.toNat + lo ≤ 971) → ¬ (F ≤ a.toNat ∧ a.toNat < b) → m' a = m a

theorem Frame.refl (F b lo hi : Nat) (m : U16 → U8) : Frame F b lo hi m m := fun _ _ _ => rfl

theorem Frame.trans {F b lo hi : Nat} {m n k : U16 → U8} (h : Frame F b lo hi m n) (g : Frame F b lo hi n k) :
    Frame F b lo hi m k := fun a h1 h2 => (g a h1 h2).trans (h a h1 h2)

theorem Frame.mono {F b lo hi b' lo' hi' : Nat} {m m' : U16 → U8} (h : Frame F b lo hi m m') (h1 : b ≤ b')
    (h2 : lo' ≤ lo) (h3 : hi ≤ hi') : Frame F b' lo' hi' m m' :=
  fun a g1 g2 => h a (by omega) (by omega)

theorem frame_put {F b lo hi : Nat} (m : U16 → U8) {s : U16} (x : U8) (h1 : F ≤ s.toNat) (h2 : s.toNat < b) :
    Frame F b lo hi m (put m s x) :=
  fun a _ g => put_other _ _ fun e => g (by rw [e]; exact ⟨h1, h2⟩)

theorem frame_push {F b lo hi : Nat} (m : U16 → U8) {s : U16} (x : U16) (h1 : F + 2 ≤ s.toNat) (h2 : s.toNat ≤ b) :
    Frame F b lo hi m (push m s x) := by
  rw [push_eq]
  exact (frame_put m _ (by bv_omega) (by bv_omega)).trans (frame_put _ _ (by bv_omega) (by bv_omega))

theorem Frame.loaded {F b lo hi : Nat} {m m' : U16 → U8} (h : Frame F b lo hi m m') (hF : 712 ≤ F) (hm : Loaded m)
    (hh : hi < 256 := by omega) : Loaded m' := by
  intro i hi'
  have e : (BitVec.ofNat 16 i).toNat = i := by rw [BitVec.toNat_ofNat]; omega
  rw [h _ (by omega) (by omega), hm i hi']

theorem elem_frame {F b lo hi : Nat} {m m' : U16 → U8} (h : Frame F b lo hi m m') (hF : 972 ≤ F) {x : Nat}
    (hx : x < 256) (h1 : ¬ (lo ≤ x ∧ x ≤ hi)) : elem m' x = elem m x := by
  unfold elem
  have e := adr_nat (i := x) (by omega)
  exact h _ (by omega) (by omega)

theorem mem_adr (m : U16 → U8) (x : Nat) : m (adr x) = elem m x := rfl

theorem adr_succ {x : Nat} (h : x ≤ 256) : adr x - 1 = adr (x + 1) := by
  have e1 : (1 : U16).toNat = 1 := rfl
  unfold adr; apply BitVec.eq_of_toNat_eq; rw [BitVec.toNat_sub, e1]; simp only [BitVec.toNat_ofNat]; omega
theorem adr_pred {x : Nat} (h : x ≤ 256) : adr (x + 1) + 1 = adr x := by
  have e1 : (1 : U16).toNat = 1 := rfl
  unfold adr; apply BitVec.eq_of_toNat_eq; rw [BitVec.toNat_add, e1]; simp only [BitVec.toNat_ofNat]; omega

/-! ### The scans -/

/-- From above, after an element less than the pivot. -/
theorem scanUp1 {s : Nat} (hs : s < 256) : ∀ (n i : Nat) (c : Core), s - i = n → i < s → Loaded c.mem → c.pc = 0x20C →
    c.de = adr i → c.b.toNat ≤ val c.mem s → ∃ (d : Core) (j : Nat), Run o v c d ∧ d.pc = 0x211 ∧ d.mem = c.mem ∧
      d.sp = c.sp ∧ d.b = c.b ∧ d.hl = c.hl ∧ d.de = adr j ∧ i < j ∧ j ≤ s ∧ c.b.toNat ≤ val c.mem j ∧
      ∀ x, i < x → x < j → val c.mem x < c.b.toNat := by
  intro n
  induction n with
  | zero => intro i c h1 h2; omega
  | succ n ih =>
    intro i c hn his hm hp hd hv
    obtain ⟨d, r, p, m, s1, pv, e, l⟩ := qaUp1 (o := o) (v := v) hm hp
    rw [hd, adr_succ (by omega), mem_adr c.mem] at p
    rw [hd, adr_succ (by omega)] at e
    by_cases hc : (elem c.mem (i + 1)).toNat < c.b.toNat
    · rw [if_pos hc] at p
      have hne : i + 1 ≠ s := fun h => by subst h; unfold val at hv; omega
      obtain ⟨f, j, r2, p2, m2, s2, pv2, l2, e2, g1, g2, g3, g4⟩ :=
        ih (i + 1) d (by omega) (by omega) (m ▸ hm) p e (by rw [m, pv]; exact hv)
      rw [m, pv] at g3 g4
      refine ⟨f, j, r.trans r2, p2, m2.trans m, s2.trans s1, pv2.trans pv, l2.trans l, e2, by omega, g2, g3,
        fun x h1 h2 => ?_⟩
      by_cases hx : x = i + 1
      · subst hx; exact hc
      · exact g4 x (by omega) h2
    · rw [if_neg hc] at p
      exact ⟨d, i + 1, r, p, m, s1, pv, l, e, by omega, by omega, by unfold val; omega, fun x h1 h2 => by omega⟩

/-- From above. -/
theorem scanUp {s i : Nat} {c : Core} (hs : s < 256) (hi : i ≤ s) (hm : Loaded c.mem) (hp : c.pc = 0x208)
    (hd : c.de = adr i) (hv : c.b.toNat ≤ val c.mem s) : ∃ (d : Core) (j : Nat), Run o v c d ∧ d.pc = 0x211 ∧
      d.mem = c.mem ∧ d.sp = c.sp ∧ d.b = c.b ∧ d.hl = c.hl ∧ d.de = adr j ∧ i ≤ j ∧ j ≤ s ∧
      c.b.toNat ≤ val c.mem j ∧ ∀ x, i ≤ x → x < j → val c.mem x < c.b.toNat := by
  obtain ⟨d, r, p, m, s1, pv, e, l⟩ := qaUp0 (o := o) (v := v) hm hp
  rw [hd, mem_adr c.mem] at p
  rw [hd] at e
  by_cases hc : (elem c.mem i).toNat < c.b.toNat
  · rw [if_pos hc] at p
    have hne : i ≠ s := fun h => by subst h; unfold val at hv; omega
    obtain ⟨f, j, r2, p2, m2, s2, pv2, l2, e2, g1, g2, g3, g4⟩ :=
      scanUp1 (o := o) (v := v) hs (s - i) i d rfl (by omega) (m ▸ hm) p e (by rw [m, pv]; exact hv)
    rw [m, pv] at g3 g4
    refine ⟨f, j, r.trans r2, p2, m2.trans m, s2.trans s1, pv2.trans pv, l2.trans l, e2, by omega, g2, g3,
      fun x h1 h2 => ?_⟩
    by_cases hx : x = i
    · subst hx; exact hc
    · exact g4 x (by omega) h2
  · rw [if_neg hc] at p
    exact ⟨d, i, r, p, m, s1, pv, l, e, by omega, by omega, by unfold val; omega, fun x h1 h2 => by omega⟩

/-- From below, after an element greater than the pivot. -/
theorem scanDown1 {s : Nat} : ∀ (n k : Nat) (c : Core), k - s = n → s < k → k < 256 → Loaded c.mem → c.pc = 0x204 →
    c.a = c.b → c.hl = adr k → val c.mem s ≤ c.b.toNat → ∃ (d : Core) (j : Nat), Run o v c d ∧ d.pc = 0x208 ∧
      d.mem = c.mem ∧ d.sp = c.sp ∧ d.b = c.b ∧ d.de = c.de ∧ d.hl = adr j ∧ s ≤ j ∧ j < k ∧
      val c.mem j ≤ c.b.toNat ∧ ∀ x, j < x → x < k → c.b.toNat < val c.mem x := by
  intro n
  induction n with
  | zero => intro k c h1 h2; omega
  | succ n ih =>
    intro k c hn hks hk hm hp ha hd hv
    obtain ⟨k, rfl⟩ : ∃ k', k = k' + 1 := ⟨k - 1, by omega⟩
    obtain ⟨d, r, p, m, s1, pv, e, l, a1⟩ := qaDown1 (o := o) (v := v) hm hp ha
    rw [hd, adr_pred (by omega), mem_adr c.mem] at p
    rw [hd, adr_pred (by omega)] at l
    by_cases hc : c.b.toNat < (elem c.mem k).toNat
    · rw [if_pos hc] at p
      have hne : k ≠ s := fun h => by subst h; unfold val at hv; omega
      obtain ⟨f, j, r2, p2, m2, s2, pv2, l2, e2, g1, g2, g3, g4⟩ :=
        ih k d (by omega) (by omega) (by omega) (m ▸ hm) p a1 l (by rw [m, pv]; exact hv)
      rw [m, pv] at g3 g4
      refine ⟨f, j, r.trans r2, p2, m2.trans m, s2.trans s1, pv2.trans pv, l2.trans e, e2, g1, by omega, g3,
        fun x h1 h2 => ?_⟩
      by_cases hx : x = k
      · subst hx; exact hc
      · exact g4 x h1 (by omega)
    · rw [if_neg hc] at p
      exact ⟨d, k, r, p, m, s1, pv, e, l, by omega, by omega, by unfold val; omega, fun x h1 h2 => by omega⟩

/-- From below. -/
theorem scanDown {s k : Nat} {c : Core} (hk : k < 256) (hs : s ≤ k) (hm : Loaded c.mem) (hp : c.pc = 0x200)
    (hd : c.hl = adr k) (hv : val c.mem s ≤ c.b.toNat) : ∃ (d : Core) (j : Nat), Run o v c d ∧ d.pc = 0x208 ∧
      d.mem = c.mem ∧ d.sp = c.sp ∧ d.b = c.b ∧ d.de = c.de ∧ d.hl = adr j ∧ s ≤ j ∧ j ≤ k ∧
      val c.mem j ≤ c.b.toNat ∧ ∀ x, j < x → x ≤ k → c.b.toNat < val c.mem x := by
  obtain ⟨d, r, p, ⟨m, s1, pv, e, l⟩, a1⟩ := qaDown0 (o := o) (v := v) hm hp
  rw [hd, mem_adr c.mem] at p
  rw [hd] at l
  by_cases hc : c.b.toNat < (elem c.mem k).toNat
  · rw [if_pos hc] at p
    have hne : k ≠ s := fun h => by subst h; unfold val at hv; omega
    obtain ⟨f, j, r2, p2, m2, s2, pv2, l2, e2, g1, g2, g3, g4⟩ :=
      scanDown1 (o := o) (v := v) (k - s) k d rfl (by omega) hk (m ▸ hm) p a1 l (by rw [m, pv]; exact hv)
    rw [m, pv] at g3 g4
    refine ⟨f, j, r.trans r2, p2, m2.trans m, s2.trans s1, pv2.trans pv, l2.trans e, e2, g1, by omega, g3,
      fun x h1 h2 => ?_⟩
    by_cases hx : x = k
    · subst hx; exact hc
    · exact g4 x h1 (by omega)
  · rw [if_neg hc] at p
    exact ⟨d, k, r, p, m, s1, pv, e, l, by omega, by omega, by unfold val; omega, fun x h1 h2 => by omega⟩

/-- The comparison and what follows. -/
theorem meet {i j : Nat} {c : Core} (hi : i < 256) (hj : j < 256) (hm : Loaded c.mem) (hp : c.pc = 0x211)
    (hd : c.de = adr i) (hl : c.hl = adr j) : ∃ d : Core, Run o v c d ∧ d.sp = c.sp ∧ d.b = c.b ∧
    (j < i ∧ d.pc = 0x227 ∧ d.mem = c.mem ∧ d.de = adr i ∧ d.hl = adr j ∨
     i = j ∧ d.pc = 0x227 ∧ d.mem = c.mem ∧ d.de = adr (i + 1) ∧ d.hl = adr j + 1 ∨
     i < j ∧ d.pc = 0x200 ∧ Swapped c.mem d.mem j i ∧
       (∀ a : U16, a.toNat ≠ 971 - i → a.toNat ≠ 971 - j → d.mem a = c.mem a) ∧
      d.de = adr (i + 1) ∧ d.hl = adr j + 1) := by
  obtain ⟨d, r, p, ⟨m, s1, pv, e, l⟩, h1, h2⟩ := qaCmp (o := o) (v := v) hm hp
  rw [← e, ← l] at h1 h2
  have ni := adr_nat (i := i) (by omega)
  have nj := adr_nat (i := j) (by omega)
  rw [hd] at e
  rw [hl] at l
  obtain ⟨f, r2, s2, pv2, g⟩ := qaMeet (o := o) (v := v) (m ▸ hm) p h1 h2 (by rw [l]; omega) (by rw [e]; omega)
  rw [e, l, m] at g
  refine ⟨f, r.trans r2, s2.trans s1, pv2.trans pv, ?_⟩
  rcases g with ⟨k1, k2, k3, k4, k5⟩ | ⟨k1, k2, k3, k4, k5⟩ | ⟨k1, k2, k3, k4, k5⟩
  · exact .inl ⟨by omega, k2, k3, k4, k5⟩
  · have := congrArg BitVec.toNat k1
    exact .inr (.inl ⟨by omega, k2, k3, by rw [k4, adr_succ (by omega)], k5⟩)
  · refine .inr (.inr ⟨by omega, k2, ?_, ?_, by rw [k4, adr_succ (by omega)], k5⟩)
    · rw [k3]; exact swapped_put hj hi
    · intro a q1 q2
      rw [k3, put_other, put_other]
      · intro e; rw [e] at q2; omega
      · intro e; rw [e] at q1; omega

/-! ### The partition -/

/-- The address after an index. -/
def below (k : Nat) : U16 := BitVec.ofNat 16 (972 - k)

theorem below_succ (k : Nat) : below (k + 1) = adr k := by unfold below adr; congr 1; omega
theorem below_pred {k : Nat} (h : k ≤ 256) : adr k + 1 = below k := by
  have e1 : (1 : U16).toNat = 1 := rfl
  unfold below adr; apply BitVec.eq_of_toNat_eq; rw [BitVec.toNat_add, e1]; simp only [BitVec.toNat_ofNat]; omega
theorem below_nat {k : Nat} (h : k ≤ 256) : (below k).toNat = 972 - k := by
  rw [below, BitVec.toNat_ofNat]; omega

/-- A part is in order. -/
def Ord (lo hi : Nat) (m : U16 → U8) : Prop := ∀ x y, lo ≤ x → x ≤ y → y ≤ hi → val m x ≤ val m y

/-- Where the pointers are going to meet in a part that is in order: at a distance. -/
def Near (lo hi g i k p : Nat) (m : U16 → U8) : Prop :=
  (∃ s, i ≤ s ∧ s < k ∧ val m s = p ∧ g ≤ i + s) ∨
  (lo < i ∧ k ≤ hi ∧ (∀ x, i ≤ x → x < k → val m x = p) ∧ g + 1 ≤ i + k)

theorem part {lo hi : Nat} (hh : hi < 256) : ∀ (n i k : Nat) (c : Core), k - i = n → Loaded c.mem → c.pc = 0x200 →
    c.de = adr i → c.hl = below k → lo ≤ i → i ≤ k → k ≤ hi + 1 →
    (∀ x, lo ≤ x → x < i → val c.mem x ≤ c.b.toNat) → (∀ x, k ≤ x → x ≤ hi → c.b.toNat ≤ val c.mem x) →
    (∃ s, i ≤ s ∧ s ≤ hi ∧ c.b.toNat ≤ val c.mem s) → (∃ s, lo ≤ s ∧ s < k ∧ val c.mem s ≤ c.b.toNat) →
    (lo < i ∧ k ≤ hi ∨ ∃ s, i ≤ s ∧ s < k ∧ val c.mem s = c.b.toNat) →
    ∃ (d : Core) (i' k' : Nat), Run o v c d ∧ d.pc = 0x227 ∧ d.sp = c.sp ∧ d.de = adr i' ∧ d.hl = below k' ∧
      i' ≤ hi + 1 ∧ lo ≤ k' ∧ k' ≤ i' ∧ lo < i' ∧ k' ≤ hi ∧
      (∀ x, lo ≤ x → x < i' → val d.mem x ≤ c.b.toNat) ∧ (∀ x, k' ≤ x → x ≤ hi → c.b.toNat ≤ val d.mem x) ∧
      Mixed lo hi c.mem d.mem ∧ Frame 0 0 lo hi c.mem d.mem ∧
      ∀ g, Ord lo hi c.mem → Near lo hi g i k c.b.toNat c.mem →
        (∀ x, x < 256 → val d.mem x = val c.mem x) ∧ g + 1 ≤ 2 * i' := by
  intro n
  induction n using Nat.strongRecOn with
  | _ n ih =>
  intro i k c hn hm hp hd hl h1 h2 h3 hL hR hsi hsj hx
  obtain ⟨si, a1, a2, a3⟩ := hsi
  obtain ⟨sj, b1, b2, b3⟩ := hsj
  obtain ⟨k, rfl⟩ : ∃ k', k = k' + 1 := ⟨k - 1, by omega⟩
  rw [below_succ] at hl
  obtain ⟨c1, j1, r1, p1, m1, s1, pv1, e1, l1, w1, w2, w3, w4⟩ :=
    scanDown (o := o) (v := v) (s := sj) (k := k) (c := c) (by omega) (by omega) hm hp hl b3
  obtain ⟨c2, i1, r2, p2, m2, s2, pv2, l2, e2, u1, u2, u3, u4⟩ := scanUp (o := o) (v := v) (s := si) (i := i) (c := c1)
    (by omega) a1 (m1 ▸ hm) p1 (e1.trans hd) (by rw [m1, pv1]; exact a3)
  rw [m1, pv1] at u3 u4
  rw [l1] at l2
  have m2' : c2.mem = c.mem := m2.trans m1
  have pv2' : c2.b = c.b := pv2.trans pv1
  obtain ⟨d, r3, s3, pv3, g⟩ := meet (o := o) (v := v) (i := i1) (j := j1) (c := c2) (by omega) (by omega)
    (m2'.symm ▸ hm) p2 e2 l2
  rw [m2'] at g
  have rr : Run o v c d := r1.trans (r2.trans r3)
  have ss : d.sp = c.sp := s3.trans (s2.trans s1)
  have low : ∀ x, lo ≤ x → x < i1 → val c.mem x ≤ c.b.toNat := fun x q1 q2 => by
    by_cases q : x < i
    · exact hL x q1 q
    · exact Nat.le_of_lt (u4 x (by omega) q2)
  have high : ∀ x, j1 < x → x ≤ hi → c.b.toNat ≤ val c.mem x := fun x q1 q2 => by
    by_cases q : k < x
    · exact hR x (by omega) q2
    · exact Nat.le_of_lt (w4 x q1 (by omega))
  have near : ∀ g, Ord lo hi c.mem → Near lo hi g i (k + 1) c.b.toNat c.mem → g ≤ i1 + j1 := by
    intro g ho hg
    rcases hg with ⟨s, q1, q2, q3, q4⟩ | ⟨q1, q2, q3, q4⟩
    · have : s ≤ j1 := by
        by_cases q : j1 < s
        · have := w4 s q (by omega); omega
        · omega
      omega
    · have : k ≤ j1 := by
        by_cases q : j1 < k
        · have z := w4 k q (Nat.le_refl _)
          by_cases y : i ≤ k
          · have := q3 k y (by omega); omega
          · have := hL k (by omega) (by omega); omega
        · omega
      omega
  have flat : Ord lo hi c.mem → i1 ≤ j1 → val c.mem i1 = val c.mem j1 := fun ho q => by
    have := ho i1 j1 (by omega) q (by omega)
    omega
  rcases g with ⟨k1, k2, k3, k4, k5⟩ | ⟨k1, k2, k3, k4, k5⟩ | ⟨k1, k2, k3, k6, k4, k5⟩
  · have hx' : lo < i ∧ k + 1 ≤ hi := by
      rcases hx with hx | ⟨s, q1, q2, q3⟩
      · exact hx
      · exfalso
        have : i1 ≤ s := by
          by_cases q : s < i1
          · have := u4 s q1 q; omega
          · omega
        have : s ≤ j1 := by
          by_cases q : j1 < s
          · have := w4 s q (by omega); omega
          · omega
        omega
    refine ⟨d, i1, j1 + 1, rr, k2, ss, k4, by rw [k5, below_succ], by omega, by omega, by omega, by omega, by omega,
      ?_, ?_, ?_, ?_, ?_⟩
    · rw [k3]; exact low
    · rw [k3]; intro x q1 q2; exact high x (by omega) q2
    · exact Mixed.same fun x _ => by rw [k3]
    · rw [k3]; exact Frame.refl _ _ _ _ _
    · intro g ho hg
      have := near g ho hg
      exact ⟨fun x _ => by rw [k3], by omega⟩
  · subst k1
    refine ⟨d, i1 + 1, i1, rr, k2, ss, k4, by rw [k5, below_pred (by omega)], by omega, by omega, by omega, by omega, by omega,
      ?_, ?_, ?_, ?_, ?_⟩
    · rw [k3]; intro x q1 q2
      by_cases q : x = i1
      · subst q; exact w3
      · exact low x q1 (by omega)
    · rw [k3]; intro x q1 q2
      by_cases q : x = i1
      · subst q; exact u3
      · exact high x (by omega) q2
    · exact Mixed.same fun x _ => by rw [k3]
    · rw [k3]; exact Frame.refl _ _ _ _ _
    · intro g ho hg
      have := near g ho hg
      exact ⟨fun x _ => by rw [k3], by omega⟩
  · have pvd : d.b = c.b := pv3.trans pv2'
    have vi : val d.mem i1 = val c.mem j1 := congrArg BitVec.toNat k3.right
    have vj : val d.mem j1 = val c.mem i1 := congrArg BitVec.toNat k3.left
    have vo : ∀ x, x < 256 → x ≠ i1 → x ≠ j1 → val d.mem x = val c.mem x :=
      fun x q1 q2 q3 => congrArg BitVec.toNat (k3.rest x q1 q3 q2)
    have fr : Frame 0 0 lo hi c.mem d.mem := fun a q1 q2 => k6 a (by omega) (by omega)
    obtain ⟨f, i', k', t1, t2, t3, t4, t5, t6, t7, t8, t9, t10, t11, t12, t13, t14, t15⟩ :=
      ih (j1 - (i1 + 1)) (by omega) (i1 + 1) j1 d rfl (by
          have q := fr
          intro z hz
          have ez : (BitVec.ofNat 16 z).toNat = z := by rw [BitVec.toNat_ofNat]; omega
          rw [q _ (by omega) (by omega), hm z hz])
        k2 k4 (by rw [k5, below_pred (by omega)]) (by omega) (by omega) (by omega)
        (by
          rw [pvd]
          intro x q1 q2
          by_cases q : x = i1
          · subst q; rw [vi]; exact w3
          · rw [vo x (by omega) q (by omega)]; exact low x q1 (by omega))
        (by
          rw [pvd]
          intro x q1 q2
          by_cases q : x = j1
          · subst q; rw [vj]; exact u3
          · rw [vo x (by omega) (by omega) q]; exact high x (by omega) q2)
        ⟨j1, by omega, by omega, by rw [pvd, vj]; exact u3⟩ ⟨i1, by omega, by omega, by rw [pvd, vi]; exact w3⟩
        (.inl ⟨by omega, by omega⟩)
    rw [pvd] at t11 t12 t15
    exact ⟨f, i', k', rr.trans t1, t2, t3.trans ss, t4, t5, t6, t7, t8, t9, t10, t11, t12,
      (k3.mixed (by omega) (by omega) (by omega) (by omega)).trans hh t13, fr.trans t14, fun g ho hg => by
        have q := near g ho hg
        have fl := flat ho (by omega)
        have same : ∀ x, x < 256 → val d.mem x = val c.mem x := fun x hx => by
          by_cases q1 : x = i1
          · rw [q1, vi, fl]
          · by_cases q2 : x = j1
            · rw [q2, vj, fl]
            · exact vo x hx q1 q2
        obtain ⟨z1, z2⟩ := t15 g
          (fun x y b1 b2 b3 => by rw [same x (by omega), same y (by omega)]; exact ho x y b1 b2 b3)
          (.inr ⟨by omega, by omega, fun x b1 b2 => by
            rw [same x (by omega)]
            have := ho i1 x (by omega) (by omega) (by omega)
            have := ho x j1 (by omega) (by omega) (by omega)
            omega, by omega⟩)
        exact ⟨fun x hx => (z1 x hx).trans (same x hx), z2⟩⟩

end Z80.Routine.Down
