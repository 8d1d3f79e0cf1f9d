import Verif.Proofs.ShuffleQuickDownSort

/-!
# The quick sort routine for descending order: an array for which the stack is not large enough
-/

set_option linter.unusedVariables false

namespace Z80.Routine.Down
open Spec Spec.Shuffle
variable {w : Nat} {O R I : Type} {o : Opt} {v : Env w O R I}

set_option maxHeartbeats 800000 in
/-- One level of the recursion when the least element is in the middle. -/
theorem level {t : Nat} {c : Core} (ht : t < 200) (hm : Loaded c.mem) (hp : c.pc = 0x1F4) (hd : c.de = adr t)
    (hl : c.hl = adr 255) (hs : 1000 ≤ c.sp.toNat) (hs2 : c.sp.toNat ≤ 1504)
    (hv : ∀ x, t ≤ x → x ≤ 255 → x ≠ (t + 256) / 2 → val c.mem ((t + 256) / 2) < val c.mem x) :
    ∃ d : Core, Run o v c d ∧ d.pc = 0x1F4 ∧ d.sp = c.sp - 4 - 2 ∧ d.de = adr (t + 1) ∧ d.hl = adr 255 ∧
      val d.mem ((t + 256) / 2) = val c.mem t ∧
      (∀ x, t < x → x ≤ 255 → x ≠ (t + 256) / 2 → val d.mem x = val c.mem x) ∧
      Frame 994 c.sp.toNat t 255 c.mem d.mem := by
  obtain ⟨mid, hmid⟩ : ∃ mid, mid = (t + 256) / 2 := ⟨_, rfl⟩
  rw [← hmid] at hv ⊢
  have nt := adr_nat (i := t) (by omega)
  have nt1 := adr_nat (i := t + 1) (by omega)
  have n255 := adr_nat (i := 255) (by decide)
  have q1 := nat1 (s := c.sp) (by omega)
  have q2 := nat2 (s := c.sp) (by omega)
  have q3 := nat3 (s := c.sp) (by omega)
  have q4 := nat4 (s := c.sp) (by omega)
  have e24 := down2 c.sp
  have e21 := down3 c.sp
  have e43 := up3 c.sp
  obtain ⟨c1, r1, p1, s1, m1, e1, l1, pv1⟩ := qaEnter (o := o) (v := v) hm hp (by omega) (by rw [hd, hl]; omega)
  rw [e24] at s1
  have f1 : Frame 994 c.sp.toNat t 255 c.mem c1.mem := by
    rw [m1]
    exact (frame_push _ _ (by omega) (by omega)).trans (frame_push _ _ (by omega) (by omega))
  have x1 : ∀ x, x < 256 → val c1.mem x = val c.mem x := fun x hx => by
    unfold val
    rw [m1, elem_push _ hx (by omega), elem_push _ hx (by omega)]
  have hm1 : Loaded c1.mem := f1.loaded (by omega) hm
  have w3 : c1.mem (c.sp - 3) = hi8 (adr 255) := by rw [m1, ← e21, push_hi, hl]
  have w4 : c1.mem (c.sp - 4) = lo8 (adr 255) := by rw [m1, ← e24, push_lo, hl]
  rw [hd] at e1
  rw [hl] at l1
  have pv : c1.b.toNat = val c.mem mid := by
    rw [← x1 mid (by omega), pv1, hd, hl, nt, n255, show (971 - t + (971 - 255)) / 2 = 971 - mid by omega]
    rfl
  have hv1 : ∀ x, t ≤ x → x ≤ 255 → x ≠ mid → c1.b.toNat < val c1.mem x := fun x a b d => by
    rw [pv, x1 x (by omega)]; exact hv x a b d
  have pvm : val c1.mem mid = c1.b.toNat := by rw [x1 mid (by omega), pv]
  -- both pointers go to the elements to be exchanged
  obtain ⟨c2, j3, r2, p2, m2, s2, pv2, e2, l2, b1, b2, b3, _⟩ := scanDown (o := o) (v := v) (s := mid) (k := 255)
    (c := c1) (by omega) (by omega) hm1 p1 l1 (by rw [pvm])
  obtain rfl : j3 = mid := by
    by_cases q : j3 = mid
    · exact q
    · have := hv1 j3 (by omega) (by omega) q; omega
  obtain ⟨c3, j, r3, p3, m3, s3, pv3, l3, e3, a1, a2, _, _⟩ := scanUp (o := o) (v := v) (s := t) (i := t) (c := c2)
    (by omega) (Nat.le_refl _) (m2.symm ▸ hm1) p2 (e2.trans e1)
    (by rw [m2, pv2]; exact Nat.le_of_lt (hv1 t (by omega) (by omega) (by omega)))
  obtain rfl : j = t := by omega
  rw [m2] at m3
  obtain ⟨c4, r4, s4, pv4, g⟩ := meet (o := o) (v := v) (i := j) (j := j3) (c := c3) (by omega) (by omega)
    (m3.symm ▸ hm1) p3 e3 (l3.trans l2)
  have g : c4.pc = 0x200 ∧ Swapped c1.mem c4.mem j3 j ∧
       (∀ a : U16, a.toNat ≠ 971 - j → a.toNat ≠ 971 - j3 → c4.mem a = c1.mem a) ∧
      c4.de = adr (j + 1) ∧ c4.hl = adr j3 + 1 := by
    rw [m3] at g
    rcases g with g | g | g
    · exact absurd g.1 (by omega)
    · exact absurd g.1 (by omega)
    · exact g.2
  obtain ⟨p4, sw, o4, e4, l4⟩ := g
  have pv4' : c4.b = c1.b := pv4.trans (pv3.trans pv2)
  have s4' : c4.sp = c.sp - 4 := s4.trans (s3.trans (s2.trans s1))
  have hm4 : Loaded c4.mem := by
    intro z hz
    have ez : (BitVec.ofNat 16 z).toNat = z := by rw [BitVec.toNat_ofNat]; omega
    rw [o4 _ (by omega) (by omega), hm1 z hz]
  have vt : val c4.mem j = c1.b.toNat := by rw [← pvm]; exact congrArg BitVec.toNat sw.right
  have vm : val c4.mem j3 = val c1.mem j := congrArg BitVec.toNat sw.left
  have vo : ∀ x, x < 256 → x ≠ j → x ≠ j3 → val c4.mem x = val c1.mem x :=
    fun x a b d => congrArg BitVec.toNat (sw.rest x a d b)
  have hv4 : ∀ x, j < x → x ≤ 255 → c1.b.toNat < val c4.mem x := fun x a b => by
    by_cases q : x = j3
    · rw [q, vm]; exact hv1 j (by omega) (by omega) (by omega)
    · rw [vo x (by omega) (by omega) q]; exact hv1 x (by omega) b q
  -- they meet at the beginning
  have l4' : c4.hl = adr (j3 - 1) := by
    rw [l4, show j3 = j3 - 1 + 1 by omega, adr_pred (by omega)]; rfl
  obtain ⟨c5, j6, r5, p5, m5, s5, pv5, e5, l5, b5, b6, b7, _⟩ := scanDown (o := o) (v := v) (s := j) (k := j3 - 1)
    (c := c4) (by omega) (by omega) hm4 p4 l4' (by rw [pv4', vt])
  rw [pv4'] at b7
  obtain rfl : j6 = j := by
    by_cases q : j6 = j
    · exact q
    · have := hv4 j6 (by omega) (by omega); omega
  obtain ⟨c6, i5, r6, p6, m6, s6, pv6, l6, e6, a5, a6, _, _⟩ := scanUp (o := o) (v := v) (s := j6 + 1) (i := j6 + 1)
    (c := c5) (by omega) (Nat.le_refl _) (m5.symm ▸ hm4) p5 (e5.trans e4)
    (by rw [m5, pv5, pv4']; exact Nat.le_of_lt (hv4 _ (by omega) (by omega)))
  obtain rfl : i5 = j6 + 1 := by omega
  rw [m5] at m6
  obtain ⟨c7, r7, s7, pv7, g7⟩ := meet (o := o) (v := v) (i := j6 + 1) (j := j6) (c := c6) (by omega) (by omega)
    (m6.symm ▸ hm4) p6 e6 (l6.trans l5)
  have g7 : c7.pc = 0x227 ∧ c7.mem = c4.mem ∧ c7.de = adr (j6 + 1) ∧ c7.hl = adr j6 := by
    rw [m6] at g7
    rcases g7 with g | g | g
    · exact g.2
    · exact absurd g.1 (by omega)
    · exact absurd g.1 (by omega)
  obtain ⟨p7, m7, e7, l7⟩ := g7
  have s7' : c7.sp = c.sp - 4 := s7.trans (s6.trans (s5.trans s4'))
  obtain ⟨c8, r8, p8, s8, e8, l8, m8⟩ := qaExch (o := o) (v := v) (m7.symm ▸ hm4) p7 (by rw [s7']; omega)
    (by rw [s7']; omega)
  rw [s7', e43, m7, o4 _ (by omega) (by omega), o4 _ (by omega) (by omega), w3, w4, word_hi8_lo8] at l8
  rw [s7', e43, m7] at m8
  have f8 : Frame 994 c.sp.toNat j6 255 c4.mem c8.mem := by
    rw [m8]
    exact (frame_put _ _ (by omega) (by omega)).trans (frame_put _ _ (by omega) (by omega))
  have v8 : ∀ x, x < 256 → val c8.mem x = val c4.mem x := fun x hx => by
    unfold val
    rw [m8, elem_put _ hx (.inr (by omega)), elem_put _ hx (.inr (by omega))]
  have hm8 := f8.loaded (by omega) hm4
  obtain ⟨c9, r9, p9, ⟨m9, s9, pv9, e9, l9⟩, h9⟩ := qaCmp2 (o := o) (v := v) hm8 p8
  rw [e8, e7, l8, nt1, n255] at h9
  obtain ⟨d, r10, e10, l10, h10⟩ := qaCall (o := o) (v := v) (m9.symm ▸ hm8) p9
  have h10 : d.pc = 0x1F4 ∧ d.sp = c.sp - 4 - 2 ∧ d.mem = push c8.mem (c.sp - 4) 0x231 := by
    rw [h9, s9, s8, s7', m9] at h10
    rcases h10 with h | h
    · exact h.2
    · exact absurd h.1 (by rw [decide_eq_true (by omega)]; decide)
  obtain ⟨p10, s10, m10⟩ := h10
  have v10 : ∀ x, x < 256 → val d.mem x = val c4.mem x := fun x hx => by
    rw [← v8 x hx]
    unfold val
    rw [m10, elem_push _ hx (by omega)]
  refine ⟨d, r1.trans (r2.trans (r3.trans (r4.trans (r5.trans (r6.trans (r7.trans (r8.trans (r9.trans r10)))))))), p10, s10,
    by rw [e10, e9, e8, e7], by rw [l10, l9, l8], ?_, ?_, ?_⟩
  · rw [v10 _ (by omega), vm, x1 _ (by omega)]
  · intro x a b d
    rw [v10 x (by omega), vo x (by omega) (by omega) d, x1 x (by omega)]
  · refine (f1.trans ?_).trans (f8.trans ?_)
    · intro a b1 b2
      exact o4 a (by omega) (by omega)
    · rw [m10]; exact frame_push _ _ (by omega) (by omega)

/-- The array at a level, counted from the end. -/
def deep (t x : Nat) : Nat :=
  if x < 128 then (if x % 2 = 0 then x + 1 else 255)
  else if t ≤ 2 * (x - 128) then 2 * (x - 128)
  else if t = 2 * (x - 128) + 1 then 2 * (x - 128) + 1 else 255

theorem deep_least {t x : Nat} (ht : t < 100) (h1 : t ≤ x) (h2 : x ≤ 255) (h3 : x ≠ (t + 256) / 2) :
    deep t ((t + 256) / 2) < deep t x := by
  have e : deep t ((t + 256) / 2) = t := by
    unfold deep; repeat' split
    all_goals omega
  rw [e]
  unfold deep; repeat' split
  all_goals omega

theorem deep_swap {t : Nat} (ht : t < 100) : deep (t + 1) ((t + 256) / 2) = deep t t := by
  unfold deep; repeat' split
  all_goals omega

theorem deep_rest {t x : Nat} (ht : t < 100) (h1 : t < x) (h2 : x ≤ 255) (h3 : x ≠ (t + 256) / 2) :
    deep (t + 1) x = deep t x := by
  unfold deep; repeat' split
  all_goals omega

/-- As far as the stack goes. -/
theorem levels : ∀ (t : Nat) (c : Core), t ≤ 85 → Loaded c.mem → c.pc = 0x1F4 → c.de = adr 0 → c.hl = adr 255 →
    c.sp.toNat = 1504 → (∀ x, x ≤ 255 → val c.mem x = deep 0 x) →
    ∃ d : Core, Run o v c d ∧ d.pc = 0x1F4 ∧ d.sp.toNat = 1504 - 6 * t ∧ d.de = adr t ∧ d.hl = adr 255 ∧
      (∀ x, t ≤ x → x ≤ 255 → val d.mem x = deep t x) ∧ Frame 994 1504 0 255 c.mem d.mem := by
  intro t
  induction t with
  | zero =>
    intro c _ hm hp hd hl hs hv
    exact ⟨c, .refl _, hp, hs, hd, hl, fun x _ h => hv x h, Frame.refl _ _ _ _ _⟩
  | succ t ih =>
    intro c ht hm hp hd hl hs hv
    obtain ⟨d, r, p, s, e, l, g, f⟩ := ih c (by omega) hm hp hd hl hs hv
    obtain ⟨d2, r2, p2, s2, e2, l2, g2, g3, f2⟩ := level (o := o) (v := v) (t := t) (by omega) (f.loaded (by omega) hm) p e l
      (by omega) (by omega) (fun x a b q => by
        rw [g x a b, g _ (by omega) (by omega)]
        exact deep_least (by omega) a b q)
    have n6 := nat6 (s := d.sp) (by omega)
    refine ⟨d2, r.trans r2, p2, by rw [s2, n6]; omega, e2, l2, fun x a b => ?_,
      f.trans (f2.mono (by omega) (by omega) (Nat.le_refl _))⟩
    by_cases q : x = (t + 256) / 2
    · rw [q, g2, g t (Nat.le_refl _) (by omega), deep_swap (by omega)]
    · rw [g3 x (by omega) b q, g x (by omega) b, deep_rest (by omega) (by omega) b q]

end Z80.Routine.Down
