import Verif.Proofs.ShuffleQuick

/-!
# The quick sort routine of the test program: the recursion

`/repo/tests/shuffle/shuffle.bin` 399-485 on the specified machine, down to a given depth of the stack.
-/

set_option linter.unusedVariables false

namespace Z80.Routine
open Spec Spec.Shuffle
variable {w : Nat} {O R I : Type} {o : Opt} {v : Env w O R I}

theorem push_hi (m : U16 → U8) (s x : U16) : push m s x (s - 1) = hi8 x := by
  rw [push_eq, put_other, put_same]
  bv_omega
theorem push_lo (m : U16 → U8) (s x : U16) : push m s x (s - 2) = lo8 x := by
  rw [push_eq, put_same]

theorem ne_nat {a b : U16} (h : a.toNat ≠ b.toNat) : a ≠ b := fun e => h (congrArg _ e)

theorem down2 (s : U16) : s - 2 - 2 = s - 4 := by bv_omega
theorem down3 (s : U16) : s - 2 - 1 = s - 3 := by bv_omega
theorem up3 (s : U16) : s - 4 + 1 = s - 3 := by bv_omega
theorem up2 (s : U16) : s - 4 + 2 = s - 2 := by bv_omega
theorem up1 (s : U16) : s - 2 + 1 = s - 1 := by bv_omega
theorem up0 (s : U16) : s - 2 + 2 = s := by bv_omega
theorem up5 (s : U16) : s - 2 + 1 = s - 1 := by bv_omega
theorem nat1 {s : U16} (h : 6 ≤ s.toNat) : (s - 1).toNat = s.toNat - 1 := by bv_omega
theorem nat2 {s : U16} (h : 6 ≤ s.toNat) : (s - 2).toNat = s.toNat - 2 := by bv_omega
theorem nat3 {s : U16} (h : 6 ≤ s.toNat) : (s - 3).toNat = s.toNat - 3 := by bv_omega
theorem nat4 {s : U16} (h : 6 ≤ s.toNat) : (s - 4).toNat = s.toNat - 4 := by bv_omega
theorem nat6 {s : U16} (h : 6 ≤ s.toNat) : (s - 4 - 2).toNat = s.toNat - 6 := by bv_omega
theorem natUp {s : U16} (h : s.toNat ≤ 1504) : (s + 1).toNat = s.toNat + 1 := by bv_omega

/-- The routine is about to begin a part while the stack goes down to `F`. -/
structure Exhausted (F : Nat) (c d : Core) : Prop where
  pc : d.pc = 0x19D
  sp : d.sp.toNat = F
  loaded : Loaded d.mem
  de : 716 ≤ d.de.toNat ∧ d.de.toNat < 972

/-- The part from `lo` to `hi` is sorted and the routine has returned. -/
structure QuickDone (F lo hi : Nat) (c d : Core) : Prop where
  pc : d.pc = word (c.mem (c.sp + 1)) (c.mem c.sp)
  sp : d.sp = c.sp + 2
  mixed : Mixed lo hi c.mem d.mem
  order : ∀ x y, lo ≤ x → x ≤ y → y ≤ hi → val d.mem x ≤ val d.mem y
  frame : Frame F c.sp.toNat lo hi c.mem d.mem

/-- The partition of a part: 0x19D to 0x1D1. -/
theorem split {F lo hi : Nat} {c : Core} (hF : 972 ≤ F) (hlh : lo < hi) (hh : hi < 256) (hm : Loaded c.mem)
    (hp : c.pc = 0x19D) (hd : c.de = adr lo) (hl : c.hl = adr hi) (hs : F + 4 ≤ c.sp.toNat) :
    ∃ (d : Core) (i k p : Nat), Run o v c d ∧ d.pc = 0x1D1 ∧ d.sp = c.sp - 4 ∧ d.de = adr i ∧ d.hl = adr hi ∧
      i ≤ hi + 1 ∧ lo ≤ k ∧ k ≤ i ∧ lo < i ∧ k ≤ hi ∧
      (∀ x, lo ≤ x → x < i → val d.mem x ≤ p) ∧ (∀ x, k ≤ x → x ≤ hi → p ≤ val d.mem x) ∧
      Mixed lo hi c.mem d.mem ∧ Frame F c.sp.toNat lo hi c.mem d.mem ∧
      word (d.mem (c.sp - 3)) (d.mem (c.sp - 4)) = below k ∧ word (d.mem (c.sp - 1)) (d.mem (c.sp - 2)) = adr lo ∧
      (Ord lo hi c.mem → (∀ x, x < 256 → val d.mem x = val c.mem x) ∧ lo + (lo + hi) / 2 + 1 ≤ 2 * i) := by
  have nlo := adr_nat (i := lo) (by omega)
  have nhi := adr_nat hh
  have hsl := c.sp.isLt
  obtain ⟨c1, r1, p1, s1, m1, e1, l1, pv1⟩ := qaEnter (o := o) (v := v) hm hp (by omega) (by rw [hd, hl]; omega)
  have q1 := nat1 (s := c.sp) (by omega)
  have q2 := nat2 (s := c.sp) (by omega)
  have q3 := nat3 (s := c.sp) (by omega)
  have q4 := nat4 (s := c.sp) (by omega)
  have e24 := down2 c.sp
  have e21 := down3 c.sp
  have e43 := up3 c.sp
  rw [e24] at s1
  have f1 : Frame F c.sp.toNat lo hi c.mem c1.mem := by
    rw [m1]
    exact (frame_push _ _ (by omega) (by omega)).trans (frame_push _ _ (by omega) (by omega))
  have x1 : Mixed lo hi c.mem c1.mem := Mixed.same fun x hx => by
    rw [m1, elem_push _ hx (by omega), elem_push _ hx (by omega)]
  have hm1 : Loaded c1.mem := f1.loaded (by omega) hm
  have w1 : c1.mem (c.sp - 1) = hi8 (adr lo) := by
    rw [m1, push_eq _ (c.sp - 2), e21, e24, put_other _ _ (ne_nat (by omega)), put_other _ _ (ne_nat (by omega)), push_hi, hd]
  have w2 : c1.mem (c.sp - 2) = lo8 (adr lo) := by
    rw [m1, push_eq _ (c.sp - 2), e21, e24, put_other _ _ (ne_nat (by omega)), put_other _ _ (ne_nat (by omega)), push_lo, hd]
  have w3 : c1.mem (c.sp - 3) = hi8 (adr hi) := by rw [m1, ← e21, push_hi, hl]
  have w4 : c1.mem (c.sp - 4) = lo8 (adr hi) := by rw [m1, ← e24, push_lo, hl]
  rw [hd] at e1
  rw [hl] at l1
  -- the pivot
  have pv : c1.c.toNat = val c1.mem ((lo + hi) / 2) := by
    rw [pv1, hd, hl, nlo, nhi, show (716 + lo + (716 + hi)) / 2 = 716 + (lo + hi) / 2 by omega]
    rfl
  obtain ⟨c2, i, k, r2, p2, s2, e2, l2, g1, g2, g3, g4, g5, g6, g7, x2, f2, y2⟩ :=
    part (o := o) (v := v) (lo := lo) hh _ lo (hi + 1) c1 rfl hm1 p1 e1 (by rw [l1, below_succ]) (Nat.le_refl _) (by omega)
      (Nat.le_refl _) (fun x _ _ => by omega) (fun x _ _ => by omega)
      ⟨(lo + hi) / 2, by omega, by omega, by omega⟩ ⟨(lo + hi) / 2, by omega, by omega, by omega⟩
      (.inr ⟨(lo + hi) / 2, by omega, by omega, by omega⟩)
  have hm2 : Loaded c2.mem := by
    intro z hz
    have ez : (BitVec.ofNat 16 z).toNat = z := by rw [BitVec.toNat_ofNat]; omega
    rw [f2 _ (by omega) (by omega), hm1 z hz]
  have st : ∀ a : U16, 972 ≤ a.toNat → c2.mem a = c1.mem a := fun a ha => f2 a (by omega) (by omega)
  have s2' : c2.sp = c.sp - 4 := s2.trans s1
  obtain ⟨c3, r3, p3, s3, e3, l3, m3⟩ := qaExch (o := o) (v := v) hm2 p2 (by rw [s2']; omega) (by rw [s2']; omega)
  rw [s2', e43] at l3 m3
  rw [st _ (by omega), st _ (by omega), w3, w4, word_hi8_lo8] at l3
  have f3 : Frame F c.sp.toNat lo hi c2.mem c3.mem := by
    rw [m3]
    exact (frame_put _ _ (by omega) (by omega)).trans (frame_put _ _ (by omega) (by omega))
  have v3 : ∀ x, x < 256 → elem c3.mem x = elem c2.mem x := fun x hx => by
    rw [m3, elem_put _ hx (.inr (by omega)), elem_put _ hx (.inr (by omega))]
  have v3' : ∀ x, x < 256 → val c3.mem x = val c2.mem x := fun x hx => congrArg BitVec.toNat (v3 x hx)
  refine ⟨c3, i, k, c1.c.toNat, r1.trans (r2.trans r3), p3, s3.trans s2', e3.trans e2, l3, g1, g2, g3, g4, g5, ?_, ?_, ?_, ?_, ?_, ?_, ?_⟩
  · intro x a b; rw [v3' x (by omega)]; exact g6 x a b
  · intro x a b; rw [v3' x (by omega)]; exact g7 x a b
  · exact (x1.trans hh x2).trans hh (Mixed.same v3)
  · exact (f1.trans (fun a h _ => f2 a h (by omega))).trans f3
  · rw [m3, put_same, put_other _ _ (ne_nat (by omega)), put_same, l2, word_hi8_lo8]
  · rw [m3, put_other _ _ (ne_nat (by omega)), put_other _ _ (ne_nat (by omega)), put_other _ _ (ne_nat (by omega)),
      put_other _ _ (ne_nat (by omega)), st _ (by omega), st _ (by omega), w1, w2, word_hi8_lo8]
  · intro ho
    have x1' : ∀ x, x < 256 → val c1.mem x = val c.mem x := fun x hx => by
      unfold val
      rw [m1, elem_push _ hx (by omega), elem_push _ hx (by omega)]
    obtain ⟨z1, z2⟩ := y2 (lo + (lo + hi) / 2)
      (fun x y b1 b2 b3 => by rw [x1' x (by omega), x1' y (by omega)]; exact ho x y b1 b2 b3)
      (.inl ⟨(lo + hi) / 2, by omega, by omega, pv.symm, Nat.le_refl _⟩)
    exact ⟨fun x hx => (v3' x hx).trans ((z1 x hx).trans (x1' x hx)), z2⟩

/-- How many levels a part with `n + 1` elements takes if it is in order. -/
def levelsOf (n : Nat) : Nat :=
  if n ≤ 80 then n else if n ≤ 107 then 81 else if n ≤ 143 then 82 else if n ≤ 191 then 83 else 84

theorem levelsOf_upper {lo hi i : Nat} (h : hi < 256) (h1 : lo < i) (h2 : i < hi) (h3 : lo + (lo + hi) / 2 + 1 ≤ 2 * i) :
    levelsOf (hi - i) + 1 ≤ levelsOf (hi - lo) := by
  unfold levelsOf
  split <;> split <;> (try split) <;> (try split) <;> (try split) <;> (try split) <;> (try split) <;> (try split) <;> omega

theorem levelsOf_lower {n k : Nat} (h1 : k ≤ n) : levelsOf k ≤ levelsOf n := by
  unfold levelsOf
  split <;> split <;> (try split) <;> (try split) <;> (try split) <;> (try split) <;> (try split) <;> (try split) <;> omega

set_option maxHeartbeats 800000 in
/-- The parts of a part. -/
theorem quick {F : Nat} (hF : 972 ≤ F) : ∀ (n lo hi : Nat) (c : Core), hi - lo = n → lo < hi → hi < 256 → Loaded c.mem →
    c.pc = 0x19D → c.de = adr lo → c.hl = adr hi → F ≤ c.sp.toNat → c.sp.toNat ≤ 1504 → (c.sp.toNat - F) % 6 = 0 →
    ∃ d : Core, Run o v c d ∧ (Exhausted F c d ∨ QuickDone F lo hi c d) ∧
      (Ord lo hi c.mem → F + 6 + 6 * levelsOf (hi - lo) ≤ c.sp.toNat → QuickDone F lo hi c d) := by
  intro n
  induction n using Nat.strongRecOn with
  | _ n ih =>
  intro lo hi c hn hlh hh hm hp hd hl hs1 hs2 hs3
  have nlo := adr_nat (i := lo) (by omega)
  have nhi := adr_nat hh
  by_cases hs : c.sp.toNat = F
  · exact ⟨c, .refl _, .inl ⟨hp, hs, hm, by rw [hd]; omega⟩, fun _ _ => by omega⟩
  have q1 := nat1 (s := c.sp) (by omega)
  have q2 := nat2 (s := c.sp) (by omega)
  have q3 := nat3 (s := c.sp) (by omega)
  have q4 := nat4 (s := c.sp) (by omega)
  have q6 := nat6 (s := c.sp) (by omega)
  have qu := natUp hs2
  have e43 := up3 c.sp
  have e42 := up2 c.sp
  have e21 := up1 c.sp
  have e40 : c.sp - 4 + 2 + 2 = c.sp := by rw [e42]; exact up0 _
  obtain ⟨c1, i, k, p, r1, p1, s1, e1, l1, g1, g2, g3, g4, g5, g6, g7, x1, f1, t1, t2, y1⟩ :=
    split (o := o) (v := v) hF hlh hh hm hp hd hl (by omega)
  have hm1 := f1.loaded (by omega) hm
  obtain ⟨c2, r2, p2, ⟨m2, s2, pv2, e2, l2⟩, h2⟩ := qaCmp2 (o := o) (v := v) hm1 p1
  rw [e1, l1] at h2
  have ni : (adr i).toNat = 716 + i := by rw [adr, BitVec.toNat_ofNat]; omega
  rw [ni, nhi] at h2
  obtain ⟨c3, r3, e3, l3, h3⟩ := qaCall (o := o) (v := v) (m2.symm ▸ hm1) p2
  rw [h2, s2, s1, m2] at h3
  rw [e2, e1] at e3
  rw [l2, l1] at l3
  have rr : Run o v c c3 := r1.trans (r2.trans r3)
  -- the upper part
  have upper : ∃ d : Core, Run o v c d ∧ (Exhausted F c d ∨ d.pc = 0x1DA ∧ d.sp = c.sp - 4 ∧ Mixed i hi c1.mem d.mem ∧
      (∀ x y, i ≤ x → x ≤ y → y ≤ hi → val d.mem x ≤ val d.mem y) ∧ Frame F (c.sp.toNat - 4) i hi c1.mem d.mem) ∧
      (Ord lo hi c.mem → F + 6 + 6 * levelsOf (hi - lo) ≤ c.sp.toNat → d.pc = 0x1DA) := by
    rcases h3 with ⟨a1, a2, a3, a4⟩ | ⟨a1, a2, a3, a4⟩
    · have hih : i < hi := by have := of_decide_eq_true a1; omega
      have f3 : Frame F (c.sp.toNat - 4) i hi c1.mem c3.mem := by
        rw [a4]; exact frame_push _ _ (by omega) (by omega)
      have v3 : ∀ x, x < 256 → elem c3.mem x = elem c1.mem x := fun x hx => by rw [a4, elem_push _ hx (by omega)]
      obtain ⟨d, r4, h4, y4⟩ := ih (hi - i) (by omega) i hi c3 rfl hih hh (f3.loaded (by omega) hm1) a2 e3 l3
        (by rw [a3]; omega) (by rw [a3]; omega) (by rw [a3]; omega)
      have back : QuickDone F i hi c3 d → d.pc = 0x1DA := fun h4 => by
        rw [h4.pc, a3, a4, up5 (c.sp - 4), push_hi, push_lo, word_hi8_lo8]
      refine ⟨d, rr.trans r4, ?_, fun ho hb => ?_⟩
      rotate_left
      · obtain ⟨z1, z2⟩ := y1 ho
        have := levelsOf_upper hh g4 hih z2
        refine back (y4 (fun x y b1 b2 b3 => ?_) (by rw [a3]; omega))
        have q : ∀ x, x < 256 → val c3.mem x = val c.mem x := fun x hx =>
          (congrArg BitVec.toNat (v3 x hx)).trans (z1 x hx)
        rw [q x (by omega), q y (by omega)]
        exact ho x y (by omega) b2 b3
      rcases h4 with h4 | h4
      · exact .inl ⟨h4.pc, h4.sp, h4.loaded, h4.de⟩
      · refine .inr ⟨?_, ?_, (Mixed.same v3).trans hh h4.mixed, h4.order, ?_⟩
        · exact back h4
        · rw [h4.sp, a3, up0]
        · have := h4.frame
          rw [a3, q6] at this
          exact f3.trans (this.mono (by omega) (Nat.le_refl _) (Nat.le_refl _))
    · have hih : ¬ i < hi := by have := of_decide_eq_false a1; omega
      refine ⟨c3, rr, .inr ⟨a2, a3, Mixed.same fun x _ => by rw [a4], fun x y b1 b2 b3 => ?_, ?_⟩, fun _ _ => a2⟩
      · rw [show x = y by omega]
      · rw [a4]; exact Frame.refl _ _ _ _ _
  obtain ⟨c4, r4, h4, y4⟩ := upper
  rcases h4 with h4 | ⟨p4, s4, x4, o4, f4⟩
  · refine ⟨c4, r4, .inl h4, fun ho hb => ?_⟩
    have := y4 ho hb
    rw [h4.pc] at this
    exact absurd this (by decide)
  have hm4 := f4.loaded (by omega) hm1
  have st : ∀ a : U16, 972 ≤ a.toNat → c.sp.toNat - 4 ≤ a.toNat → c4.mem a = c1.mem a :=
    fun a b1 b2 => f4 a (by omega) (by omega)
  obtain ⟨c5, r5, p5, m5, s5, l5, e5⟩ := qaPop (o := o) (v := v) hm4 p4
  rw [s4, e43, st _ (by omega) (by omega), st _ (by omega) (by omega), t1] at l5
  rw [s4, e42, e21, st _ (by omega) (by omega), st _ (by omega) (by omega), t2] at e5
  rw [s4, e40] at s5
  have hm5 : Loaded c5.mem := m5.symm ▸ hm4
  obtain ⟨c6, r6, p6, ⟨m6, s6, pv6, e6, l6⟩, h6⟩ := qaCmp3 (o := o) (v := v) hm5 p5
  rw [e5, l5, nlo, below_nat (by omega)] at h6
  obtain ⟨c7, r7, m7, h7⟩ := qaTail (o := o) (v := v) (m6.symm ▸ hm5) p6
  rw [m6, m5] at m7
  rw [h6, s6, s5, e6, e5, l6, l5, m6, m5] at h7
  have rr7 : Run o v c c7 := r4.trans (r5.trans (r6.trans r7))
  -- what is known before the lower part
  have x7 : Mixed lo hi c.mem c7.mem := by
    rw [m7]; exact x1.trans hh (x4.mono (by omega) (Nat.le_refl _))
  have f7 : Frame F c.sp.toNat lo hi c.mem c7.mem := by
    rw [m7]; exact f1.trans (f4.mono (by omega) (by omega) (Nat.le_refl _))
  have o7 : ∀ x y, i ≤ x → x ≤ y → y ≤ hi → val c7.mem x ≤ val c7.mem y := by rw [m7]; exact o4
  have g7' : ∀ x, k ≤ x → x ≤ hi → p ≤ val c7.mem x := by
    rw [m7]
    intro x b1 b2
    by_cases b : x < i
    · rw [x4.other (by omega) (by omega)]; exact g7 x b1 b2
    · exact x4.all hh (P := fun z => p ≤ z) (fun x b1 b2 => g7 x (by omega) b2) x (by omega) b2
  have g6' : ∀ x, lo ≤ x → x < i → val c7.mem x ≤ p := by
    rw [m7]
    intro x b1 b2
    rw [x4.other (by omega) (by omega)]; exact g6 x b1 b2
  rcases h7 with ⟨a1, a2, a3, a4, a5⟩ | ⟨a1, a2, a3⟩
  · have hk : lo + 1 < k := by have := of_decide_eq_true a1; omega
    obtain ⟨k, rfl⟩ : ∃ k', k = k' + 1 := ⟨k - 1, by omega⟩
    rw [below_succ] at a5
    obtain ⟨d, r8, h8, y8⟩ := ih (k - lo) (by omega) lo k c7 rfl (by omega) (by omega) (f7.loaded (by omega) hm) a2 a4 a5
      (by rw [a3]; omega) (by rw [a3]; omega) (by rw [a3]; omega)
    have fin : QuickDone F lo k c7 d → QuickDone F lo hi c d := ?_
    · refine ⟨d, rr7.trans r8, ?_, fun ho hb => fin (y8 ?_ ?_)⟩
      · rcases h8 with h8 | h8
        · exact .inl ⟨h8.pc, h8.sp, h8.loaded, h8.de⟩
        · exact .inr (fin h8)
      · obtain ⟨z1, z2⟩ := y1 ho
        intro x y b1 b2 b3
        rw [m7, x4.other (by omega) (by omega), x4.other (by omega) (by omega), z1 x (by omega), z1 y (by omega)]
        exact ho x y b1 b2 (by omega)
      · have := levelsOf_lower (n := hi - lo) (k := k - lo) (by omega)
        rw [a3]; omega
    · intro h8
      have f8 := h8.frame
      rw [a3] at f8
      have keep : ∀ x, k < x → x ≤ hi → val d.mem x = val c7.mem x := fun x b1 b2 =>
        h8.mixed.other (by omega) (by omega)
      have low : ∀ x, lo ≤ x → x ≤ k → val d.mem x ≤ p := fun x b1 b2 =>
        h8.mixed.all (by omega) (P := fun z => z ≤ p) (fun x b1 b2 => g6' x b1 (by omega)) x b1 b2
      refine ⟨?_, ?_, x7.trans hh (h8.mixed.mono (Nat.le_refl _) (by omega)), ?_, f7.trans (f8.mono (Nat.le_refl _) (Nat.le_refl _) (by omega))⟩
      · rw [h8.pc, a3, f7 _ (by omega) (by omega), f7 _ (by omega) (by omega)]
      · rw [h8.sp, a3]
      · intro x y b1 b2 b3
        by_cases b4 : y ≤ k
        · exact h8.order x y b1 b2 b4
        · rw [keep y (by omega) b3]
          by_cases b5 : x ≤ k
          · exact Nat.le_trans (low x b1 b5) (g7' y (by omega) b3)
          · rw [keep x (by omega) (by omega)]
            by_cases b6 : x < i
            · exact Nat.le_trans (g6' x b1 b6) (g7' y (by omega) b3)
            · exact o7 x y (by omega) b2 b3
  · have hk : ¬ lo + 1 < k := by have := of_decide_eq_false a1; omega
    have fin : QuickDone F lo hi c c7 := ?_
    · exact ⟨c7, rr7, .inr fin, fun _ _ => fin⟩
    refine ⟨?_, a3, x7, ?_, f7⟩
    · rw [a2, ← m7, f7 _ (by omega) (by omega), f7 _ (by omega) (by omega)]
    · intro x y b1 b2 b3
      by_cases b : x = y
      · rw [b]
      · by_cases b6 : x < i
        · exact Nat.le_trans (g6' x b1 b6) (g7' y (by omega) b3)
        · exact o7 x y (by omega) b2 b3

/-- The whole array: 0x18F to the end. -/
theorem quickAll {F : Nat} {c : Core} (hF : 972 ≤ F) (hF2 : F ≤ 1504) (hF3 : (1504 - F) % 6 = 0) (hm : Loaded c.mem)
    (hp : c.pc = 0x18F) (hs : c.sp = 0x5E0) : ∃ d : Core, Run o v c d ∧ (Exhausted F c d ∨ QuickDone F 0 255 c d) ∧
      (Ord 0 255 c.mem → F ≤ 994 → QuickDone F 0 255 c d) := by
  obtain ⟨c1, r1, p1, m1, s1, e1, l1⟩ := qaStart (o := o) (v := v) hm hp
  rw [hs] at s1
  have n : c1.sp.toNat = 1504 := by rw [s1]; rfl
  obtain ⟨d, r2, h, y⟩ := quick (o := o) (v := v) hF 255 0 255 c1 rfl (by decide) (by decide) (m1.symm ▸ hm) p1 e1 l1
    (by omega) (by omega) (by omega)
  have fin : QuickDone F 0 255 c1 d → QuickDone F 0 255 c d := fun h => by
    have a := h.pc
    have b := h.sp
    have f := h.frame
    have x := h.mixed
    rw [m1, s1, ← hs] at a
    rw [s1, ← hs] at b
    rw [m1, s1, ← hs] at f
    rw [m1] at x
    exact ⟨a, b, x, h.order, f⟩
  refine ⟨d, r1.trans r2, ?_, fun ho hb => fin (y (m1.symm ▸ ho) ?_)⟩
  · rcases h with h | h
    · exact .inl ⟨h.pc, h.sp, h.loaded, h.de⟩
    · exact .inr (fin h)
  · have : levelsOf (255 - 0) = 84 := by decide
    rw [n, this]; omega

end Z80.Routine
