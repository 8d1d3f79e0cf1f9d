import Verif.Proofs.ShuffleDraw
import Verif.Proofs.ShuffleOut

/-!
# The shuffling routine of the test program: the loop

`/repo/tests/shuffle/shuffle.bin` 119-167 on the specified machine.
-/

set_option linter.unusedVariables false

namespace Z80.Routine
open Spec Spec.Shuffle
variable {w : Nat} {O R I : Type} {o : Opt} {v : Env w O R I}

theorem mask_table : ∀ i, i < 256 → maskOf (i - 1) ||| i = maskOf i := by decide +kernel

theorem insideOut_congr {r r' : Nat → Nat} : ∀ {n : Nat}, (∀ k, k < n → r k = r' k) → ∀ x, insideOut r n x = insideOut r' n x
  | 0, _, _ => rfl
  | n + 1, h, x => by
    have ih := insideOut_congr (n := n) (fun k hk => h k (by omega))
    simp only [insideOut]
    rw [h n (by omega), ih x, ih (r' n)]

/-- The array is a permutation with the given inverse. -/
theorem insideOut_perm {r : Nat → Nat} : ∀ {n : Nat}, (∀ k, k < n → r k ≤ k) →
    ∃ q : Nat → Nat, (∀ x, x < n → insideOut r n x < n ∧ q (insideOut r n x) = x) ∧
      (∀ y, y < n → q y < n ∧ insideOut r n (q y) = y)
  | 0, _ => ⟨id, fun x h => absurd h (by omega), fun x h => absurd h (by omega)⟩
  | n + 1, h => by
    obtain ⟨q, h1, h2⟩ := insideOut_perm (n := n) (fun k hk => h k (by omega))
    have hr := h n (by omega)
    refine ⟨fun y => if y = n then r n else if q y = r n then n else q y, fun x hx => ?_, fun y hy => ?_⟩
    · show insideOut r (n + 1) x < n + 1 ∧ (if insideOut r (n + 1) x = n then r n else
        if q (insideOut r (n + 1) x) = r n then n else q (insideOut r (n + 1) x)) = x
      have u : insideOut r (n + 1) x = if x = r n then n else if x = n then insideOut r n (r n) else insideOut r n x := rfl
      by_cases e1 : x = r n
      · rw [if_pos e1] at u
        rw [u, if_pos rfl]; exact ⟨by omega, e1.symm⟩
      · rw [if_neg e1] at u
        by_cases e2 : x = n
        · rw [if_pos e2] at u
          have := h1 (r n) (by omega)
          rw [u, if_neg (by omega), if_pos this.2]
          exact ⟨by omega, e2.symm⟩
        · rw [if_neg e2] at u
          have := h1 x (by omega)
          rw [u, if_neg (by omega), if_neg (by rw [this.2]; exact e1)]
          exact ⟨by omega, this.2⟩
    · show (if y = n then r n else if q y = r n then n else q y) < n + 1 ∧
        insideOut r (n + 1) (if y = n then r n else if q y = r n then n else q y) = y
      have u : ∀ x, insideOut r (n + 1) x = if x = r n then n else if x = n then insideOut r n (r n) else insideOut r n x :=
        fun _ => rfl
      by_cases e1 : y = n
      · rw [if_pos e1, u, if_pos rfl]; exact ⟨by omega, e1.symm⟩
      · rw [if_neg e1]
        have := h2 y (by omega)
        by_cases e2 : q y = r n
        · have hn : n ≠ r n := by omega
          rw [if_pos e2, u, if_neg hn, if_pos rfl, ← e2]
          exact ⟨by omega, this.2⟩
        · rw [if_neg e2, u, if_neg e2, if_neg (by omega)]
          exact ⟨by omega, this.2⟩

/-- Addresses the routine may write to. -/
def Touched (a : U16) : Prop :=
  a = 712 ∨ a = 713 ∨ (716 ≤ a.toNat ∧ a.toNat < 972) ∨ (0x5D8 ≤ a.toNat ∧ a.toNat < 0x5E0)

theorem untouched_code {i : Nat} (h : i < 712) : ¬ Touched (BitVec.ofNat 16 i) := by
  have e : (BitVec.ofNat 16 i).toNat = i := by rw [BitVec.toNat_ofNat]; omega
  rintro (q | q | q | q)
  · rw [q] at e; exact absurd e (by show ¬ (712 = i); omega)
  · rw [q] at e; exact absurd e (by show ¬ (713 = i); omega)
  · omega
  · omega

theorem loaded_touched {m m' : U16 → U8} (h : Loaded m) (h2 : ∀ a, ¬ Touched a → m' a = m a) : Loaded m' :=
  fun i hi => (h2 _ (untouched_code hi)).trans (h i hi)

theorem touched_adr {i : Nat} (h : i < 256) : Touched (adr i) := .inr (.inr (.inl (by rw [adr_nat h]; omega)))

theorem push_out {m : U16 → U8} {s x a : U16} (h1 : a ≠ s - 1) (h2 : a ≠ s - 2) : push m s x a = m a := by
  rw [push_eq, put_other _ _ h2, put_other _ _ h1]

/-- The state of the loop before the place `i`. -/
structure Shuffling (i : Nat) (s0 : Nat) (m : U16 → U8) (c : Core) : Prop where
  sp : c.sp = 0x5E0
  a : c.a = 0
  hl : c.hl = adr i
  d : c.d.toNat = i % 256
  e : c.e.toNat = maskOf (i - 1)
  out : ∀ a, ¬ Touched a → c.mem a = m a
  done : ∃ S r : Nat → Nat, S 0 = s0 ∧ (∀ k, k < i → Draws (S k) k (r k) (S (k + 1))) ∧ seed c.mem = S i ∧
    ∀ x, x < i → (elem c.mem x).toNat = insideOut r i x

/-- One turn of the loop. -/
theorem shuffleTurn {c : Core} {i s0 : Nat} {m : U16 → U8} (hi : i < 256) (hm : Loaded m) (hp : c.pc = 0x7E)
    (h : Shuffling i s0 m c) :
    ∃ d : Core, Run o v c d ∧ Shuffling (i + 1) s0 m d ∧ d.pc = if i = 255 then 0xA7 else 0x7E := by
  have hd : c.d.toNat = i := by rw [h.d]; omega
  obtain ⟨c1, r1, p1, s1, d1, e1, m1⟩ := enter (o := o) (v := v) (loaded_touched hm h.out) hp h.sp
  have o1 : ∀ a : U16, ¬ (0x5DC ≤ a.toNat ∧ a.toNat < 0x5E0) → c1.mem a = c.mem a := fun a q => by
    have n : ∀ b : U16, 0x5DC ≤ b.toNat → b.toNat < 0x5E0 → a ≠ b := fun b h1 h2 e => q (e ▸ ⟨h1, h2⟩)
    rw [m1, push_out (n _ (by decide) (by decide)) (n _ (by decide) (by decide)),
      push_out (n _ (by decide) (by decide)) (n _ (by decide) (by decide))]
  have t1 : ∀ a, ¬ Touched a → c1.mem a = m a := fun a q => by
    rw [o1 a (fun k => q (.inr (.inr (.inr (by omega))))), h.out a q]
  have f1 : c1.mem 0x5DF = 0 := by
    rw [m1, push_out (by decide) (by decide)]
    exact (push_hi _ _ _).trans ((hi8_word _ _).trans h.a)
  have g1 : word (c1.mem 0x5DD) (c1.mem 0x5DC) = adr i := by
    have a1 : c1.mem 0x5DD = hi8 c.hl := by rw [m1]; exact push_hi _ _ _
    have a2 : c1.mem 0x5DC = lo8 c.hl := by rw [m1]; exact push_lo _ _ _
    rw [a1, a2, word_hi8_lo8, h.hl]
  have sd1 : seed c1.mem = seed c.mem := by
    unfold seed; rw [o1 _ (by decide), o1 _ (by decide)]
  have ed1 : c1.e.toNat = maskOf i := by rw [e1, BitVec.toNat_or, h.e, hd, mask_table i hi]
  obtain ⟨c2, r, r2, s2, d2, e2, dr, fr2, l2, p2, a2, z2⟩ := draw (o := o) (v := v) (loaded_touched hm t1) p1 s1
    (by rw [d1, hd]) ed1
  rw [sd1] at dr
  have hr : r.toNat ≤ i := by obtain ⟨_, _, _, q, _⟩ := dr; exact q
  have t2 : ∀ a, ¬ Touched a → c2.mem a = m a := fun a q => by
    rw [fr2 a (fun k => q (.inl k)) (fun k => q (.inr (.inl k))) (fun k => q (.inr (.inr (.inr (by omega))))), t1 a q]
  have c2d : c2.d.toNat = i := by rw [d2, d1, hd]
  obtain ⟨c3, r3, p3, s3, h3, m3⟩ := place (o := o) (v := v) (c := c2) (i := i) (r := r) hi l2 p2 s2 c2d
    (by rw [fr2 _ (by decide) (by decide) (by decide), fr2 _ (by decide) (by decide) (by decide), g1]) hr
    (by rw [a2, d2]) (by rw [z2, d2])
  -- what memory holds then
  have outP : ∀ a : U16, ¬ (716 ≤ a.toNat ∧ a.toNat < 972) → c3.mem a = push c2.mem 0x5DE c2.de a := fun a q => by
    have n : ∀ k, k < 256 → a ≠ adr k := fun k hk e => q (by rw [e, adr_nat hk]; omega)
    rw [m3]
    split
    · rw [put_other _ _ (n i hi)]
    · rw [put_other _ _ (n _ (by omega)), put_other _ _ (n i hi)]
  have el2 : ∀ x, x < 256 → push c2.mem 0x5DE c2.de (adr x) = elem c.mem x := fun x hx => by
    have e := adr_nat hx
    rw [push_out (ne_nat (by rw [e]; show 716 + x ≠ 1501; omega)) (ne_nat (by rw [e]; show 716 + x ≠ 1500; omega)),
      fr2 _ (ne_nat (by rw [e]; show 716 + x ≠ 712; omega)) (ne_nat (by rw [e]; show 716 + x ≠ 713; omega)) (by omega),
      o1 _ (by omega)]
    rfl
  have el3 : ∀ x, x < 256 → (elem c3.mem x).toNat =
      if x = r.toNat then i else if x = i then (elem c.mem r.toNat).toNat else (elem c.mem x).toNat := fun x hx => by
    show (c3.mem (adr x)).toNat = _
    rw [m3]
    by_cases q : c2.d = r
    · have qr : r.toNat = i := by rw [← q, c2d]
      rw [if_pos q, qr]
      by_cases q2 : x = i
      · rw [if_pos q2, q2, put_same, c2d]
      · rw [if_neg q2, if_neg q2, put_other _ _ (adr_ne hx hi q2), el2 x hx]
    · rw [if_neg q]
      by_cases q2 : x = r.toNat
      · rw [if_pos q2, q2, put_same, c2d]
      · rw [if_neg q2, put_other _ _ (adr_ne hx (by omega) q2)]
        by_cases q3 : x = i
        · rw [if_pos q3, q3, put_same, el2 _ (by omega)]
        · rw [if_neg q3, put_other _ _ (adr_ne hx hi q3), el2 x hx]
  have t3 : ∀ a, ¬ Touched a → c3.mem a = m a := fun a q => by
    rw [outP a (fun k => q (.inr (.inr (.inl k)))),
      push_out (fun e => q (by rw [e]; exact .inr (.inr (.inr (by decide))))) (fun e => q (by rw [e]; exact .inr (.inr (.inr (by decide))))),
      t2 a q]
  have f3 : c3.mem 0x5DF = 0 := by
    rw [outP _ (by decide), push_out (by decide) (by decide), fr2 _ (by decide) (by decide) (by decide), f1]
  have x3 : c3.mem 0x5DD = c2.d := by
    rw [outP _ (by decide)]; exact (push_hi _ _ _).trans (hi8_word _ _)
  have y3 : c3.mem 0x5DC = c2.e := by
    rw [outP _ (by decide)]; exact (push_lo _ _ _).trans (lo8_word _ _)
  have sd3 : seed c3.mem = seed c2.mem := by
    unfold seed
    rw [outP _ (by decide), outP _ (by decide), push_out (by decide) (by decide), push_out (by decide) (by decide)]
  obtain ⟨c4, r4, s4, a4, h4, d4, e4, m4, p4⟩ := further (o := o) (v := v) (loaded_touched hm t3) p3 s3 f3
  rw [x3] at d4 p4
  have d5 : c4.d.toNat = (i + 1) % 256 := by rw [d4, BitVec.toNat_add, c2d]; rfl
  refine ⟨c4, r1.trans (r2.trans (r3.trans r4)), ⟨s4, a4, ?_, d5, ?_, fun a q => by rw [m4, t3 a q], ?_⟩, ?_⟩
  · rw [h4, h3]; exact adr_succ i
  · rw [e4, y3, e2, ed1]; rfl
  · obtain ⟨S, R, S0, dS, sS, eS⟩ := h.done
    rw [sS] at dr
    refine ⟨fun k => if k = i + 1 then seed c2.mem else S k, fun k => if k = i then r.toNat else R k, ?_, fun k hk => ?_, ?_, fun x hx => ?_⟩
    · show (if 0 = i + 1 then _ else S 0) = s0
      rw [if_neg (by omega), S0]
    · show Draws (if k = i + 1 then _ else S k) k (if k = i then _ else R k) (if k + 1 = i + 1 then _ else S (k + 1))
      by_cases q : k = i
      · subst q
        rw [if_neg (by omega), if_pos rfl, if_pos rfl]; exact dr
      · rw [if_neg (by omega), if_neg q, if_neg (by omega)]; exact dS k (by omega)
    · show _ = if i + 1 = i + 1 then _ else _
      rw [if_pos rfl, m4, sd3]
    · have cg := insideOut_congr (r := fun k => if k = i then r.toNat else R k) (r' := R) (n := i) (fun k hk => if_neg (by omega))
      rw [m4, el3 x (by omega)]
      simp only [insideOut, if_true]
      rw [cg, cg]
      by_cases q : x = r.toNat
      · rw [if_pos q, if_pos q]
      · rw [if_neg q, if_neg q]
        by_cases q2 : x = i
        · rw [if_pos q2, if_pos q2, eS _ (by omega)]
        · rw [if_neg q2, if_neg q2, eS _ (by omega)]
  · rw [p4]
    by_cases q : i = 255
    · rw [if_pos q, if_pos]
      apply BitVec.eq_of_toNat_eq
      rw [BitVec.toNat_add, c2d, q]; rfl
    · rw [if_neg q, if_neg]
      intro e
      have := congrArg BitVec.toNat e
      rw [BitVec.toNat_add, c2d] at this
      have e1 : (1 : U8).toNat = 1 := rfl
      have e0 : (0 : U8).toNat = 0 := rfl
      rw [e1, e0] at this
      omega

/-- The loop. -/
theorem shuffleLoop {s0 : Nat} {m : U16 → U8} (hm : Loaded m) (n : Nat) : ∀ (i : Nat) (c : Core), i + n = 255 → c.pc = 0x7E →
    Shuffling i s0 m c → ∃ d : Core, Run o v c d ∧ Shuffling 256 s0 m d ∧ d.pc = 0xA7 := by
  induction n with
  | zero =>
    intro i c hi hp h
    obtain ⟨d, r, g, p⟩ := shuffleTurn (o := o) (v := v) (by omega) hm hp h
    rw [if_pos (by omega)] at p
    rw [show i + 1 = 256 by omega] at g
    exact ⟨d, r, g, p⟩
  | succ n ih =>
    intro i c hi hp h
    obtain ⟨d, r, g, p⟩ := shuffleTurn (o := o) (v := v) (by omega) hm hp h
    rw [if_neg (by omega)] at p
    obtain ⟨z, r2, g2, p2⟩ := ih (i + 1) d (by omega) p g
    exact ⟨z, r.trans r2, g2, p2⟩

theorem shuffleBegin {c : Core} (hm : Loaded c.mem) (hp : c.pc = 0x77) :
    ∃ d : Core, Run o v c d ∧ d.pc = 0x7E ∧ d.sp = c.sp ∧ d.a = 0 ∧ d.hl = 0x2CC ∧ d.d = 0 ∧ d.e = 0 ∧ d.mem = c.mem := by
  obtain ⟨a, f, b, c, d, e, h, l, a', f', b', c', d', e', h', l', sp, pc, m, t⟩ := c
  simp only at hm hp ⊢
  subst hp
  refine ⟨?_, ?_, ?_⟩
  rotate_left
  · exec ldHlNN hm arg16 0x2CC
    exec xorA hm
    exec ldDeNN hm arg16 0
    exact .refl _
  · exact ⟨rfl, rfl, xor8_self a, (word_hi8_lo8 _), rfl, rfl, rfl⟩

/-- The whole routine. -/
theorem shuffled {c : Core} (hm : Loaded c.mem) (hp : c.pc = 0x77) (hs : c.sp = 0x5E0) :
    ∃ d : Core, Run o v c d ∧ d.pc = word (c.mem 0x5E1) (c.mem 0x5E0) ∧ d.sp = 0x5E2 ∧ Loaded d.mem ∧
      (∀ a, ¬ Touched a → d.mem a = c.mem a) ∧
      ∃ S r : Nat → Nat, S 0 = seed c.mem ∧ (∀ k, k < 256 → Draws (S k) k (r k) (S (k + 1))) ∧ seed d.mem = S 256 ∧
        ∀ x, x < 256 → (elem d.mem x).toNat = insideOut r 256 x := by
  obtain ⟨c1, r1, p1, s1, a1, h1, d1, e1, m1⟩ := shuffleBegin (o := o) (v := v) hm hp
  obtain ⟨c2, r2, g, p2⟩ := shuffleLoop (o := o) (v := v) hm 255 0 c1 (by omega) p1
    ⟨s1.trans hs, a1, h1, by rw [d1]; rfl, by rw [e1]; rfl, fun a _ => by rw [m1],
      fun _ => seed c.mem, fun _ => 0, rfl, fun k hk => absurd hk (by omega), by rw [m1], fun x hx => absurd hx (by omega)⟩
  have l2 := loaded_touched hm g.out
  have t1 := g.out 0x5E1 (by unfold Touched; decide)
  have t2 := g.out 0x5E0 (by unfold Touched; decide)
  obtain ⟨c3, r3, p3, s3, m3⟩ : ∃ d : Core, Run o v c2 d ∧ d.pc = word (c2.mem (c2.sp + 1)) (c2.mem c2.sp) ∧ d.sp = c2.sp + 2 ∧
      d.mem = c2.mem := by
    obtain ⟨a, f, b, c, d, e, h, l, a', f', b', c', d', e', h', l', sp, pc, m, t⟩ := c2
    simp only at l2 p2 ⊢
    subst p2
    refine ⟨?_, ?_, ?_⟩
    rotate_left
    · exec ret l2
      exact .refl _
    · exact ⟨rfl, rfl, rfl⟩
  rw [g.sp] at p3 s3
  refine ⟨c3, r1.trans (r2.trans r3), ?_, s3, m3 ▸ l2, fun a q => by rw [m3]; exact g.out a q, ?_⟩
  · rw [p3, t2]
    show word (c2.mem 0x5E1) _ = _
    rw [t1]
  · rw [m3]; exact g.done

end Z80.Routine
