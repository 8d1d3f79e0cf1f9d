import Verif.Proofs.ShuffleShuffle

/-!
# The shuffling routine of the test program: drawing a place and placing a number

`/repo/tests/shuffle/shuffle.bin` 126-167 on the specified machine.
-/

set_option linter.unusedVariables false

namespace Z80.Routine
open Spec Spec.Shuffle
variable {w : Nat} {O R I : Type} {o : Opt} {v : Env w O R I}

theorem seed_low (m : U16 → U8) (e : U8) : (m 712 &&& e).toNat = seed m % 256 &&& e.toNat := by
  rw [BitVec.toNat_and]
  have h := (m 712).isLt
  have : seed m % 256 = (m 712).toNat := by unfold seed; omega
  rw [this]

theorem least {P : Nat → Prop} (h : ∃ n, P n) : ∃ n, P n ∧ ∀ k, k < n → ¬ P k := by
  obtain ⟨n, hn⟩ := h
  induction n using Nat.strongRecOn with
  | ind n ih =>
    by_cases q : ∃ k, k < n ∧ P k
    · obtain ⟨k, k1, k2⟩ := q
      exact ih k k1 k2
    · exact ⟨n, hn, fun k k1 k2 => q ⟨k, k1, k2⟩⟩

/-- Numbers are drawn until one is not above the register D. -/
theorem drawLoop (n : Nat) : ∀ c : Core, Loaded c.mem → c.pc = 0x83 → c.sp = 0x5DC →
    (∀ k, k < n → c.d.toNat < (nextSeed^[k + 1] (seed c.mem) % 256 &&& c.e.toNat)) →
    (nextSeed^[n + 1] (seed c.mem) % 256 &&& c.e.toNat) ≤ c.d.toNat →
    ∃ d : Core, Run o v c d ∧ d.sp = 0x5DC ∧ d.d = c.d ∧ d.e = c.e ∧ seed d.mem = nextSeed^[n + 1] (seed c.mem) ∧
      (∀ a : U16, a ≠ 712 → a ≠ 713 → ¬ (0x5D8 ≤ a.toNat ∧ a.toNat < 0x5DC) → d.mem a = c.mem a) ∧ Loaded d.mem ∧
      d.pc = 0x8E ∧ d.a = c.d - (d.mem 712 &&& c.e) ∧ d.f.z = decide (c.d = d.mem 712 &&& c.e) := by
  induction n with
  | zero =>
    intro c hm hp hs _ ha
    obtain ⟨d, r, s, d1, e1, sd, fr, l, g⟩ := drawOnce (o := o) (v := v) hm hp hs
    rcases g with ⟨g, _⟩ | ⟨_, g⟩
    · rw [seed_low, sd] at g
      exact absurd ha (Nat.not_le.mpr g)
    · exact ⟨d, r, s, d1, e1, sd, fr, l, g⟩
  | succ n ih =>
    intro c hm hp hs hb ha
    obtain ⟨d, r, s, d1, e1, sd, fr, l, g⟩ := drawOnce (o := o) (v := v) hm hp hs
    have h0 := hb 0 (by omega)
    rcases g with ⟨_, p⟩ | ⟨g, _⟩
    · obtain ⟨z, r2, s2, d2, e2, sd2, fr2, l2, g2⟩ := ih d l p s
        (fun k hk => by rw [d1, e1, sd, ← Function.iterate_succ_apply]; exact hb (k + 1) (by omega))
        (by rw [d1, e1, sd, ← Function.iterate_succ_apply]; exact ha)
      rw [d1] at d2 g2
      rw [e1] at e2 g2
      refine ⟨z, r.trans r2, s2, d2, e2, ?_, fun a q1 q2 q3 => ?_, l2, g2⟩
      · rw [sd2, sd, ← Function.iterate_succ_apply]
      · rw [fr2 a q1 q2 q3, fr a q1 q2 q3]
    · rw [seed_low, sd] at g
      exact absurd g (Nat.not_le.mpr h0)

theorem seed_lt (m : U16 → U8) : seed m < 65536 := by
  have h1 := (m 712).isLt
  have h2 := (m 713).isLt
  unfold seed; omega

/-- The draw for the place `i` from 0x83 on. -/
theorem draw {c : Core} {i : Nat} (hm : Loaded c.mem) (hp : c.pc = 0x83) (hs : c.sp = 0x5DC) (hd : c.d.toNat = i)
    (he : c.e.toNat = maskOf i) :
    ∃ (d : Core) (r : U8), Run o v c d ∧ d.sp = 0x5DC ∧ d.d = c.d ∧ d.e = c.e ∧
      Draws (seed c.mem) i r.toNat (seed d.mem) ∧
      (∀ a : U16, a ≠ 712 → a ≠ 713 → ¬ (0x5D8 ≤ a.toNat ∧ a.toNat < 0x5DC) → d.mem a = c.mem a) ∧ Loaded d.mem ∧
      d.pc = 0x8E ∧ d.a = c.d - r ∧ d.f.z = decide (c.d = r) := by
  have ex : ∃ n, drawn (nextSeed^[n + 1] (seed c.mem)) i ≤ i := by
    obtain ⟨n, _, hn⟩ := seeds_all (seeds 1 _ (seed_lt c.mem)).1 (t := 0) (by omega)
    refine ⟨n, ?_⟩
    have : nextSeed^[n + 1] (seed c.mem) = 0 := hn
    rw [this, drawn, Nat.zero_mod, Nat.zero_and]
    omega
  obtain ⟨n, n1, n2⟩ := least ex
  unfold drawn at n1 n2
  rw [← he] at n1
  obtain ⟨d, r, s, d1, e1, sd, fr, l, g1, g2, g3⟩ := drawLoop (o := o) (v := v) n c hm hp hs
    (fun k hk => by rw [he, hd]; exact Nat.not_le.mp (n2 k hk)) (by rw [hd]; exact n1)
  refine ⟨d, d.mem 712 &&& c.e, r, s, d1, e1, ⟨n, sd, ?_, ?_, fun k hk => ?_⟩, fr, l, g1, g2, g3⟩
  · rw [seed_low, he]; rfl
  · rw [seed_low, sd]; exact n1
  · unfold drawn; exact Nat.not_le.mp (n2 k hk)

/-- An address a number below. -/
theorem back (x h l b : U8) (hb : b.toNat ≤ (word h l).toNat) :
    (word (add8 (sub8 x x (sub8 l b false).2.c).1 h false).1 (sub8 l b false).1).toNat = (word h l).toNat - b.toNat := by
  have e1 : (sub8 l b false).1.toNat = ((l.toNat + 256) - b.toNat) % 256 := by
    rw [sub8_val, BitVec.toNat_sub]
    have h2 := b.isLt
    omega
  have e2 : ∀ k : Bool, (add8 (sub8 x x k).1 h false).1.toNat = (h.toNat + 256 - k.toNat) % 256 := fun k => by
    show (BitVec.ofNat 8 ((BitVec.ofInt 8 ((x.toNat : Int) - x.toNat - k.toNat)).toNat + h.toNat + (false : Bool).toNat)).toNat = _
    rw [BitVec.toNat_ofNat, BitVec.toNat_ofInt]
    have := h.isLt
    cases k <;> simp only [Bool.toNat_false, Bool.toNat_true] <;> omega
  rw [word_val] at hb ⊢
  rw [word_val, e1, e2, sub8_c]
  have h1 := h.isLt
  have h2 := b.isLt
  have h3 := l.isLt
  by_cases q : l.toNat < b.toNat
  · rw [decide_eq_true q]; simp only [Bool.toNat_true]; omega
  · rw [decide_eq_false q]; simp only [Bool.toNat_false]; omega

/-- Registers are set up for the placement: 0x8E to 0x93. -/
theorem placeA {c : Core} (hm : Loaded c.mem) (hp : c.pc = 0x8E) (hs : c.sp = 0x5DC) :
    ∃ d : Core, Run o v c d ∧ d.pc = 0x93 ∧ d.sp = 0x5DC ∧ d.h = c.mem 0x5DD ∧ d.l = c.mem 0x5DC ∧ d.d = c.mem 0x5DD ∧
      d.e = c.mem 0x5DC ∧ d.c = c.d ∧ d.a = c.a ∧ d.f = c.f ∧ d.mem = push c.mem 0x5DE c.de := by
  obtain ⟨a, f, b, c, d, e, h, l, a', f', b', c', d', e', h', l', sp, pc, m, t⟩ := c
  simp only at hm hp hs ⊢
  subst hp hs
  have hm2 : Loaded (push m 0x5DE (word d e)) := loaded_push hm _ (by decide)
  refine ⟨?_, ?_, ?_⟩
  rotate_left
  · exec popHl hm
    exec pushDe hm
    exec ldCD hm2
    exec ldEL hm2
    exec ldDH hm2
    exact .refl _
  · exact ⟨rfl, rfl, rfl, rfl, rfl, rfl, rfl, rfl, rfl, rfl⟩

/-- The number is placed at the end: 0x93 to 0xA0. -/
theorem placeB {c : Core} (hm : Loaded c.mem) (hp : c.pc = 0x93) (hz : c.f.z = true) :
    ∃ d : Core, Run o v c d ∧ d.pc = 0xA0 ∧ d.sp = c.sp ∧ d.h = c.h ∧ d.l = c.l ∧ d.mem = put c.mem c.de c.c := by
  obtain ⟨a, f, b, c, d, e, h, l, a', f', b', c', d', e', h', l', sp, pc, m, t⟩ := c
  simp only at hm hp hz ⊢
  subst hp
  refine ⟨?_, ?_, ?_⟩
  rotate_left
  · exec jrZ hm goto 0x9E rel 0x09 if hz
    exec ldAC hm
    exec ldDeA hm
    exact .refl _
  · exact ⟨rfl, rfl, rfl, rfl, rfl⟩

/-- The address of the place drawn: 0x93 to 0x9C. -/
theorem placeC {c : Core} (hm : Loaded c.mem) (hp : c.pc = 0x93) (hz : ¬ (c.f.z = true)) :
    ∃ d : Core, Run o v c d ∧ d.pc = 0x9C ∧ d.sp = c.sp ∧ d.h = c.h ∧ d.l = c.l ∧ d.c = c.c ∧ d.mem = c.mem ∧
      d.e = (sub8 c.e c.a false).1 ∧
      d.d = (add8 (sub8 (sub8 c.e c.a false).1 (sub8 c.e c.a false).1 (sub8 c.e c.a false).2.c).1 c.d false).1 := by
  obtain ⟨a, f, b, c, d, e, h, l, a', f', b', c', d', e', h', l', sp, pc, m, t⟩ := c
  simp only at hm hp hz ⊢
  subst hp
  refine ⟨?_, ?_, ?_⟩
  rotate_left
  · exec jrZNot hm if hz
    exec ldBA hm
    exec ldAE hm
    exec subB hm
    exec ldEA hm
    exec sbcAA hm
    exec addAD hm
    exec ldDA hm
    exact .refl _
  · exact ⟨rfl, rfl, rfl, rfl, rfl, rfl, rfl, rfl⟩

/-- The numbers are exchanged: 0x9C to 0xA0. -/
theorem placeD {c : Core} (hm : Loaded c.mem) (hp : c.pc = 0x9C) (hh : 712 ≤ c.hl.toNat) :
    ∃ d : Core, Run o v c d ∧ d.pc = 0xA0 ∧ d.sp = c.sp ∧ d.h = c.h ∧ d.l = c.l ∧
      d.mem = put (put c.mem c.hl (c.mem c.de)) c.de c.c := by
  obtain ⟨a, f, b, c, d, e, h, l, a', f', b', c', d', e', h', l', sp, pc, m, t⟩ := c
  simp only at hm hp hh ⊢
  subst hp
  have hm2 : Loaded (put m (word h l) (m (word d e))) := loaded_put hm _ hh
  refine ⟨?_, ?_, ?_⟩
  rotate_left
  · exec ldADe hm
    exec ldMA hm
    exec ldAC hm2
    exec ldDeA hm2
    exact .refl _
  · exact ⟨rfl, rfl, rfl, rfl, rfl⟩

/-- The number is placed: 0x8E to 0xA0. -/
theorem place {c : Core} {i : Nat} {r : U8} (hi : i < 256) (hm : Loaded c.mem) (hp : c.pc = 0x8E) (hs : c.sp = 0x5DC)
    (hd : c.d.toNat = i) (hl : word (c.mem 0x5DD) (c.mem 0x5DC) = adr i) (hr : r.toNat ≤ i) (ha : c.a = c.d - r)
    (hz : c.f.z = decide (c.d = r)) :
    ∃ d : Core, Run o v c d ∧ d.pc = 0xA0 ∧ d.sp = 0x5DC ∧ d.hl = adr i ∧ d.mem =
      (if c.d = r then put (push c.mem 0x5DE c.de) (adr i) c.d
       else put (put (push c.mem 0x5DE c.de) (adr i) (push c.mem 0x5DE c.de (adr r.toNat))) (adr r.toNat) c.d) := by
  obtain ⟨c1, r1, p1, s1, h1, l1, d1, e1, k1, a1, f1, m1⟩ := placeA (o := o) (v := v) hm hp hs
  have hm1 : Loaded c1.mem := by rw [m1]; exact loaded_push hm _ (by decide)
  have hl1 : c1.hl = adr i := by rw [Core.hl, h1, l1]; exact hl
  have de1 : c1.de = adr i := by rw [Core.de, d1, e1]; exact hl
  by_cases q : c.d = r
  · rw [if_pos q]
    obtain ⟨c2, r2, p2, s2, h2, l2, m2⟩ := placeB (o := o) (v := v) hm1 p1 (by rw [f1, hz, decide_eq_true q])
    refine ⟨c2, r1.trans r2, p2, s2.trans s1, ?_, ?_⟩
    · rw [Core.hl, h2, l2]; exact hl1
    · rw [m2, de1, k1, m1]
  · rw [if_neg q]
    have hn : r.toNat ≠ i := fun k => q (BitVec.eq_of_toNat_eq (by omega))
    have n1 : (c.d - r).toNat = i - r.toNat := by rw [BitVec.toNat_sub]; omega
    obtain ⟨c2, r2, p2, s2, h2, l2, k2, m2, e2, d2⟩ := placeC (o := o) (v := v) hm1 p1 (by rw [f1, hz, decide_eq_false q]; decide)
    have bk := back (sub8 c1.e c1.a false).1 c1.d c1.e c1.a (by
      show _ ≤ c1.de.toNat
      rw [de1, adr_nat hi, a1, ha, n1]; omega)
    have de2 : c2.de = adr r.toNat := by
      apply BitVec.eq_of_toNat_eq
      rw [Core.de, e2, d2, bk]
      show c1.de.toNat - _ = _
      rw [de1, adr_nat hi, a1, ha, n1, adr_nat (by omega)]; omega
    have hl2 : c2.hl = adr i := by rw [Core.hl, h2, l2]; exact hl1
    obtain ⟨c3, r3, p3, s3, h3, l3, m3⟩ := placeD (o := o) (v := v) (m2 ▸ hm1) p2 (by rw [hl2, adr_nat hi]; omega)
    refine ⟨c3, r1.trans (r2.trans r3), p3, s3.trans (s2.trans s1), ?_, ?_⟩
    · rw [Core.hl, h3, l3]; exact hl2
    · rw [m3, hl2, de2, m2, m1, k2, k1]

/-- The part of the loop before the draw: 0x7E to 0x83. -/
theorem enter {c : Core} (hm : Loaded c.mem) (hp : c.pc = 0x7E) (hs : c.sp = 0x5E0) :
    ∃ d : Core, Run o v c d ∧ d.pc = 0x83 ∧ d.sp = 0x5DC ∧ d.d = c.d ∧ d.e = c.e ||| c.d ∧
      d.mem = push (push c.mem 0x5E0 (word c.a c.f.byte)) 0x5DE c.hl := by
  obtain ⟨a, f, b, c, d, e, h, l, a', f', b', c', d', e', h', l', sp, pc, m, t⟩ := c
  simp only at hm hp hs ⊢
  subst hp hs
  have hm2 : Loaded (push m 0x5E0 (word a f.byte)) := loaded_push hm _ (by decide)
  refine ⟨?_, ?_, ?_⟩
  rotate_left
  · exec pushAf hm
    exec ldAE hm2
    exec orD hm2
    exec ldEA hm2
    exec pushHl hm2
    exact .refl _
  · exact ⟨rfl, rfl, rfl, or8_eq _ _, rfl⟩

theorem inc8_val (x : U8) (f : Fl) : (inc8 x f).1 = x + 1 := by
  apply BitVec.eq_of_toNat_eq
  show (BitVec.ofNat 8 (x.toNat + 1 + 0)).toNat = _
  rw [BitVec.toNat_ofNat, BitVec.toNat_add]; rfl

/-- The registers are taken back: 0xA0 to 0xA2. -/
theorem furtherA {c : Core} (hm : Loaded c.mem) (hp : c.pc = 0xA0) (hs : c.sp = 0x5DC) :
    ∃ d : Core, Run o v c d ∧ d.pc = 0xA2 ∧ d.sp = 0x5E0 ∧ d.a = c.mem 0x5DF ∧ d.h = c.h ∧ d.l = c.l ∧
      d.d = c.mem 0x5DD ∧ d.e = c.mem 0x5DC ∧ d.mem = c.mem := by
  obtain ⟨a, f, b, c, d, e, h, l, a', f', b', c', d', e', h', l', sp, pc, m, t⟩ := c
  simp only at hm hp hs ⊢
  subst hp hs
  refine ⟨?_, ?_, ?_⟩
  rotate_left
  · exec popDe hm
    exec popAf hm
    exact .refl _
  · exact ⟨rfl, rfl, rfl, rfl, rfl, rfl, rfl, rfl⟩

/-- On to the next place: 0xA2 to 0x7E or 0xA7. -/
theorem furtherB {c : Core} (hm : Loaded c.mem) (hp : c.pc = 0xA2) (ha : c.a = 0) :
    ∃ d : Core, Run o v c d ∧ d.sp = c.sp ∧ d.a = 0 ∧ d.hl = c.hl + 1 ∧ d.d = c.d + 1 ∧ d.e = c.e ∧
      d.mem = c.mem ∧ d.pc = if c.d + 1 = 0 then 0xA7 else 0x7E := by
  obtain ⟨a, f, b, c, d, e, h, l, a', f', b', c', d', e', h', l', sp, pc, m, t⟩ := c
  simp only at hm hp ha ⊢
  subst hp ha
  have zf : (cp8 0 (inc8 d f).1).z = decide (d + 1 = 0) := by
    rw [cp8_z, inc8_val]
    exact decide_eq_decide.mpr eq_comm
  have iv := inc8_val d f
  by_cases q : d + 1 = 0
  · rw [if_pos q]
    refine ⟨?_, ?_, ?_⟩
    rotate_left
    · exec incHl hm
      exec incD hm
      exec cpD hm
      exec jrNzNot hm if (by
        show ¬ ((!(cp8 0 (inc8 d f).1).z) = true)
        rw [zf, decide_eq_true q]; decide)
      exact .refl _
    · exact ⟨rfl, rfl, word_hi8_lo8 _, iv, rfl, rfl, rfl⟩
  · rw [if_neg q]
    refine ⟨?_, ?_, ?_⟩
    rotate_left
    · exec incHl hm
      exec incD hm
      exec cpD hm
      exec jrNz hm goto 0x7E rel 0xD7 if (by
        show (!(cp8 0 (inc8 d f).1).z) = true
        rw [zf, decide_eq_false q]; rfl)
      exact .refl _
    · exact ⟨rfl, rfl, word_hi8_lo8 _, iv, rfl, rfl, rfl⟩

/-- The part of the loop after the placement: 0xA0 to 0x7E or 0xA7. -/
theorem further {c : Core} (hm : Loaded c.mem) (hp : c.pc = 0xA0) (hs : c.sp = 0x5DC) (ha : c.mem 0x5DF = 0) :
    ∃ d : Core, Run o v c d ∧ d.sp = 0x5E0 ∧ d.a = 0 ∧ d.hl = c.hl + 1 ∧ d.d = c.mem 0x5DD + 1 ∧ d.e = c.mem 0x5DC ∧
      d.mem = c.mem ∧ d.pc = if c.mem 0x5DD + 1 = 0 then 0xA7 else 0x7E := by
  obtain ⟨c1, r1, p1, s1, a1, h1, l1, d1, e1, m1⟩ := furtherA (o := o) (v := v) hm hp hs
  obtain ⟨c2, r2, s2, a2, h2, d2, e2, m2, p2⟩ := furtherB (o := o) (v := v) (m1 ▸ hm) p1 (a1.trans ha)
  refine ⟨c2, r1.trans r2, s2.trans s1, a2, ?_, by rw [d2, d1], e2.trans e1, m2.trans m1, by rw [p2, d1]⟩
  rw [h2, Core.hl, h1, l1]

end Z80.Routine
