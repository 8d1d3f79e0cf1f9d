import Verif.Proofs.ShufflePeriod
import Verif.Proofs.ShuffleQuickSort

/-!
# The shuffling routine of the test program

`/repo/tests/shuffle/shuffle.bin` 119-167 on the specified machine.
-/

set_option linter.unusedVariables false

namespace Z80.Routine
open Spec Spec.Shuffle
variable {w : Nat} {O R I : Type} {o : Opt} {v : Env w O R I}

theorem word_seed (m : U16 → U8) : (word (m 0x2C9) (m 0x2C8)).toNat = seed m := word_val _ _

theorem sub8_c (a b : U8) : (sub8 a b false).2.c = decide (a.toNat < b.toNat) := by
  show (decide (a.toNat < b.toNat + 0) : Bool) = _
  rfl
theorem sub8_val (a b : U8) : (sub8 a b false).1 = a - b := by
  show BitVec.ofInt 8 ((a.toNat : Int) - b.toNat - (false : Bool).toNat) = a - b
  apply BitVec.eq_of_toNat_eq
  rw [BitVec.toNat_ofInt, BitVec.toNat_sub]
  have h1 := a.isLt
  have h2 := b.isLt
  simp only [Bool.toNat_false]
  omega
theorem sub8_z (a b : U8) : (sub8 a b false).2.z = decide (a = b) := cp8_z a b


/-- One number drawn, 0x83 to 0x83 or 0x8E. -/
theorem drawOnce {c : Core} (hm : Loaded c.mem) (hp : c.pc = 0x83) (hs : c.sp = 0x5DC) :
    ∃ d : Core, Run o v c d ∧ d.sp = 0x5DC ∧ d.d = c.d ∧ d.e = c.e ∧ seed d.mem = nextSeed (seed c.mem) ∧
      (∀ a : U16, a ≠ 712 → a ≠ 713 → ¬ (0x5D8 ≤ a.toNat ∧ a.toNat < 0x5DC) → d.mem a = c.mem a) ∧ Loaded d.mem ∧
      (c.d.toNat < (d.mem 712 &&& c.e).toNat ∧ d.pc = 0x83 ∨
       (d.mem 712 &&& c.e).toNat ≤ c.d.toNat ∧ d.pc = 0x8E ∧ d.a = c.d - (d.mem 712 &&& c.e) ∧
         d.f.z = decide (c.d = d.mem 712 &&& c.e)) := by
  obtain ⟨c1, r1, p1, s1, m1⟩ : ∃ d : Core, Run o v c d ∧ d.pc = 0xA8 ∧ d.sp = 0x5D8 ∧
      d.mem = push (push c.mem 0x5DC c.de) 0x5DA 0x87 := by
    obtain ⟨a, f, b, c, d, e, h, l, a', f', b', c', d', e', h', l', sp, pc, m, t⟩ := c
    simp only at hm hp hs ⊢
    subst hp hs
    have hm2 : Loaded (push m 0x5DC (word d e)) := loaded_push hm _ (by decide)
    refine ⟨?_, ?_, ?_⟩
    rotate_left
    · exec pushDe hm
      exec callNN hm2 arg16 0xA8
      exact .refl _
    · exact ⟨rfl, rfl, rfl⟩
  have hl1 : Loaded c1.mem := by rw [m1]; exact loaded_push (loaded_push hm _ (by decide)) _ (by decide)
  obtain ⟨c2, r2, p2, s2, x, hx, m2, a2⟩ := random (o := o) (v := v) hl1 p1 (by rw [s1]; decide) (by rw [s1]; decide)
  rw [s1] at p2 s2
  have k : ∀ a : U16, a ≠ 712 → a ≠ 713 → c2.mem a = c1.mem a := fun a q1 q2 => by
    rw [m2, put_other _ _ q2, put_other _ _ q1]
  have z1 : c2.mem 712 = lo8 x := by rw [m2, put_other _ _ (by decide)]; exact put_same _ _ _
  have z2 : c2.mem 713 = hi8 x := by rw [m2]; exact put_same _ _ _
  have e1 : c1.mem 0x5D9 = hi8 0x87 := by rw [m1]; exact push_hi _ _ _
  have e2 : c1.mem 0x5D8 = lo8 0x87 := by rw [m1]; exact push_lo _ _ _
  have sd : seed c2.mem = nextSeed (seed c.mem) := by
    rw [← word_seed c2.mem]
    show (word (c2.mem 713) (c2.mem 712)).toNat = _
    rw [z1, z2, word_hi8_lo8, hx, word_seed]
    show nextSeed (_ * 256 + _) = nextSeed (_ * 256 + _)
    rw [m1]
    have q : ∀ a : U16, a = 712 ∨ a = 713 → push (push c.mem 0x5DC c.de) 0x5DA 0x87 a = c.mem a := fun a h => by
      rcases h with h | h <;> subst h <;> rw [push_eq, push_eq] <;>
        rw [put_other _ _ (by decide), put_other _ _ (by decide), put_other _ _ (by decide), put_other _ _ (by decide)]
    rw [q 713 (.inr rfl), q 712 (.inl rfl)]
  have out : ∀ a : U16, a ≠ 712 → a ≠ 713 → ¬ (0x5D8 ≤ a.toNat ∧ a.toNat < 0x5DC) → c2.mem a = c.mem a := fun a q1 q2 q3 => by
    rw [k a q1 q2, m1, push_eq, push_eq]
    have n : ∀ b : U16, 0x5D8 ≤ b.toNat → b.toNat < 0x5DC → a ≠ b := fun b h1 h2 e => q3 (e ▸ ⟨h1, h2⟩)
    rw [put_other _ _ (n _ (by decide) (by decide)), put_other _ _ (n _ (by decide) (by decide)),
      put_other _ _ (n _ (by decide) (by decide)), put_other _ _ (n _ (by decide) (by decide))]
  have hl2 : Loaded c2.mem := by
    intro i hi
    have e : (BitVec.ofNat 16 i).toNat = i := by rw [BitVec.toNat_ofNat]; omega
    rw [out _ (ne_nat (by rw [e]; show i ≠ 712; omega)) (ne_nat (by rw [e]; show i ≠ 713; omega)) (by omega), hm i hi]
  have p2' : c2.pc = 0x87 := by
    rw [p2, show (0x5D8 + 1 : U16) = 0x5D9 by decide, e1, e2, word_hi8_lo8]
  have t1 : word (c2.mem 0x5DB) (c2.mem 0x5DA) = c.de := by
    rw [k _ (by decide) (by decide), k _ (by decide) (by decide), m1, push_eq _ 0x5DA,
      put_other _ _ (by decide), put_other _ _ (by decide), put_other _ _ (by decide), put_other _ _ (by decide)]
    have a1 : push c.mem 0x5DC c.de 0x5DB = hi8 c.de := push_hi _ _ _
    have a2 : push c.mem 0x5DC c.de 0x5DA = lo8 c.de := push_lo _ _ _
    rw [a1, a2, word_hi8_lo8]
  clear p2 hx m2 e1 e2 k hm hl1
  have fin : ∃ d : Core, Run o v c2 d ∧ d.sp = 0x5DC ∧ d.d = c.d ∧ d.e = c.e ∧ d.mem = c2.mem ∧
      (c.d.toNat < (c2.mem 712 &&& c.e).toNat ∧ d.pc = 0x83 ∨
       (c2.mem 712 &&& c.e).toNat ≤ c.d.toNat ∧ d.pc = 0x8E ∧ d.a = c.d - (c2.mem 712 &&& c.e) ∧
         d.f.z = decide (c.d = c2.mem 712 &&& c.e)) := by
    rw [← z1] at a2
    obtain ⟨a, f, b, cc, d, e, h, l, a', f', b', c', d', e', h', l', sp, pc, m, t⟩ := c2
    simp only at hl2 p2' s2 a2 t1 ⊢
    subst p2' s2
    have hd : hi8 (word (m 0x5DB) (m 0x5DA)) = c.d := by rw [t1, Core.de, hi8_word]
    have he : lo8 (word (m 0x5DB) (m 0x5DA)) = c.e := by rw [t1, Core.de, lo8_word]
    rw [hi8_word] at hd
    rw [lo8_word] at he
    have ae : (and8 a (m 0x5DA)).1 = m 712 &&& c.e := by rw [and8_eq, a2, he]
    by_cases q : c.d.toNat < (m 712 &&& c.e).toNat
    · refine ⟨?_, ?_, ?_⟩
      rotate_left
      · exec popDe hl2
        exec andE hl2
        exec ldBA hl2
        exec ldAD hl2
        exec subB hl2
        exec jrC hl2 goto 0x83 rel 0xF5 if (by
          show (sub8 (m 0x5DB) (and8 a (m 0x5DA)).1 false).2.c = true
          rw [sub8_c, ae, hd, decide_eq_true q])
        exact .refl _
      · exact ⟨rfl, hd, he, rfl, .inl ⟨q, rfl⟩⟩
    · refine ⟨?_, ?_, ?_⟩
      rotate_left
      · exec popDe hl2
        exec andE hl2
        exec ldBA hl2
        exec ldAD hl2
        exec subB hl2
        exec jrCNot hl2 if (by
          show ¬ ((sub8 (m 0x5DB) (and8 a (m 0x5DA)).1 false).2.c = true)
          rw [sub8_c, ae, hd, decide_eq_false q]; decide)
        exact .refl _
      · refine ⟨rfl, hd, he, rfl, .inr ⟨by omega, rfl, ?_, ?_⟩⟩
        · show (sub8 (m 0x5DB) (and8 a (m 0x5DA)).1 false).1 = _
          rw [sub8_val, ae, hd]
        · show (sub8 (m 0x5DB) (and8 a (m 0x5DA)).1 false).2.z = _
          rw [sub8_z, ae, hd]
  obtain ⟨d, r3, s3, d3, e3, m3, g⟩ := fin
  refine ⟨d, r1.trans (r2.trans r3), s3, d3, e3, by rw [m3]; exact sd, fun a q1 q2 q3 => by rw [m3]; exact out a q1 q2 q3,
    m3 ▸ hl2, ?_⟩
  rw [m3]; exact g

end Z80.Routine
