import Verif.Spec.Example
import Verif.Proofs.ShuffleBoot

/-!
# The loop of the example of the documentation
-/

set_option linter.unusedVariables false

namespace Z80
open Spec Spec.Example
variable {w : Nat} {O R I : Type}

theorem _root_.Z80.Spec.Example.Installed.at_code {m : U16 → U8} (h : Installed m) (a : U16) (x : U8)
    (ha : a.toNat < 11 ∧ code.getD a.toNat 0 = x) : m a = x := by
  have := h a.toNat ha.1
  rw [BitVec.ofNat_toNat, BitVec.setWidth_eq] at this
  rw [this, ha.2]

namespace Routine

/-- The Fibonacci number before: 1 before 0. -/
def fibPrev : Nat → Nat
  | 0 => 1
  | n + 1 => fibonacci n

theorem fib_step (k : Nat) : fibonacci (k + 1) = fibPrev k + fibonacci k := by
  cases k with
  | zero => rfl
  | succ k => rfl

variable {o : Opt} {v : Env w O R I}

/-- Once through the loop. -/
theorem fibRound {k : Nat} {c : Core} (hm : Installed c.mem) (hp : c.pc = 6)
    (hh : word c.h c.l = BitVec.ofNat 16 (fibonacci k)) (hd : word c.d c.e = BitVec.ofNat 16 (fibPrev k)) :
    ∃ d : Core, Run o v c d ∧ d.mem = c.mem ∧ d.b = c.b - 1 ∧ d.sp = c.sp ∧
      word d.h d.l = BitVec.ofNat 16 (fibonacci (k + 1)) ∧ word d.d d.e = BitVec.ofNat 16 (fibPrev (k + 1)) ∧
      (c.b - 1 ≠ 0 ∧ d.pc = 6 ∧ d.t = c.t + 28 ∨ c.b - 1 = 0 ∧ d.pc = 10 ∧ d.t = c.t + 23) := by
  have sum : (add16 (word c.d c.e) (word c.h c.l) c.f).1 = BitVec.ofNat 16 (fibonacci (k + 1)) := by
    rw [hh, hd, fib_step]
    apply BitVec.eq_of_toNat_eq
    simp only [add16, BitVec.toNat_ofNat]
    omega
  obtain ⟨a, f, b, c, d, e, h, l, a', f', b', c', d', e', h', l', sp, pc, m, t⟩ := c
  simp only at hm hp hh hd sum ⊢
  subst hp
  by_cases hb : b - 1 ≠ 0
  · refine ⟨?_, ?_, ?_⟩
    rotate_left
    · exec exDeHl hm
      exec addHlDe hm
      exec djnz hm goto 6 rel 0xFC if hb
      exact .refl _
    · exact ⟨rfl, rfl, rfl, (word_hi8_lo8 _).trans sum, hh, .inl ⟨hb, rfl, rfl⟩⟩
  · refine ⟨?_, ?_, ?_⟩
    rotate_left
    · exec exDeHl hm
      exec addHlDe hm
      exec djnzNot hm if hb
      exact .refl _
    · exact ⟨rfl, rfl, rfl, (word_hi8_lo8 _).trans sum, hh, .inr ⟨Classical.not_not.1 hb, rfl, rfl⟩⟩

/-- The loop, `n + 1` times. -/
theorem fibLoop (n : Nat) : ∀ {k : Nat} {c : Core}, Installed c.mem → c.pc = 6 → rounds c.b = n + 1 →
    word c.h c.l = BitVec.ofNat 16 (fibonacci k) → word c.d c.e = BitVec.ofNat 16 (fibPrev k) →
    ∃ d : Core, Run o v c d ∧ d.mem = c.mem ∧ d.pc = 10 ∧ d.b = 0 ∧ d.sp = c.sp ∧
      word d.h d.l = BitVec.ofNat 16 (fibonacci (k + (n + 1))) ∧ d.t = c.t + 28 * n + 23 := by
  induction n with
  | zero =>
    intro k c hm hp hb hh hd
    obtain ⟨d, r, dm, db, ds, dh, dd, dp⟩ := fibRound (o := o) (v := v) hm hp hh hd
    have hz : c.b - 1 = 0 := by
      unfold rounds at hb
      split at hb
      · omega
      · bv_omega
    rcases dp with ⟨h, _⟩ | ⟨_, h, ht⟩
    · exact absurd hz h
    · exact ⟨d, r, dm, h, db.trans hz, ds, dh, by omega⟩
  | succ n ih =>
    intro k c hm hp hb hh hd
    obtain ⟨d, r, dm, db, ds, dh, dd, dp⟩ := fibRound (o := o) (v := v) hm hp hh hd
    have hz : rounds (c.b - 1) = n + 1 ∧ c.b - 1 ≠ 0 := by
      unfold rounds at hb ⊢
      have := c.b.isLt
      split at hb
      · rename_i h
        rw [h]
        refine ⟨?_, by decide⟩
        rw [if_neg (by decide)]
        have : ((0 : U8) - 1).toNat = 255 := by decide
        omega
      · have h1 : c.b - 1 ≠ 0 := by bv_omega
        rw [if_neg h1]
        exact ⟨by bv_omega, h1⟩
    rcases dp with ⟨_, h, ht⟩ | ⟨h, _⟩
    · obtain ⟨g, r2, gm, gp, gb, gs, gh, gt⟩ := ih (k := k + 1) (c := d) (dm ▸ hm) h (by rw [db]; exact hz.1) dh dd
      refine ⟨g, r.trans r2, gm.trans dm, gp, gb, gs.trans ds, ?_, by omega⟩
      rw [gh]
      congr 2
      omega
    · exact absurd h hz.2

theorem fibAll {c : Core} {n : Nat} (hm : Installed c.mem) (hp : c.pc = 0) (hb : rounds c.b = n + 1) :
    ∃ d : Core, Run o v c d ∧ d.mem = c.mem ∧ d.pc = 10 ∧ d.b = 0 ∧ d.sp = c.sp ∧
      word d.h d.l = BitVec.ofNat 16 (fibonacci (n + 1)) ∧ d.t = c.t + 20 + 28 * n + 23 := by
  have r1 : ∃ d : Core, Run o v c d ∧ d.mem = c.mem ∧ d.pc = 6 ∧ d.b = c.b ∧ d.sp = c.sp ∧
      word d.h d.l = BitVec.ofNat 16 (fibonacci 0) ∧ word d.d d.e = BitVec.ofNat 16 (fibPrev 0) ∧ d.t = c.t + 20 := by
    obtain ⟨a, f, b, c, d, e, h, l, a', f', b', c', d', e', h', l', sp, pc, m, t⟩ := c
    simp only at hm hp ⊢
    subst hp
    refine ⟨?_, ?_, ?_⟩
    rotate_left
    · exec ldHlNN hm arg16 0
      exec ldDeNN hm arg16 1
      exact .refl _
    · exact ⟨rfl, rfl, rfl, rfl, by dsimp only; decide, by dsimp only; decide, rfl⟩
  obtain ⟨d, r1, dm, dp, db, ds, dh, dd, dt⟩ := r1
  obtain ⟨g, r2, gm, gp, gb, gs, gh, gt⟩ := fibLoop (o := o) (v := v) n (k := 0) (c := d) (dm ▸ hm) dp
    (by rw [db]; exact hb) dh dd
  refine ⟨g, r1.trans r2, gm.trans dm, gp, gb, gs.trans ds, ?_, by omega⟩
  rw [gh, Nat.zero_add]

end Routine

end Z80
