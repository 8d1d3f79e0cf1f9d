import Verif.Model.Basic

/-!
# Complete enumeration of bytes

`∀ b : U8, p b` reduces to a check of 256 values that the kernel evaluates.
-/

namespace Z80

/-- Check a predicate on all naturals below `2 ^ k`, offset by `base`. -/
def allPow (p : Nat → Bool) : Nat → Nat → Bool
  | 0, base => p base
  | k + 1, base => allPow p k (2 * base) && allPow p k (2 * base + 1)

theorem allPow_spec (p : Nat → Bool) : ∀ k base, allPow p k base = true →
    ∀ i, i < 2 ^ k → p (2 ^ k * base + i) = true
  | 0, base, h, i, hi => by
    have : i = 0 := by simpa using hi
    subst this; simpa [allPow] using h
  | k + 1, base, h, i, hi => by
    simp only [allPow, Bool.and_eq_true] at h
    by_cases hk : i < 2 ^ k
    · have := allPow_spec p k (2 * base) h.1 i hk
      rw [show 2 ^ (k + 1) * base + i = 2 ^ k * (2 * base) + i by
        rw [Nat.pow_succ, Nat.mul_assoc]]
      exact this
    · have := allPow_spec p k (2 * base + 1) h.2 (i - 2 ^ k) (by
        rw [Nat.pow_succ] at hi; omega)
      rw [show 2 ^ (k + 1) * base + i = 2 ^ k * (2 * base + 1) + (i - 2 ^ k) by
        rw [Nat.pow_succ, Nat.mul_assoc, Nat.mul_add]; omega]
      exact this

/-- Check a predicate on all bytes. -/
def all8 (p : U8 → Bool) : Bool := allPow (fun i => p (BitVec.ofNat 8 i)) 8 0

theorem all8_spec {p : U8 → Bool} (h : all8 p = true) (b : U8) : p b = true := by
  have := allPow_spec _ 8 0 h b.toNat b.isLt
  simpa using this

/-- Check a predicate on all pairs of bytes. -/
def all88 (p : U8 → U8 → Bool) : Bool := all8 fun a => all8 fun b => p a b

theorem all88_spec {p : U8 → U8 → Bool} (h : all88 p = true) (a b : U8) : p a b = true :=
  all8_spec (p := fun b => p a b) (all8_spec (p := fun a => all8 fun b => p a b) h a) b

/-- Check a predicate on both booleans. -/
def all1 (p : Bool → Bool) : Bool := p false && p true

theorem all1_spec {p : Bool → Bool} (h : all1 p = true) (b : Bool) : p b = true := by
  simp only [all1, Bool.and_eq_true] at h
  cases b
  · exact h.1
  · exact h.2

end Z80
