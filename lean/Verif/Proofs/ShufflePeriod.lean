import Verif.Proofs.ShuffleRandomRun
import Mathlib.Data.Nat.Prime.Basic
import Mathlib.Tactic.NormNum.Prime

/-!
# The period of the random number generator of the test program

75 is a primitive root modulo the prime 65537, so every seed is followed, sooner or later, by every other.
-/

namespace Z80
open Routine Spec.Shuffle

/-- There is no room for one more. -/
theorem squeeze : ∀ (n : Nat) (p : Nat → Nat), (∀ i, i ≤ n → p i < n) →
    (∀ i j, i ≤ n → j ≤ n → p i = p j → i = j) → False
  | 0, p, h, _ => absurd (h 0 (Nat.le_refl _)) (by omega)
  | n + 1, p, h, hi => by
    refine squeeze n (fun i => if p i = n then p (n + 1) else p i) (fun i hn => ?_) (fun i j hn hm e => ?_)
    · have := h i (by omega)
      have := h (n + 1) (Nat.le_refl _)
      split
      · have : p (n + 1) ≠ p i := fun e => by have := hi (n + 1) i (Nat.le_refl _) (by omega) e; omega
        omega
      · omega
    · have a := hi (n + 1) j (Nat.le_refl _) (by omega)
      have b := hi i (n + 1) (by omega) (Nat.le_refl _)
      have d := hi i j (by omega) (by omega)
      split at e <;> split at e
      · exact d (by omega)
      · have := a e; omega
      · have := b e; omega
      · exact d e

theorem odd_part : ∀ d : Nat, 0 < d → ∃ v j, d = 2 ^ v * (2 * j + 1) := by
  intro d
  induction d using Nat.strongRecOn with
  | _ d ih =>
  intro h
  by_cases q : d % 2 = 1
  · exact ⟨0, d / 2, by rw [Nat.pow_zero, Nat.one_mul]; omega⟩
  · obtain ⟨v, j, e⟩ := ih (d / 2) (by omega) (by omega)
    refine ⟨v + 1, j, ?_⟩
    rw [Nat.pow_succ, Nat.mul_comm (2 ^ v) 2, Nat.mul_assoc, ← e]
    omega

theorem half_order : 75 ^ 32768 % 65537 = 65536 := by decide +kernel

theorem pow_minus_one (j : Nat) : 65536 ^ (2 * j + 1) % 65537 = 65536 := by
  rw [Nat.pow_succ, Nat.pow_mul, Nat.mul_mod, Nat.pow_mod, show 65536 ^ 2 % 65537 = 1 by decide +kernel, Nat.one_pow]

theorem pow_half {m : Nat} (h : 75 ^ m % 65537 = 65536) (j : Nat) : 75 ^ (m * (2 * j + 1)) % 65537 = 65536 := by
  rw [Nat.pow_mul, Nat.pow_mod, h, pow_minus_one]

/-- No power of 75 below the 65536th is one. -/
theorem order_75 {d : Nat} (h0 : 0 < d) (h : d < 65536) : 75 ^ d % 65537 ≠ 1 := by
  intro e
  obtain ⟨v, j, hd⟩ := odd_part d h0
  have hv : v ≤ 15 := by
    by_cases q : v ≤ 15
    · exact q
    · exfalso
      have : 2 ^ 16 ≤ 2 ^ v := Nat.pow_le_pow_right (by decide) (by omega)
      have := Nat.le_mul_of_pos_right (2 ^ v) (show 0 < 2 * j + 1 by omega)
      rw [← hd] at this
      omega
  have e2 : 75 ^ (d * 2 ^ (15 - v)) % 65537 = 1 := by
    rw [Nat.pow_mul, Nat.pow_mod, e, Nat.one_pow]
  have e3 : d * 2 ^ (15 - v) = 32768 * (2 * j + 1) := by
    rw [hd, Nat.mul_right_comm, ← Nat.pow_add, show v + (15 - v) = 15 by omega]
  rw [e3, pow_half half_order j] at e2
  exact absurd e2 (by decide)

theorem prime_65537 : Nat.Prime 65537 := by norm_num

/-- Different powers of 75 differ, whatever they are multiplied by. -/
theorem powers_differ {y a b : Nat} (hy : 0 < y) (hy2 : y < 65537) (hab : a < b) (hb : b < 65536)
    (e : 75 ^ a * y % 65537 = 75 ^ b * y % 65537) : False := by
  have d : 65537 ∣ 75 ^ b * y - 75 ^ a * y := Nat.dvd_of_mod_eq_zero (Nat.sub_mod_eq_zero_of_mod_eq e.symm)
  have f : 75 ^ b * y - 75 ^ a * y = 75 ^ a * (y * (75 ^ (b - a) - 1)) := by
    conv => lhs; rw [show b = a + (b - a) by omega]
    rw [Nat.pow_add, Nat.mul_sub, Nat.mul_sub, Nat.mul_one, Nat.mul_assoc, Nat.mul_comm (75 ^ (b - a)) y]
  rw [f] at d
  rcases (Nat.Prime.dvd_mul prime_65537).1 d with h | h
  · have := Nat.Prime.dvd_of_dvd_pow prime_65537 h
    omega
  · rcases (Nat.Prime.dvd_mul prime_65537).1 h with h | h
    · have := Nat.le_of_dvd hy h
      omega
    · refine order_75 (d := b - a) (by omega) (by omega) ?_
      have : 1 ≤ 75 ^ (b - a) := Nat.one_le_pow _ _ (by decide)
      omega

theorem seeds : ∀ (n s : Nat), s < 65536 → nextSeed^[n] s < 65536 ∧ nextSeed^[n] s + 1 = 75 ^ n * (s + 1) % 65537
  | 0, s, h => ⟨h, by rw [Nat.pow_zero, Nat.one_mul]; show s + 1 = _; omega⟩
  | n + 1, s, h => by
    obtain ⟨h1, h2⟩ := seeds n s h
    have z := seed_pos h1
    rw [Function.iterate_succ_apply']
    have e : nextSeed (nextSeed^[n] s) + 1 = 75 * (nextSeed^[n] s + 1) % 65537 := by
      unfold nextSeed at z ⊢
      omega
    refine ⟨?_, ?_⟩
    · have := Nat.mod_lt (75 * (nextSeed^[n] s + 1)) (show 65537 > 0 by decide)
      omega
    · rw [e, h2, Nat.mul_mod_mod, ← Nat.mul_assoc, Nat.pow_succ, Nat.mul_comm 75]

/-- Every seed comes after every other. -/
theorem seeds_all {s t : Nat} (hs : s < 65536) (ht : t < 65536) : ∃ n, n < 65536 ∧ nextSeed^[n] s = t := by
  by_cases q : ∃ n, n < 65536 ∧ nextSeed^[n] s = t
  · exact q
  · exfalso
    have ne : ∀ n, n < 65536 → nextSeed^[n] s ≠ t := fun n hn e => q ⟨n, hn, e⟩
    have inj : ∀ a b, a < b → b < 65536 → nextSeed^[a] s ≠ nextSeed^[b] s := fun a b hab hb e => by
      refine powers_differ (y := s + 1) (by omega) (by omega) hab hb ?_
      rw [← (seeds a s hs).2, ← (seeds b s hs).2, e]
    refine squeeze 65535 (fun i => if nextSeed^[i] s < t then nextSeed^[i] s else nextSeed^[i] s - 1)
      (fun i hi => ?_) (fun i j hi hj e => ?_)
    · have := (seeds i s hs).1
      have := ne i (by omega)
      split <;> omega
    · have := ne i (by omega)
      have := ne j (by omega)
      have e : nextSeed^[i] s = nextSeed^[j] s := by
        revert e
        split <;> split <;> intro e <;> omega
      rcases Nat.lt_trichotomy i j with h | h | h
      · exact absurd e (inj i j h (by omega))
      · exact h
      · exact absurd e.symm (inj j i h (by omega))

end Z80
