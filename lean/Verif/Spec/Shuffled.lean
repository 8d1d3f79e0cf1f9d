import Verif.Spec.Shuffle
import Mathlib.Logic.Function.Iterate

/-!
# Shuffling an array

What the routine `shuffle` of the crate's test program is to do (`/repo/tests/shuffle/shuffle.rb` 38-46: the macro
`shuffle_bytes_source_max256` with the generator `rnd`), said without its machine code.
-/

namespace Z80.Spec.Shuffle

/-- The random number generator. -/
def nextSeed (s : Nat) : Nat := 75 * (s + 1) % 65537 - 1

/-- The least number with all bits set that is not below `i`. -/
def maskOf (i : Nat) : Nat := if i = 0 then 0 else 2 ^ (i.log2 + 1) - 1

/-- The number drawn for the place `i` when the seed is `s`. -/
def drawn (s i : Nat) : Nat := s % 256 &&& maskOf i

/-- Seeds are generated from `s` on until the number drawn is not above `i`: that is `r`, with the seed `s'`. -/
def Draws (s i r s' : Nat) : Prop :=
  ∃ n, s' = nextSeed^[n + 1] s ∧ r = drawn s' i ∧ r ≤ i ∧ ∀ k, k < n → i < drawn (nextSeed^[k + 1] s) i

/-- The array after `n` steps: each new number goes to the place drawn, the number there to the end. -/
def insideOut (r : Nat → Nat) : Nat → Nat → Nat
  | 0, _ => 0
  | n + 1, x => if x = r n then n else if x = n then insideOut r n (r n) else insideOut r n x

/-- The array holds each of the numbers from 0 to 255 once. -/
def Permutation (m : U16 → U8) : Prop :=
  ∃ q : Nat → Nat, (∀ x, x < 256 → q (elem m x).toNat = x) ∧ (∀ y, y < 256 → q y < 256 ∧ (elem m (q y)).toNat = y)

/-- Nothing but the variable `seed`, the array and five words of the stack has changed. -/
def Scattered (m m' : U16 → U8) : Prop :=
  ∀ a, ¬ (712 ≤ a.toNat ∧ a.toNat < 714) → ¬ (716 ≤ a.toNat ∧ a.toNat < 972) →
    ¬ (1496 ≤ a.toNat ∧ a.toNat < 1506) → m' a = m a

end Z80.Spec.Shuffle
