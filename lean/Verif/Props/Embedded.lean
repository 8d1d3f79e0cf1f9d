import Verif.Proofs.Embedded
import Verif.Props.Example
import Mathlib.Data.Nat.Find

/-!
# The example for embedded devices does not panic (C87)
-/

namespace Z80.Embedded
open Spec Spec.Example
variable {Q : Type} [FlavourSpec Q]

theorem loop_more (after : Cpu Q → BitVec 32 → Outcome Q) (j : Nat) : ∀ (k : Nat) (c : Cpu Q) (t : BitVec 32),
    loop after k c t = .running ∨ loop after (k + j) c t = loop after k c t
  | 0, _, _ => .inl rfl
  | k + 1, c, t => by
    rw [show k + 1 + j = (k + j) + 1 by omega, loop, loop]
    split
    · split
      · exact .inr rfl
      · exact loop_more after j k _ _
    · exact .inr rfl

/-- The assertion about T-states, for a number that is not 0. -/
theorem duration {n : U8} (h : n ≠ 0) : (0 : BitVec 32) + BitVec.ofNat 32 (10 + 10 + rounds n * (4 + 11 + 13) - 5 + 4) =
    10 + 10 + n.setWidth 32 * (4 + 11 + 13) - 5 + 4 := by
  have e : rounds n = n.toNat := if_neg h
  have all : ∀ i, i < 256 → (0 : BitVec 32) + BitVec.ofNat 32 (10 + 10 + i * (4 + 11 + 13) - 5 + 4) =
    10 + 10 + (BitVec.ofNat 8 i).setWidth 32 * (4 + 11 + 13) - 5 + 4 := by decide +kernel
  have := all n.toNat n.isLt
  rw [BitVec.ofNat_toNat, BitVec.setWidth_eq] at this
  rw [e, this]

/-- C87: with any number but 0 as `FIB_N`, the Fibonacci number modulo 65536 in the assertion, and any CPU, the program gets
to its last loop. It panics at no time, so it reads within its 11 bytes only, and both assertions hold. -/
theorem C87_main (c : Cpu Q) (n : U8) (hn : n ≠ 0) :
    ∃ k0 c', ∀ k, main c n (BitVec.ofNat 16 (fibonacci n.toNat)) k =
      if k < k0 then .running else .done c' (10 + 10 + n.setWidth 32 * (4 + 11 + 13) - 5 + 4) := by
  obtain ⟨k, c', g1, g2, _⟩ := C72_fibonacci (nothing (w := 32)) true c 0 ram () n (fun i hi => by
    have h : (BitVec.ofNat 16 i).toNat = i := by rw [BitVec.toNat_ofNat]; omega
    show rom.getD (BitVec.ofNat 16 i).toNat 0 = _
    rw [h]
    have : ∀ i, i < 11 → rom.getD i 0 = code.getD i 0 := by decide
    exact this i hi)
  have hw : Within (abs (c.reset.setReg .B none n)) := ⟨rfl, rfl, rfl, .inl rfl⟩
  have hr : rounds n = n.toNat := if_neg hn
  have e : main c n (BitVec.ofNat 16 (fibonacci n.toNat)) k =
      .done c' (10 + 10 + n.setWidth 32 * (4 + 11 + 13) - 5 + 4) := by
    unfold main
    rw [loop_until _ k hw g1, duration hn, if_pos ⟨by rw [g2, hr], rfl⟩]
  have hex : ∃ k, main c n (BitVec.ofNat 16 (fibonacci n.toNat)) k ≠ .running := ⟨k, by rw [e]; exact nofun⟩
  classical
  refine ⟨Nat.find hex, c', fun j => ?_⟩
  split
  · next hj => exact Classical.not_not.1 (Nat.find_min hex hj)
  · next hj =>
    have hs := Nat.find_spec hex
    have up : ∀ a, Nat.find hex ≤ a → main c n (BitVec.ofNat 16 (fibonacci n.toNat)) a =
        main c n (BitVec.ofNat 16 (fibonacci n.toNat)) (Nat.find hex) := fun a ha => by
      obtain ⟨b, rfl⟩ := Nat.le.dest ha
      exact (loop_more _ b _ _ _).resolve_left hs
    rw [up j (by omega), ← up k (Nat.find_min' hex (by rw [e]; exact nofun)), e]

/-- C87: the program as it is. -/
theorem C87_embedded (c : Cpu NMOS) : ∃ k0 c', ∀ k, main c 24 46368 k = if k < k0 then .running else .done c' 691 := by
  have h : BitVec.ofNat 16 (fibonacci (24 : U8).toNat) = 46368 := by decide +kernel
  have := C87_main c 24 (by decide)
  rw [h] at this
  exact this

/-- C87: with 0 as `FIB_N`, which the comment at `FIB_N` excludes, an assertion fails. -/
theorem C87_zero (c : Cpu Q) (x : U16) : ∃ k0, ∀ k, k0 ≤ k → main c 0 x k = .panic := by
  obtain ⟨k, c', g1, g2, _⟩ := C72_fibonacci (nothing (w := 32)) true c 0 ram () 0 (fun i hi => by
    have h : (BitVec.ofNat 16 i).toNat = i := by rw [BitVec.toNat_ofNat]; omega
    show rom.getD (BitVec.ofNat 16 i).toNat 0 = _
    rw [h]
    have : ∀ i, i < 11 → rom.getD i 0 = code.getD i 0 := by decide
    exact this i hi)
  have hw : Within (abs (c.reset.setReg .B none 0)) := ⟨rfl, rfl, rfl, .inl rfl⟩
  have e : main c 0 x k = .panic := by
    unfold main
    rw [loop_until _ k hw g1, if_neg (fun h => absurd h.2 (by decide))]
  refine ⟨k, fun j hj => ?_⟩
  obtain ⟨b, rfl⟩ := Nat.le.dest hj
  rcases loop_more (fun c t =>
      if c.getReg16 .HL = x ∧ t = 10 + 10 + (0 : U8).setWidth 32 * (4 + 11 + 13) - 5 + 4 then .done c t else .panic)
      b k (c.reset.setReg .B none 0) 0 with h | h
  · exact absurd (h.symm.trans e) nofun
  · exact h.trans e

/-- The bounds matter: with PC past the program the first read is out of bounds. -/
example : loop (fun c t => Outcome.done c t) 1 { (Cpu.new : Cpu NMOS) with pc := 11 } 0 = .panic := by
  with_unfolding_all rfl

end Z80.Embedded
