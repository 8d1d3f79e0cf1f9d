import Verif.Spec.Example
import Verif.Proofs.Example

/-!
# The example of the documentation calculates Fibonacci numbers (C72)
-/

namespace Z80
open Spec Spec.Example Routine
variable {Q : Type} [FlavourSpec Q] {w : Nat} {O R I : Type}

/-- C72: the example at the start of the documentation (`/repo/src/lib.rs` 154-168) with any number `n` instead of 24,
where 0 counts as 256: HL is the Fibonacci number modulo 65536, and as many T-states have passed as the example says. -/
theorem C72_fibonacci (io : Handler (tsSig w O R) I) (deb : Bool) (c : Cpu Q) (t : BitVec w) (m : Mem) (i : I) (n : U8)
    (hm : Installed m) :
    ∃ k c', untilStop io deb k (c.reset.setReg .B none n) (t, m, i) =
        some (.halt, c', t + BitVec.ofNat w (10 + 10 + rounds n * (4 + 11 + 13) - 5 + 4), m, i) ∧
      c'.getReg16 .HL = BitVec.ofNat 16 (fibonacci (rounds n)) ∧ c'.getReg .B none = 0 ∧ c'.getPc = 10 := by
  obtain ⟨N, hN⟩ : ∃ N, rounds n = N + 1 := by
    refine ⟨rounds n - 1, ?_⟩
    unfold rounds
    split
    · rfl
    · bv_omega
  have e := coreOf_mach (abs (c.reset.setReg .B none n)) m i t rfl rfl rfl
  obtain ⟨d, r, dm, dp, db, ds, dh, dt⟩ := fibAll (o := FlavourSpec.opt Q) (v := envOf io)
    (c := coreOf (abs (c.reset.setReg .B none n)) m) hm rfl hN
  obtain ⟨k, c1, t1, y, g1, g2⟩ := untilStop_run io deb r e 1
  have hd : Installed d.mem := by rw [dm]; exact hm
  obtain ⟨c2, z, g3, g4⟩ := untilStop_halt io deb (halts_at (by rw [dp]; exact hd.at_code _ _ (by decide +kernel))) g2
  refine ⟨k + 1, c2, ?_, ?_, ?_, ?_⟩
  · have et : d.t + 4 = 10 + 10 + rounds n * (4 + 11 + 13) - 5 + 4 := by
      rw [dt, hN, show (coreOf (abs (c.reset.setReg .B none n)) m).t = 0 from rfl]
      omega
    have em : d.mem = m := dm
    rw [g1, g3, em, et]
  · rw [hN, ← dh]
    have h1 : c2.hl.hi = d.h := congrArg Regs.h g4
    have h2 : c2.hl.lo = d.l := congrArg Regs.l g4
    rw [← h1, ← h2]
    rfl
  · exact (congrArg Regs.b g4).trans db
  · exact (congrArg Regs.pc g4).trans dp

/-- C72: for the numbers the example names (`1..=24`, `/repo/src/lib.rs` 141) HL is the Fibonacci number itself. -/
theorem C72_documented (io : Handler (tsSig w O R) I) (deb : Bool) (c : Cpu Q) (t : BitVec w) (m : Mem) (i : I) (n : U8)
    (hm : Installed m) (h1 : 1 ≤ n.toNat) (h2 : n.toNat ≤ 24) :
    ∃ k c' t', untilStop io deb k (c.reset.setReg .B none n) (t, m, i) = some (.halt, c', t', m, i) ∧
      (c'.getReg16 .HL).toNat = fibonacci n.toNat := by
  obtain ⟨k, c', g1, g2, _⟩ := C72_fibonacci io deb c t m i n hm
  refine ⟨k, c', _, g1, ?_⟩
  have h : ∀ k, k < 25 → fibonacci k < 65536 := by decide +kernel
  have hr : rounds n = n.toNat := if_neg (by intro h; rw [h] at h1; exact absurd h1 (by decide))
  rw [g2, hr, BitVec.toNat_ofNat]
  exact Nat.mod_eq_of_lt (h _ (by omega))

/-- 25 is too large. -/
example : fibonacci 25 % 65536 ≠ fibonacci 25 := by decide +kernel

/-- A memory with the program. -/
example : Installed (fun a => code.getD a.toNat 0xFF) := by
  intro i hi
  have h : (BitVec.ofNat 16 i).toNat = i := by rw [BitVec.toNat_ofNat]; omega
  show code.getD (BitVec.ofNat 16 i).toNat 0xFF = code.getD i 0
  rw [h]
  have : ∀ i, i < 11 → code.getD i 0xFF = code.getD i 0 := by decide
  exact this i hi

/-- The number of the example. -/
example : fibonacci (rounds 24) = 46368 := by decide +kernel

end Z80
