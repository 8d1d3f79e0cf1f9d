import Verif.Spec.Wide
import Verif.Proofs.Wide
import Verif.Proofs.ShuffleBoot

/-!
# Arithmetic with numbers of many bytes (C74)
-/

namespace Z80
open Spec Spec.Wide Routine
variable {Q : Type} [FlavourSpec Q] {w : Nat} {O R I : Type}

/-- What a program of `Spec.Wide` needs: where it is, where the numbers are, and a CPU that is not halted, accepts no
interrupts and is not in the middle of a prefixed instruction. -/
structure Prepared (sub dec : Bool) (c : Cpu Q) (m : Mem) : Prop where
  code : Code m c.getPc (routine sub dec)
  apart : Apart c.getPc (c.getReg16 .HL) (c.getReg16 .DE) (routine sub dec).length (passes (c.getReg .B none))
  proper : ProperAt dec m (c.getReg16 .HL) (passes (c.getReg .B none)) ∧
    ProperAt dec m (c.getReg16 .DE) (passes (c.getReg .B none))
  still : c.getIffs.1 = false ∧ c.isHalt = false ∧ c.isAfterPrefix = false

/-- The carry flag of a CPU, as a number. -/
def carryOf (c : Cpu Q) : Nat := (c.getFlags.getLsbD 0).toNat

theorem number_lt (dec : Bool) {m : Mem} : ∀ {n : Nat} {p : U16}, ProperAt dec m p n → number dec m p n < weight dec ^ n
  | 0, _, _ => by rw [Nat.pow_zero]; exact Nat.zero_lt_one
  | n + 1, p, h => by
    have ih := number_lt dec (n := n) (p := p + 1) (fun i hi => by rw [off_succ]; exact h (i + 1) (by omega))
    have h0 := h 0 (Nat.zero_lt_succ _)
    rw [show p + BitVec.ofNat 16 0 = p from BitVec.add_zero p] at h0
    have h1 : value dec (m p) < weight dec := by
      cases dec with
      | false => exact (m p).isLt
      | true =>
        obtain ⟨a, b⟩ := h0 rfl
        show _ / 16 * 10 + _ % 16 < 100
        omega
    show value dec (m p) + weight dec * number dec m (p + 1) n < _
    rw [Nat.pow_succ, Nat.mul_comm (weight dec ^ n)]
    calc _ < weight dec + weight dec * number dec m (p + 1) n := Nat.add_lt_add_right h1 _
      _ = weight dec * (number dec m (p + 1) n + 1) := by rw [Nat.mul_succ, Nat.add_comm]
      _ ≤ _ := Nat.mul_le_mul_left _ ih

/-- All a run of the program does, in terms of `WideRight`. -/
theorem wide_runs (io : Handler (tsSig w O R) I) (deb sub dec : Bool) (c : Cpu Q) (t : BitVec w) (m : Mem) (i : I)
    (h : Prepared sub dec c m) :
    ∃ k c' m', untilStop io deb k c (t, m, i) =
        some (.halt, c', t + BitVec.ofNat w (roundTime dec * passes (c.getReg .B none) - 5 + 4), m', i) ∧
      WideRight sub (weight dec ^ passes (c.getReg .B none)) (number dec m' (c.getReg16 .DE) (passes (c.getReg .B none)))
        (number dec m (c.getReg16 .DE) (passes (c.getReg .B none))) (number dec m (c.getReg16 .HL) (passes (c.getReg .B none)))
        (c.getFlags.getLsbD 0) (c'.getFlags.getLsbD 0) ∧
      ProperAt dec m' (c.getReg16 .DE) (passes (c.getReg .B none)) ∧
      (∀ a, (∀ i, i < passes (c.getReg .B none) → a ≠ c.getReg16 .DE + BitVec.ofNat 16 i) → m' a = m a) ∧
      c'.getReg16 .HL = c.getReg16 .HL + BitVec.ofNat 16 (passes (c.getReg .B none)) ∧
      c'.getReg16 .DE = c.getReg16 .DE + BitVec.ofNat 16 (passes (c.getReg .B none)) ∧
      c'.getReg .B none = 0 ∧ c'.getReg .C none = c.getReg .C none ∧ c'.getSp = c.getSp ∧
      c'.getPc = c.getPc + BitVec.ofNat 16 ((routine sub dec).length - 1) := by
  obtain ⟨n, hn⟩ : ∃ n, passes (c.getReg .B none) = n + 1 := by
    refine ⟨passes (c.getReg .B none) - 1, ?_⟩
    unfold passes
    split
    · rfl
    · bv_omega
  have hn' : n < 256 := by
    have := (c.getReg .B none).isLt
    unfold passes at hn
    split at hn <;> omega
  have e := coreOf_mach (abs c) m i t h.still.1 h.still.2.1 (by
    have h' : c.pfx = none := Option.not_isSome_iff_eq_none.1 (by rw [show c.pfx.isSome = false from h.still.2.2]; decide)
    show ixOf c.pfx = .hl
    rw [h']
    rfl)
  obtain ⟨hc, ha, hp, hs⟩ := h
  rw [hn] at ha hp ⊢
  obtain ⟨d, r, dm, dp, db, dc, ds, dh, dd, dk, dv, dr, dt⟩ := wideLoop (o := FlavourSpec.opt Q) (v := envOf io) sub dec c.getPc n
    (c := coreOf (abs c) m) hn' hc rfl hn ha hp.1 hp.2
  obtain ⟨k, c1, t1, y, g1, g2⟩ := untilStop_run io deb r e 1
  obtain ⟨c2, z, g3, g4⟩ := untilStop_halt io deb (halts_at (by
    rw [dp]
    cases dec
    · have := dm.2.2.2.2.2.2.2.1
      rw [show c.getPc + BitVec.ofNat 16 (if false = true then 8 else 7) = c.getPc + 1 + 1 + 1 + 1 + 1 + 1 + 1 by
        rw [if_neg (by decide)]; bv_omega]
      exact this
    · have := dm.2.2.2.2.2.2.2.2.1
      rw [show c.getPc + BitVec.ofNat 16 (if true = true then 8 else 7) = c.getPc + 1 + 1 + 1 + 1 + 1 + 1 + 1 + 1 by
        rw [if_pos rfl]; bv_omega]
      exact this)) g2
  have hl : ∀ c : Cpu Q, c.getReg16 .HL = word (abs c).h (abs c).l := fun _ => rfl
  have hd : ∀ c : Cpu Q, c.getReg16 .DE = word (abs c).d (abs c).e := fun _ => rfl
  refine ⟨k + 1, c2, d.mem, ?_, ?_, dv, dk, ?_, ?_, ?_, ?_, ?_, ?_⟩
  · have et : d.t + 4 = roundTime dec * (n + 1) - 5 + 4 := by
      have : (coreOf (abs c) m).t = 0 := rfl
      omega
    rw [g1, g3, et]
  · have : c2.getFlags.getLsbD 0 = d.f.c := congrArg (fun r : Regs => r.f.c) g4
    rw [this]
    exact dr
  · rw [hl c2, g4]; exact dh
  · rw [hd c2, g4]; exact dd
  · exact (congrArg Regs.b g4).trans db
  · exact (congrArg Regs.c g4).trans dc
  · exact (congrArg Regs.sp g4).trans ds
  · refine (congrArg Regs.pc g4).trans (dp.trans ?_)
    cases dec <;> rfl

/-- C74: the sum of two numbers of any number of bytes. -/
theorem C74_sum (io : Handler (tsSig w O R) I) (deb dec : Bool) (c : Cpu Q) (t : BitVec w) (m : Mem) (i : I)
    (h : Prepared false dec c m) :
    let n := passes (c.getReg .B none)
    let s := number dec m (c.getReg16 .DE) n + number dec m (c.getReg16 .HL) n + carryOf c
    ∃ k c' m', untilStop io deb k c (t, m, i) =
        some (.halt, c', t + BitVec.ofNat w (roundTime dec * n - 5 + 4), m', i) ∧
      number dec m' (c.getReg16 .DE) n = s % weight dec ^ n ∧ carryOf c' = s / weight dec ^ n ∧
      ProperAt dec m' (c.getReg16 .DE) n ∧
      (∀ a, (∀ i, i < n → a ≠ c.getReg16 .DE + BitVec.ofNat 16 i) → m' a = m a) ∧
      c'.getReg16 .HL = c.getReg16 .HL + BitVec.ofNat 16 n ∧ c'.getReg16 .DE = c.getReg16 .DE + BitVec.ofNat 16 n ∧
      c'.getReg .B none = 0 ∧ c'.getReg .C none = c.getReg .C none ∧ c'.getSp = c.getSp ∧
      c'.getPc = c.getPc + BitVec.ofNat 16 ((routine false dec).length - 1) := by
  obtain ⟨k, c', m', h1, h2, h3, h4⟩ := wide_runs io deb false dec c t m i h
  refine ⟨k, c', m', h1, ?_, ?_, h3, h4⟩
  · have hr := number_lt dec h3
    have h2 : _ + _ = _ + _ + _ := h2
    rw [carryOf, ← h2, Nat.add_mul_mod_self_left, Nat.mod_eq_of_lt hr]
  · have hr := number_lt dec h3
    have h2 : _ + _ = _ + _ + _ := h2
    rw [carryOf, carryOf, ← h2, Nat.add_mul_div_left _ _ (by omega), Nat.div_eq_of_lt hr, Nat.zero_add]

/-- C74: the difference of two numbers of any number of bytes. -/
theorem C74_difference (io : Handler (tsSig w O R) I) (deb dec : Bool) (c : Cpu Q) (t : BitVec w) (m : Mem) (i : I)
    (h : Prepared true dec c m) :
    let n := passes (c.getReg .B none)
    let y := number dec m (c.getReg16 .DE) n
    let x := number dec m (c.getReg16 .HL) n + carryOf c
    ∃ k c' m', untilStop io deb k c (t, m, i) =
        some (.halt, c', t + BitVec.ofNat w (roundTime dec * n - 5 + 4), m', i) ∧
      number dec m' (c.getReg16 .DE) n = (if y < x then weight dec ^ n + y - x else y - x) ∧
      carryOf c' = (if y < x then 1 else 0) ∧
      ProperAt dec m' (c.getReg16 .DE) n ∧
      (∀ a, (∀ i, i < n → a ≠ c.getReg16 .DE + BitVec.ofNat 16 i) → m' a = m a) ∧
      c'.getReg16 .HL = c.getReg16 .HL + BitVec.ofNat 16 n ∧ c'.getReg16 .DE = c.getReg16 .DE + BitVec.ofNat 16 n ∧
      c'.getReg .B none = 0 ∧ c'.getReg .C none = c.getReg .C none ∧ c'.getSp = c.getSp ∧
      c'.getPc = c.getPc + BitVec.ofNat 16 ((routine true dec).length - 1) := by
  obtain ⟨k, c', m', h1, h2, h3, h4⟩ := wide_runs io deb true dec c t m i h
  have hr := number_lt dec h3
  have h2 : _ + (_ + _) = _ + _ := h2
  intro n y x
  have h2 : number dec m' (c.getReg16 .DE) n + x = y + weight dec ^ n * carryOf c' := h2
  have hr : number dec m' (c.getReg16 .DE) n < weight dec ^ n := hr
  have hc : carryOf c' = 0 ∨ carryOf c' = 1 := by
    unfold carryOf
    cases c'.getFlags.getLsbD 0
    · exact .inl rfl
    · exact .inr rfl
  refine ⟨k, c', m', h1, ?_, ?_, h3, h4⟩
  · split <;> rcases hc with hc | hc <;> rw [hc] at h2 <;> omega
  · split <;> rcases hc with hc | hc <;> rw [hc] at h2 <;> omega

/-- A case: 9985 + 0015 in packed decimal. -/
def wideCpu : Cpu NMOS := ((Cpu.new.reset.setReg16 .HL 0x100).setReg16 .DE 0x200).setReg .B none 2
def wideMem : Mem := fun a =>
  if a.toNat < 9 then (routine false true).getD a.toNat 0
  else if a = 0x100 then 0x15 else if a = 0x200 then 0x85 else if a = 0x201 then 0x99 else 0

theorem wide_case : Prepared false true wideCpu wideMem where
  code := by
    refine ⟨?_, ?_, ?_, ?_, ?_, ?_, ?_, ?_, ?_, trivial⟩ <;> decide +kernel
  apart := by
    have h : ∀ i : Fin 2, ∀ j : Fin 9, (0x200 : U16) + BitVec.ofNat 16 i ≠ 0 + BitVec.ofNat 16 j := by decide +kernel
    have g : ∀ i j : Fin 2, (0x200 : U16) + BitVec.ofNat 16 i ≠ 0x100 + BitVec.ofNat 16 j := by decide +kernel
    exact ⟨fun i j hi hj => h ⟨i, hi⟩ ⟨j, hj⟩, fun i j hij hj => g ⟨i, Nat.lt_trans hij hj⟩ ⟨j, hj⟩⟩
  proper := by
    have h : ∀ i : Fin 2, (wideMem (0x100 + BitVec.ofNat 16 i)).toNat / 16 < 10 ∧
        (wideMem (0x100 + BitVec.ofNat 16 i)).toNat % 16 < 10 := by decide +kernel
    have g : ∀ i : Fin 2, (wideMem (0x200 + BitVec.ofNat 16 i)).toNat / 16 < 10 ∧
        (wideMem (0x200 + BitVec.ofNat 16 i)).toNat % 16 < 10 := by decide +kernel
    exact ⟨fun i hi _ => h ⟨i, hi⟩, fun i hi _ => g ⟨i, hi⟩⟩
  still := ⟨rfl, rfl, rfl⟩

/-- The numbers of the case; their sum is 10000, so that the result is 0000 with a carry. -/
example : number true wideMem 0x200 2 = 9985 ∧ number true wideMem 0x100 2 = 15 ∧ weight true ^ 2 = 10000 := by
  decide +kernel

end Z80
