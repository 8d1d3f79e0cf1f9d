import Verif.Proofs.Lap
import Verif.Props.Bus

/-!
# C49: `execute_with_limit` makes progress and stops soon after the limit

The first theorems are about all hosts: `clocked` adds up the T-states announced to the clock. The
others are about a `TsCounter` of any width next to any memory and devices.
-/

set_option linter.constructorNameAsVariable false

namespace Z80
open Spec

section
variable {σ : Sig} {Q : Type} [FlavourSpec Q]

/-- C45, also within `execute_with_limit`: whatever the host answers, every access to the bus carries the timestamp that
the clock has given in the call directly before, where calls of a debugger do not count. -/
theorem C45_stamps_limit {n : Nat} {l : σ.L} {c : Cpu Q} {t : List (Ev σ)} {r}
    (h : (executeWithLimit n l c).Runs t r) : Timely none t := limit_timely n l c h

/-- C45: the same of `execute_next`. -/
theorem C45_stamps_next {deb : Bool} {c : Cpu Q} {t : List (Ev σ)} {r : Res σ × Cpu Q}
    (h : (executeNext deb c).Runs t r) : Timely none t := by
  obtain ⟨l, e, _, h1, _⟩ := C45_runs h
  exact timely_filter (performs_timely h1)

/-- C45: the same of `nmi`. -/
theorem C45_stamps_nmi {c : Cpu Q} {t : List (Ev σ)} {r : Bool × Cpu Q} (h : (nmi c).Runs t r) : Timely none t :=
  nmi_timely h

/-- C49: whatever the host does, every iteration of `execute_with_limit` takes at least 4 T-states:
if it has not returned after `n` iterations, the clock was told of at least `4 * n`. -/
theorem C49_progress {n : Nat} {l : σ.L} {c : Cpu Q} {t : List (Ev σ)}
    (h : (executeWithLimit n l c).Runs t none) : 4 * n ≤ clocked t := by
  rcases limit_laps n l c h with ⟨rfl, _⟩ | ⟨_, h⟩ | ⟨u, rfl, m, hm, h⟩
  · exact Nat.zero_le _
  · exact absurd rfl h
  · have := laps_clocked h
    rw [clocked_test]
    omega

/-- C49: whatever the host does, the clock is consulted after every instruction, accepted interrupt
or halted cycle: from one test of the limit to the next at least 4 and at most 23 T-states pass, wait
states apart, with at most two accesses to devices. After the last test at most 23 T-states pass. -/
theorem C49_laps {n : Nat} {l : σ.L} {c : Cpu Q} {t : List (Ev σ)} {r}
    (h : (executeWithLimit n l c).Runs t r) {a b d : List (Ev σ)} {e : Ev σ} (he : e.tests = true)
    (ht : t = a ++ e :: (b ++ d)) (hb : ∀ e ∈ b, e.tests = false) (hd : Tested d) :
    Lap b ∧ (d ≠ [] → 4 ≤ clocked b) := by
  rcases limit_laps n l c h with ⟨_, rfl⟩ | ⟨rfl, _⟩ | ⟨u, rfl, h1⟩
  · cases a <;> cases ht
  · cases a with
    | nil =>
      injection ht with h1 h2
      obtain ⟨rfl, rfl⟩ := List.append_eq_nil_iff.1 h2.symm
      exact ⟨⟨Nat.zero_le _, Nat.zero_le _, rfl⟩, fun h => absurd rfl h⟩
    | cons y a =>
      injection ht with h1 h2
      cases a <;> cases h2
  · have : ∃ m, Laps l m u := by
      cases r with
      | none => obtain ⟨m, _, h1⟩ := h1; exact ⟨m, h1⟩
      | some _ => obtain ⟨m, _, h1⟩ := h1; exact ⟨m, h1⟩
    obtain ⟨m, h2⟩ := this
    exact laps_lap h2 he ht hb hd

end

section
variable {w : Nat} {O R B Q : Type} [FlavourSpec Q]

/-- C49: with a `TsCounter` of an unsigned type next to any memory and any devices that ask for at
most `W` wait states at a time, `execute_with_limit` returns, unless the counter may overflow within
one step after the limit. If the limit is not yet reached at the start, the counter is at the end
less than 23 T-states and the wait states of two accesses past the limit, and at least 4 T-states
have passed; if the result is `Ok`, the limit is reached. -/
theorem C49_returns (bus : Bus (tsSig w O R) B) {W : Nat}
    (hW : ∀ r b, Ev.asked ⟨r, (bus r b).1⟩ ≤ W) (l : BitVec w) (c : Cpu Q) (t : BitVec w) (b : B)
    (hl : l.toNat + 22 + 2 * W < 2 ^ w) :
    ∃ e c' t' b', ReturnsWith (tsHost bus) l c (t, b) e c' (t', b') ∧ (l ≤ t → t' = t ∧ e = .ok) ∧
      (t < l → t.toNat + 4 ≤ t'.toNat ∧ t'.toNat < l.toNat + 23 + 2 * W) ∧ (e = .ok → l ≤ t') := by
  have hH : TellsTime (tsHost bus) (fun t => (t.toNat : Int)) (2 ^ w : Nat) := by
    refine ⟨(counts bus).adds, fun t => by have := t.isLt; omega, fun {x t n} h hn => ?_,
      fun l s => decide_eq_decide.2 Int.ofNat_le.symm⟩
    rw [Nat.mod_eq_of_lt (by omega)] at h
    omega
  obtain ⟨e, c', t', b', h1, h2, h3, h4⟩ := limit_counter hH (asked_counter hW) (l.toNat + 23 + 2 * W)
    l c t b (by omega) (by omega) (by omega)
  refine ⟨e, c', t', b', returns_of h1, fun h => h2 ?_, fun h => ?_, fun h => ?_⟩
  · have : l.toNat ≤ t.toNat := h
    omega
  · have : t.toNat < l.toNat := h
    have h3 := h3 (by omega)
    omega
  · have h4 := h4 h
    show l.toNat ≤ t'.toNat
    omega

/-- C49 for a `TsCounter` of a signed type. -/
theorem C49_returns_signed (bus : Bus (tsSig w O R) B) {W : Nat}
    (hW : ∀ r b, Ev.asked ⟨r, (bus r b).1⟩ ≤ W) (l : BitVec w) (c : Cpu Q) (t : BitVec w) (b : B)
    (hl : l.toInt + 22 + 2 * W < 2 ^ (w - 1)) :
    ∃ e c' t' b', ReturnsWith (tsHostSigned bus) l c (t, b) e c' (t', b') ∧ (l.toInt ≤ t.toInt → t' = t ∧ e = .ok) ∧
      (t.toInt < l.toInt → t.toInt + 4 ≤ t'.toInt ∧ t'.toInt < l.toInt + 23 + 2 * W) ∧
      (e = .ok → l.toInt ≤ t'.toInt) := by
  have hH : TellsTime (tsHostSigned bus) BitVec.toInt (2 ^ (w - 1)) := by
    refine ⟨(counts_signed bus).adds, fun t => BitVec.toInt_lt, fun {x t n} h hn => ?_, fun l s => ?_⟩
    · cases w with
      | zero =>
        have hx : x.toInt = 0 := by rw [BitVec.of_length_zero (x := x)]; rfl
        have ht : t.toInt = 0 := by rw [BitVec.of_length_zero (x := t)]; rfl
        have hn : (0 : Int) + n < 1 := ht ▸ hn
        rw [hx, ht]
        omega
      | succ w =>
      rw [signed_of h]
      have := @BitVec.le_toInt (w + 1) t
      have h0 : (2 : Int) ^ (w + 1) = 2 * 2 ^ w := by rw [Int.pow_succ]; omega
      rw [Nat.add_sub_cancel] at *
      rw [Int.bmod_eq_of_le] <;> push_cast <;> omega
    · show BitVec.sle l s.1 = _
      rw [BitVec.sle_eq_decide]
  have ha : ∀ r s, Ev.asked ⟨r, (tsHostSigned bus r s).1⟩ ≤ W := by
    intro r s
    cases r with
    | isPastLimit l => exact Nat.zero_le _
    | _ => exact asked_counter hW _ s
  obtain ⟨e, c', t', b', h1, h2, h3, h4⟩ := limit_counter hH ha
    ((l.toInt - t.toInt).toNat + 23 + 2 * W) l c t b (by omega) (by omega) hl
  exact ⟨e, c', t', b', returns_of h1, h2, h3, h4⟩

/-! ### The condition on the limit is needed -/

/-- C49 would be false without the condition on the limit: with a 16-bit counter starting at 0 and
the limit 65535, which is not reached before the counter overflows, a memory full of `NOP`
instructions is executed for ever. -/
theorem C49_refuted_overflow (n : Nat) :
    ((executeWithLimit (σ := tsSig 16 Unit Unit) n 0xFFFF#16 (Cpu.new : Cpu NMOS)).run demo (0, program [], ())).1 = none := by
  have h : ((limitOuter (σ := tsSig 16 Unit Unit) n 0xFFFF#16 n (Cpu.new : Cpu NMOS)).run demo
      (0, program [], ())).1 = none := by
    cases n with
    | zero => rfl
    | succ n =>
      have h1 := nop_loop (n + 1) (s := (Cpu.new : Cpu NMOS).load false) rfl rfl rfl (t := 0) rfl
      show ((Prog.bind (limitLoop (σ := tsSig 16 Unit Unit) (n + 1) 0xFFFF#16
        ((Cpu.new : Cpu NMOS).load false)) _).run demo _).1 = _
      rw [Prog.run_bind, h1]
      rfl
  exact h

/-! ### Examples -/

/-- The bound is met: an interrupt in mode 0 whose device gives ED, the memory having B0 (`LDIR`):
the limit is 1, the counter ends at 23. With `NOP` instructions and the limit 10 it ends at 12. -/
example :
    let c : Cpu NMOS := { (Cpu.new : Cpu NMOS) with bc := ⟨0, 2⟩, iff1 := true, iff2 := true }
    ((executeWithLimit (σ := tsSig 16 Unit Unit) 5 1#16 c).run
        (ramHost (demoIo true 0xED none none)) (0, program [0xB0], ())).2.1 = 23 ∧
      ((executeWithLimit (σ := tsSig 16 Unit Unit) 5 10#16 (Cpu.new : Cpu NMOS)).run
        demo (0, program [], ())).2.1 = 12 := by decide +kernel

/-- The theorems apply to this machine: no device asks for wait states. -/
example (l : BitVec 16) (hl : l.toNat < 65000) (c : Cpu NMOS) (m : Mem) :
    ∃ e c' t' b', ReturnsWith demo l c (0, m, ()) e c' (t', b') ∧ (0 < l → t'.toNat < l.toNat + 23) := by
  obtain ⟨e, c', t', b', h1, _, h2, _⟩ := C49_returns (ramBus (demoIo false 0 none none)) (W := 0)
    (fun r b => by cases r <;> exact Nat.le_refl _) l c 0 (m, ()) (by omega)
  exact ⟨e, c', t', b', h1, fun h => (h2 h).2⟩

/-- Some run of `execute_with_limit` has two tests of the limit, 4 T-states apart. -/
example : ∃ t r, (executeWithLimit (σ := tsSig 16 Unit Unit) 5 10#16 (Cpu.new : Cpu NMOS)).Runs t r ∧
    (t.filter Ev.tests).length = 4 ∧ clocked t = 12 :=
  ⟨_, _, Prog.runs_run demo _ (0, program [], ()), by decide +kernel, by decide +kernel⟩

end
end Z80
