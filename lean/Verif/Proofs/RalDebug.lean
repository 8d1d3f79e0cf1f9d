import Verif.Model.RalDebug
import Verif.Proofs.RalFrame

/-!
# One `execute_next` of the debugger of the example computer
-/

namespace Z80.Ral
open Spec Spec.Ral

theorem took_fetch_deb {σ : Sig} {Q : Type} [FlavourSpec Q] {deb : Bool} {c : Cpu Q} {t : List (Ev σ)}
    {r : Res σ × Cpu Q} (h : (fetchExecute deb c).Runs t r) : Took 4 21 1 t := by
  obtain ⟨ts, u, rfl, h'⟩ := Prog.runs_call h
  obtain ⟨x, u, rfl, h2⟩ := Prog.runs_call h'
  have h1 : Took 4 4 0 [(⟨.addM1 c.pc, ts⟩ : Ev σ), ⟨.readOpcode c.pc c.incR.getIr ts, x⟩] :=
    ⟨Nat.le_refl _, Nat.le_refl _, Nat.le_refl _, rfl, by simp [Ev.tests],
        by simp [Timely, carries, stamp?, given]⟩
  exact h1.append (took_instruction h2)

/-- The pace of `execute_next`. -/
theorem took_next {σ : Sig} {Q : Type} [FlavourSpec Q] {deb : Bool} {c : Cpu Q} {t : List (Ev σ)}
    {r : Res σ × Cpu Q} (h : (executeNext deb c).Runs t r) : Took 4 23 2 t := by
  unfold executeNext at h
  obtain ⟨p, u, i, rfl, h1, h2⟩ := Prog.runs_bind.1 h
  have hp := took_askIrq h1
  have hu : Took 4 23 2 u := by
    split at h2
    · exact (took_irq h2).mono (by decide) (Nat.le_refl _) (Nat.le_refl _)
    split at h2
    · obtain ⟨p, u, d, rfl, h3, h4⟩ := Prog.runs_bind.1 h2
      obtain ⟨rfl, _⟩ := Prog.runs_ret h4
      rw [List.append_nil]
      exact (took_halt h3).mono (by decide) (by decide) (by decide)
    · exact (took_fetch_deb h2).mono (by decide) (by decide) (by decide)
  exact (hp.append hu).mono (by decide) (by decide) (by decide)

variable {Q D : Type} [FlavourSpec Q] {dev : Device D}

/-- `execute_next` of the computer never fails: no device asks for a break. -/
theorem executed_ok (deb : Bool) (m : Machine Q D) :
    ∃ e cpu cur bus, m.executed dev deb = some
        ((executeNext deb m.cpu).trace (tClock (Boards.host dev)) (m.cur, m.bus), { m with cpu, cur, bus }) ∧
      (executeNext deb m.cpu).run (tClock (Boards.host dev)) (m.cur, m.bus) = ((e, cpu), cur, bus) ∧
      (executeNext deb m.cpu).Runs ((executeNext deb m.cpu).trace (tClock (Boards.host dev)) (m.cur, m.bus)) (e, cpu) := by
  have hr := Prog.runs_run (tClock (Boards.host dev)) (executeNext deb m.cpu) (m.cur, m.bus)
  unfold Machine.executed
  generalize hz : (executeNext deb m.cpu).run (tClock (Boards.host dev)) (m.cur, m.bus) = z at hr ⊢
  obtain ⟨⟨e, c⟩, t, b⟩ := z
  have h1 := (Prog.runs_wp hr (caused_next deb m.cpu)).1
  rw [no_causes clock_cause] at h1
  have h2 := C14_next deb m.cpu hr
  cases e with
  | ok => exact ⟨_, _, _, _, rfl, rfl, hr⟩
  | halt => exact ⟨_, _, _, _, rfl, rfl, hr⟩
  | writeIo o => cases h1
  | reti o => cases h1
  | ub => exact absurd rfl h2

/-- Its pace. -/
theorem executed_pace (hd : Prompt dev) (deb : Bool) (m : Machine Q D) (h : m.cur.toNat + 23 < 2 ^ 32) :
    ∃ t m', m.executed dev deb = some (t, m') ∧ m.cur.toNat + 4 ≤ m'.cur.toNat ∧ m'.cur.toNat ≤ m.cur.toNat + 23 := by
  obtain ⟨e, cpu, cur, bus, h1, h2, h3⟩ := executed_ok (dev := dev) deb m
  refine ⟨_, _, h1, ?_⟩
  have hc := counts_run (clock_adds (Boards.host dev)) (executeNext deb m.cpu) m.cur m.bus
  have hq := no_asked (clock_asked hd) (executeNext deb m.cpu) (m.cur, m.bus)
  have ht := took_next h3
  rw [h2, elapsed_eq, ht.wait, hq] at hc
  have h4 := ht.lo
  have h5 := ht.hi
  rw [Nat.mod_eq_of_lt (by omega)] at hc
  simp only at hc ⊢
  omega

end Z80.Ral
