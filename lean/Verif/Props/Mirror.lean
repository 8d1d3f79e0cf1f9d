import Verif.Spec.Mirror
import Verif.Proofs.Mirror

/-!
# IX and IY are alike (C75)
-/

namespace Z80
open Spec
variable {σ : Sig} {S Q : Type} [FlavourSpec Q]

/-- `execute_next` called `n` times: what it reports every time, the CPU and the host at the end. -/
def nextTimes (H : Handler σ S) : Nat → Cpu Q → S → List (Res σ) × Cpu Q × S
  | 0, c, s => ([], c, s)
  | n + 1, c, s =>
    let r := (executeNext false c).run H s
    let q := nextTimes H n r.1.2 r.2
    (r.1.1 :: q.1, q.2)

/-- The same before a host that exchanges the prefixes, in every call the first opcode. -/
def nextTimes' (H : Handler σ S) : Nat → Cpu Q → S → List (Res σ) × Cpu Q × S
  | 0, c, s => ([], c, s)
  | n + 1, c, s =>
    let r := (executeNext false c).run (exchanging (c.getIm == .mode0) H) (s, true)
    let q := nextTimes' H n r.1.2 r.2.1
    (r.1.1 :: q.1, q.2)

theorem abs_mirror (c : Cpu Q) : abs c.mirror = (abs c).mirror := by
  obtain ⟨⟩ := c
  rename_i pfx _ _
  rcases pfx with _ | _ | _ <;> rfl

theorem obs_mirror {c d : Cpu Q} (h : abs d = (abs c).mirror) : d.obs = c.mirror.obs := by
  rw [obs_shown, obs_shown, h, abs_mirror]

/-- The result of a run, from the specified cycles. -/
theorem run_drives {T : Type} {p : Prog σ (Res σ × Cpu Q)} {b : Cycles σ.O σ.R} (hd : DrivesP p b) (hp : p.erase = p)
    (H : Handler σ T) (s : T) : abs (p.run H s).1.2 = (b.calls.run H s).1.1 ∧
      outS (p.run H s).1.1 = some (b.calls.run H s).1.2.2 ∧ (p.run H s).2 = (b.calls.run H s).2 := by
  unfold DrivesP at hd
  rw [hp] at hd
  have h := congrArg (fun q => q.run H s) hd
  simp only [(run_map _ _ _).1] at h
  exact ⟨congrArg (fun x => x.1.1) h, congrArg (fun x => x.1.2) h, congrArg (fun x => x.2) h⟩

theorem mirror_next (H : Handler σ S) {c d : Cpu Q} (s : S) (h : abs d = (abs c).mirror) :
    let r := (executeNext false c).run H s
    let q := (executeNext false d).run (exchanging (d.getIm == .mode0) H) (s, true)
    q.1.1 = r.1.1 ∧ abs q.1.2 = (abs r.1.2).mirror ∧ q.2.1 = r.2 := by
  intro r q
  have hz : (d.getIm == .mode0) = ((abs c).im == 0) := by
    have : (abs d).im = (abs c).im := by rw [h]; rfl
    rw [← this]
    show (d.im == .mode0) = (imOf d.im == 0)
    cases d.im <;> rfl
  obtain ⟨r1, r2, r3⟩ := run_drives (drive_step (σ := σ) false c) (erase_quiet_next c) H s
  obtain ⟨q1, q2, q3⟩ := run_drives (drive_step (σ := σ) false d) (erase_quiet_next d)
    (exchanging (d.getIm == .mode0) H) (s, true)
  rw [h, hz] at q1 q2 q3
  obtain ⟨f, e⟩ := run_step (FlavourSpec.opt Q) H (abs c) s
  rw [e] at q1 q2 q3
  have q2 : outS _ = some _ := q2
  refine ⟨?_, ?_, ?_⟩
  · show ((executeNext false d).run (exchanging (d.getIm == .mode0) H) (s, true)).1.1 = _
    rw [hz]
    exact outS_inj (q2.trans r2.symm) (by rw [q2]; nofun)
  · show abs ((executeNext false d).run (exchanging (d.getIm == .mode0) H) (s, true)).1.2 = _
    rw [hz]
    exact q1.trans (congrArg Regs.mirror r1).symm
  · show ((executeNext false d).run (exchanging (d.getIm == .mode0) H) (s, true)).2.1 = _
    rw [hz]
    exact (congrArg Prod.fst q3).trans r3.symm

/-- C75: with IX and IY exchanged, before a host that exchanges DD and FD, any number of calls of `execute_next` report
the same, leave the host the same, and end with the same registers, IX and IY exchanged. -/
theorem C75_execute_next (H : Handler σ S) (n : Nat) (c : Cpu Q) (s : S) :
    (nextTimes' H n c.mirror s).1 = (nextTimes H n c s).1 ∧
    (nextTimes' H n c.mirror s).2.1.obs = (nextTimes H n c s).2.1.mirror.obs ∧
    (nextTimes' H n c.mirror s).2.2 = (nextTimes H n c s).2.2 := by
  have key : ∀ (n : Nat) (c d : Cpu Q) (s : S), abs d = (abs c).mirror →
      (nextTimes' H n d s).1 = (nextTimes H n c s).1 ∧
      abs (nextTimes' H n d s).2.1 = (abs (nextTimes H n c s).2.1).mirror ∧
      (nextTimes' H n d s).2.2 = (nextTimes H n c s).2.2 := by
    intro n
    induction n with
    | zero => intro c d s h; exact ⟨rfl, h, rfl⟩
    | succ n ih =>
      intro c d s h
      obtain ⟨h1, h2, h3⟩ := mirror_next H s h
      obtain ⟨g1, g2, g3⟩ := ih _ _ ((executeNext false c).run H s).2 h2
      show _ :: _ = _ :: _ ∧ abs (nextTimes' H n _ _).2.1 = _ ∧ (nextTimes' H n _ _).2.2 = _
      rw [h1, h3]
      exact ⟨congrArg _ g1, g2, g3⟩
  obtain ⟨h1, h2, h3⟩ := key n c c.mirror s (abs_mirror c)
  exact ⟨h1, obs_mirror h2, h3⟩

/-- C75: the same of `execute_instruction`, with the other prefix as the opcode given. -/
theorem C75_execute_instruction (H : Handler σ S) (op : U8) (c : Cpu Q) (s : S) :
    let r := (executeInstruction false op c).run H s
    let q := (executeInstruction false (otherPrefix op) c.mirror).run H s
    q.1.1 = r.1.1 ∧ q.1.2.obs = r.1.2.mirror.obs ∧ q.2 = r.2 := by
  intro r q
  obtain ⟨r1, r2, r3⟩ := run_drives (drive_instruction (σ := σ) false op c) (erase_quiet_instruction op c) H s
  obtain ⟨q1, q2, q3⟩ := run_drives (drive_instruction (σ := σ) false (otherPrefix op) c.mirror)
    (erase_quiet_instruction _ _) H s
  rw [abs_mirror, mirrorOp, calls_map, (run_map _ _ _).1] at q1 q2 q3
  have q2 : outS _ = some _ := q2
  exact ⟨outS_inj (q2.trans r2.symm) (by rw [q2]; nofun), obs_mirror (q1.trans (congrArg Regs.mirror r1).symm),
    q3.trans r3.symm⟩

/-- The bytes exchanged are the two prefixes, and no others. -/
theorem C75_prefixes (x : U8) : (otherPrefix x = 0xFD ↔ x = 0xDD) ∧ (otherPrefix x = 0xDD ↔ x = 0xFD) ∧
    otherPrefix (otherPrefix x) = x := by
  have := all8_spec (p := fun x => decide ((otherPrefix x = 0xFD ↔ x = 0xDD) ∧ (otherPrefix x = 0xDD ↔ x = 0xFD) ∧
    otherPrefix (otherPrefix x) = x)) (by decide +kernel) x
  exact of_decide_eq_true this

/-- A CPU in front of `INC IX`, between the prefix and the opcode. -/
def mirrorCpu : Cpu NMOS := { Cpu.new with ix := ⟨0x12, 0xFF⟩, iy := ⟨0x56, 0x78⟩, pfx := some .xdd }

/-- The instruction does change IX, and in the mirror IY. -/
example (H : Handler σ S) (s : S) :
    ((executeInstruction false 0x23 mirrorCpu).run H s).1.2.obs.ixh = 0x13 ∧
    ((executeInstruction false 0x23 mirrorCpu.mirror).run H s).1.2.obs.iyh = 0x13 := by
  have h := (C75_execute_instruction H 0x23 mirrorCpu s).2.1
  rw [show otherPrefix 0x23 = 0x23 by decide] at h
  rw [h]
  have e : ((executeInstruction false 0x23 mirrorCpu).run H s).1.2.obs.ixh = 0x13 := by
    rw [obs_shown, (run_drives (drive_instruction (σ := σ) false 0x23 mirrorCpu) (erase_quiet_instruction _ _) H s).1]
    rfl
  exact ⟨e, e⟩

end Z80
