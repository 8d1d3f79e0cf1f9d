import Verif.Proofs.Break
import Verif.Proofs.Quiet
import Verif.Proofs.Cause
import Verif.Proofs.Demo

/-!
# Independence of requested breaks and of a debugger (C33, C37)
-/

namespace Z80
open Ex

variable {σ : Sig} {Q : Type}

section
variable [Flavour Q]

/-! ## C33: a requested break never changes what the instruction does -/

/-- The result an instruction returns under the breaks `l` requested by the host, when `e` is what
it returns without any. -/
def Res.under (e : Res σ) : List (Res σ) → Res σ
  | [] => e
  | b :: _ => b

theorem under_mute {e e' : Res σ} {u : List (Ev σ)} (h : Caused u e') (hm : e.mute = e'.mute) :
    e' = e.mute.under (causes u) := by
  rw [h.1, hm]
  cases e' <;> rfl

/-- Whatever else the host answers: with the same answers apart from the breaks requested,
`execute_next` makes the same calls and reaches the same CPU state; it returns the break
requested, if any, and otherwise what it returns without a break. -/
theorem C33_execute_next {deb : Bool} {c c' : Cpu Q} {t u : List (Ev σ)} {e : Res σ}
    (h : (executeNext deb c).Runs t (e, c')) (hu : Alike t u) :
    (executeNext deb c).Runs u (e.mute.under (causes u), c') := by
  obtain ⟨⟨e', c''⟩, hr, hm, hc⟩ := Prog.relB_runs (mute_next deb c) h hu
  cases hc
  have hc := Prog.runs_wp hr (caused_next deb c)
  rwa [← under_mute hc hm]

/-- The same for `execute_instruction`, whatever the opcode. -/
theorem C33_execute_instruction {deb : Bool} {code : U8} {c c' : Cpu Q} {t u : List (Ev σ)}
    {e : Res σ} (h : (executeInstruction deb code c).Runs t (e, c')) (hu : Alike t u) :
    (executeInstruction deb code c).Runs u (e.mute.under (causes u), c') := by
  obtain ⟨⟨e', c''⟩, hr, hm, hc⟩ := Prog.relB_runs (mute_instruction deb code c) h hu
  cases hc
  have hc := Prog.runs_wp hr (caused_instruction deb code c)
  rwa [← under_mute hc hm]

/-- The same for an accepted interrupt. -/
theorem C33_irq {deb : Bool} {c c' : Cpu Q} {t u : List (Ev σ)} {e : Res σ}
    (h : (irq deb c).Runs t (some e, c')) (hu : Alike t u) :
    (irq deb c).Runs u (some (e.mute.under (causes u)), c') := by
  unfold irq at h ⊢
  split at h
  · next ha =>
    rw [if_pos ha]
    obtain ⟨r, h', hr⟩ := Prog.runs_map.1 h
    obtain ⟨e1, c1⟩ := r
    cases hr
    obtain ⟨⟨e', c''⟩, hr, hm, hc⟩ := Prog.relB_runs (mute_irq deb c) h' hu
    cases hc
    have hc := Prog.runs_wp hr (caused_irq deb c)
    rw [← under_mute hc hm]
    exact Prog.runs_map.2 ⟨_, hr, rfl⟩
  · obtain ⟨rfl, h⟩ := Prog.runs_ret h
    cases h

end

/-- A host that never requests a break and is otherwise like `H`. -/
def silence {S : Type} (H : Handler σ S) : Handler σ S
  | .writeIo p v ts, s => ((none, (H (.writeIo p v ts) s).1.2), (H (.writeIo p v ts) s).2)
  | .reti p ts, s => (none, (H (.reti p ts) s).2)
  | r, s => H r s

/-- On any host `H`: with all requests for a break removed, the same CPU state and host state are
reached by the same calls, and the result is the same except that there is no break. -/
theorem C33_silenced [Flavour Q] {S : Type} (H : Handler σ S) (deb : Bool) (c : Cpu Q) (s : S) :
    ((executeNext deb c).run (silence H) s) =
        ((((executeNext deb c).run H s).1.1.mute, ((executeNext deb c).run H s).1.2),
          ((executeNext deb c).run H s).2) ∧
      ((executeNext deb c).trace (silence H) s).map Ev.req =
        ((executeNext deb c).trace H s).map Ev.req := by
  have hH : ∀ r s, r.Same (H r s).1 (silence H r s).1 ∧ (H r s).2 = (silence H r s).2 := by
    intro r s
    cases r <;> first | exact ⟨rfl, rfl⟩ | exact ⟨trivial, rfl⟩
  obtain ⟨⟨h1, h2⟩, h3, h4⟩ := Prog.relB_run (mute_next deb c) hH s
  have hn : causes ((executeNext deb c).trace (silence H) s) = [] := by
    generalize executeNext (σ := σ) deb c = p
    clear h1 h2 h3 h4
    induction p generalizing s with
    | ret a => rfl
    | call r k ih =>
      rw [show (Prog.call r k).trace (silence H) s = ⟨r, (silence H r s).1⟩ :: _ from rfl,
        causes, List.filterMap_cons_none]
      · exact ih _ _
      · cases r <;> rfl
  have hc := (Prog.runs_wp (Prog.runs_run (silence H) (executeNext deb c) s) (caused_next deb c)).1
  rw [hn] at hc
  refine ⟨?_, ?_⟩
  · refine Prod.ext (Prod.ext ?_ h2.symm) h3.symm
    rw [h1]
    generalize ((executeNext deb c).run (silence H) s).1.1 = e at hc
    cases e <;> first | rfl | exact absurd hc (by simp [resV])
  · generalize (executeNext deb c).trace (silence H) s = u at h4
    generalize (executeNext deb c).trace H s = t at h4
    clear hn hc h1 h2 h3
    induction h4 with
    | nil => rfl
    | cons h _ ih => rw [List.map_cons, List.map_cons, ih, h.1]

/-- `OUT (n),A` on a host that requests a break: the hypotheses of `C33_execute_next` hold, and
the break makes a difference to the result. -/
example : ∃ (t u : List (Ev (tsSig 16 Unit Unit))) (c' : Cpu NMOS),
    (executeNext false Cpu.new).Runs t (.writeIo (), c') ∧ Alike t u ∧
      (executeNext false (Cpu.new : Cpu NMOS)).Runs u (.ok, c') := by
  let H := ramHost (demoIo false 0 (some ()) none)
  have h := runs_demo H (executeNext false (Cpu.new : Cpu NMOS)) (0, program [0xD3, 0x10], ())
    (a := .writeIo ()) (by rfl)
  have ha : ∀ t : List (Ev (tsSig 16 Unit Unit)), ∃ u, Alike t u ∧ causes u = [] := by
    intro t
    induction t with
    | nil => exact ⟨[], .nil, rfl⟩
    | cons e t ih =>
      obtain ⟨u, h1, h2⟩ := ih
      obtain ⟨r, a⟩ := e
      cases r with
      | writeIo p v ts => exact ⟨⟨.writeIo p v ts, (none, a.2)⟩ :: u, .cons ⟨rfl, rfl⟩ h1, h2⟩
      | reti p ts => exact ⟨⟨.reti p ts, none⟩ :: u, .cons ⟨rfl, trivial⟩ h1, h2⟩
      | _ => exact ⟨_ :: u, .cons ⟨rfl, rfl⟩ h1, h2⟩
  obtain ⟨u, h1, h2⟩ := ha ((executeNext false (Cpu.new : Cpu NMOS)).trace H (0, program [0xD3, 0x10], ()))
  refine ⟨_, u, _, h, h1, ?_⟩
  have := C33_execute_next h h1
  rwa [h2] at this

/-! ## C37: a debugger does not influence execution -/

section
variable [Flavour Q]

/-- Leaving out the calls of the debugger, executing with a debugger is executing without:
the same tree of other calls, results and states. -/
theorem C37_execute_next (c : Cpu Q) {t : List (Ev σ)} {r : Res σ × Cpu Q} :
    (executeNext false c).Runs t r ↔ ∃ u, (executeNext true c).Runs u r ∧ t = undebugged u := by
  rw [← erase_next]
  exact Prog.erase_runs

/-- The same for `execute_instruction`. -/
theorem C37_execute_instruction (code : U8) (c : Cpu Q) {t : List (Ev σ)} {r : Res σ × Cpu Q} :
    (executeInstruction false code c).Runs t r ↔
      ∃ u, (executeInstruction true code c).Runs u r ∧ t = undebugged u := by
  rw [← erase_instruction]
  exact Prog.erase_runs

/-- The same for `irq`. -/
theorem C37_irq (c : Cpu Q) {t : List (Ev σ)} {r : Option (Res σ) × Cpu Q} :
    (irq false c).Runs t r ↔ ∃ u, (irq true c).Runs u r ∧ t = undebugged u := by
  have : (irq true c : Prog σ _).erase = irq false c := by
    unfold irq
    split
    · show Prog.erase (Prog.bind _ _) = Prog.bind _ _
      rw [Prog.erase_bind, erase_irq]
      rfl
    · rfl
  rw [← this]
  exact Prog.erase_runs

/-- The debugger is called at most once per call, with or without an interrupt. -/
theorem C37_at_most_once (deb : Bool) (c : Cpu Q) {t : List (Ev σ)} {r : Res σ × Cpu Q}
    (h : (executeNext deb c).Runs t r) : debugs t ≤ 1 :=
  Prog.runs_wp h (once_next deb c)

/-- Also when executing a given opcode. -/
theorem C37_at_most_once_instruction (deb : Bool) (code : U8) (c : Cpu Q) {t : List (Ev σ)}
    {r : Res σ × Cpu Q} (h : (executeInstruction deb code c).Runs t r) : debugs t ≤ 1 :=
  Prog.runs_wp h (once_instruction deb code c)

end

/-- The debugger is called: for `LD BC,nn` once. -/
example : debugs ((executeNext true (Cpu.new : Cpu NMOS)).trace demo (0, program [0x01, 2, 3], ())) = 1 :=
  by decide +kernel

end Z80
