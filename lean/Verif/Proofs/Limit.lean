import Verif.Proofs.Api
import Verif.Proofs.Rel

/-!
# `execute_with_limit` with the local variables stored after every instruction
-/

namespace Z80
open Ex

variable {σ : Sig} {Q α β γ : Type}

namespace Prog

theorem rel_wp {R : α → β → Prop} {p : Prog σ α} {q : Prog σ β} {P : List (Ev σ) → β → Prop}
    (h : Rel R p q) (hq : q.wp P) : Rel (fun a b => R a b ∧ ∃ t, P t b) p q := by
  induction p generalizing q P with
  | ret a =>
    cases q with
    | ret b => exact ⟨h, [], hq⟩
    | call r k => exact h.elim
  | call r k ih =>
    cases q with
    | ret b => exact h.elim
    | call r' k' =>
      obtain ⟨rfl, h⟩ := h
      refine ⟨rfl, fun a => ?_⟩
      have := ih a (h a) (hq a)
      refine (Prog.rel_mono ?_ this)
      rintro x y ⟨h1, t, h2⟩
      exact ⟨h1, _, h2⟩

theorem rel_eq {p q : Prog σ α} (h : Rel (fun a b => a = b) p q) : p = q := by
  have := rel_map (f := id) (g := id) h (fun a b h => h)
  rwa [show p.map id = p from bind_pure p, show q.map id = q from bind_pure q] at this

theorem rel_refl {R : α → α → Prop} (hR : ∀ a, R a a) (p : Prog σ α) : Rel R p p := by
  induction p with
  | ret a => exact hR a
  | call r k ih => exact ⟨rfl, fun a => ih a⟩

end Prog

section
variable [Flavour Q]

/-- `execute_with_limit_loop` with the local variables stored after every instruction. -/
def loopC : Nat → σ.L → Cpu Q → Prog σ (Option (Reason σ × Cpu Q))
  | 0, _, _ => .ret none
  | n + 1, l, c => do
    let r ← stepStored c
    let c := r.2
    match r.1 with
    | .cont => do
      let past ← ask (.isPastLimit l)
      if past then pure (some (.limitReached, c))
      else do
        let i ← askIrq (isIntAllowed c.pfx false && c.iff1)
        if i then pure (some (.irq, c))
        else loopC n l c
    | .enableInt => do
      let past ← ask (.isPastLimit l)
      if past then pure (some (.enableInt, c))
      else loopC n l { c with lastEi := false }
    | .halt => pure (some (.halt, c))
    | .writeIo o => pure (some (.writeIo o, c))
    | .reti r => pure (some (.reti r, c))
    | .ub => pure (some (.ub, c))

/-- What a single fetched instruction does to the control state, the after-EI and halt marks
not being cleared before. -/
structure StepOk (c : Cpu Q) (t : List (Ev σ)) (e : Exit σ) (c' : Cpu Q) : Prop where
  ex : ∃ ts code u, t = ⟨.addM1 c.pc, ts⟩ :: ⟨.readOpcode c.pc c.incR.getIr ts, code⟩ :: u ∧
    (∀ v ∈ u, v.req.isInstr = true) ∧
    (opcodes u).length = Spec.moreOpcodes (ixOf c.pfx) code ∧
    m1s u = (opcodes u).length ∧
    c'.view = Spec.control code (opcodes u) c.af.hi { c.view with r := Spec.refresh c.view.r 1 } ∧
    (e = .enableInt ↔ code = 0xFB) ∧ (e = .halt ↔ code = 0x76)
  noUb : e ≠ .ub

theorem next_deb (s : St Q) :
    (Z80.nextInstruction (σ := σ) s).wp fun _ r => r.2.deb = s.deb := by
  refine wp_fetch fun ts c => ?_
  exact Prog.wp_mono (fun t r h => h.deb) (ok_code c _)

theorem ok_stepStored (c : Cpu Q) : (stepStored (σ := σ) c).wp fun t r => StepOk c t r.1 r.2 := by
  refine (Prog.wp_bind _ _ _).2 (wp_fetch fun ts code => ?_)
  refine Prog.wp_mono ?_ (ok_code code _)
  intro u r h
  show StepOk c (_ ++ []) _ _
  rw [List.append_nil]
  refine ⟨⟨ts, code, u, rfl, h.calls, h.fetched, h.m1, ?_, h.ei, h.halt⟩, h.noUb⟩
  have := h.ctl
  rw [ctl_fetch] at this
  exact this

/-- Keeping the variables over the whole loop makes no difference. -/
theorem loop_rel (n : Nat) (l : σ.L) (s : St Q) (c : Cpu Q)
    (h : s.blank = (c.load false).blank) :
    Prog.Rel (fun a b => a = b) (limitLoop n l s) (loopC n l c) := by
  induction n generalizing s c with
  | zero => exact rfl
  | succ n ih =>
    have h1 := Prog.rel_wp (Fresh.nextInstruction (σ := σ) s (c.load false) h) (next_deb _)
    have e : loopC (σ := σ) (n + 1) l c = (Z80.nextInstruction (c.load false)).bind fun r =>
        (match r.1 with
          | .cont => do
            let past ← ask (.isPastLimit l)
            if past then pure (some (.limitReached, r.2.store))
            else do
              let i ← askIrq (isIntAllowed r.2.store.pfx false && r.2.store.iff1)
              if i then pure (some (.irq, r.2.store))
              else loopC n l r.2.store
          | .enableInt => do
            let past ← ask (.isPastLimit l)
            if past then pure (some (.enableInt, r.2.store))
            else loopC n l { r.2.store with lastEi := false }
          | .halt => pure (some (.halt, r.2.store))
          | .writeIo o => pure (some (.writeIo o, r.2.store))
          | .reti x => pure (some (.reti x, r.2.store))
          | .ub => pure (some (.ub, r.2.store)) : Prog σ _) := by
      show Prog.bind (stepStored c) _ = _
      rw [stepStored, Prog.map, Prog.bind_assoc]
      rfl
    rw [e]
    refine Prog.rel_bind h1 ?_
    rintro ⟨e1, s1⟩ ⟨e2, s2⟩ ⟨⟨he, hs⟩, _, hd⟩
    have he : e1 = e2 := he
    have hs : s1.blank = s2.blank := hs
    have hd : s2.deb = false := hd
    subst he
    have hst : s1.store = s2.store := store_eq hs
    have hld : s1.blank = (s2.store.load false).blank := hs.trans (parts_blank rfl rfl rfl rfl hd)
    have hpx : s1.pfx = s2.store.pfx := (blank_parts hld).2.2.2.1
    have hff : s1.cpu.iff1 = s2.store.iff1 := (congrArg Cpu.iff1 (blank_parts hld).1 :)
    cases e1 with
    | cont =>
      refine Prog.rel_call fun past => ?_
      cases past with
      | true => exact congrArg (fun c => some (Reason.limitReached, c)) hst
      | false =>
        show Prog.Rel _ (Prog.bind (askIrq (isIntAllowed s1.pfx false && s1.cpu.iff1)) _)
          (Prog.bind (askIrq (isIntAllowed s2.store.pfx false && s2.store.iff1)) _)
        rw [hpx, hff]
        refine Prog.rel_bind (Prog.rel_refl (R := fun a b => a = b) (fun _ => rfl) _) ?_
        rintro i _ rfl
        cases i with
        | true => exact congrArg (fun c => some (Reason.irq, c)) hst
        | false => exact ih s1 s2.store hld
    | enableInt =>
      refine Prog.rel_call fun past => ?_
      cases past with
      | true => exact congrArg (fun c => some (Reason.enableInt, c)) hst
      | false =>
        refine ih _ _ ?_
        obtain ⟨g1, g2, g3, g4, g5⟩ := blank_parts hld
        refine parts_blank ?_ g2 g3 g4 g5
        exact congrArg (fun c : Cpu Q => { c with lastEi := false }) g1
    | halt => exact congrArg (fun c => some (Reason.halt, c)) hst
    | writeIo o => exact congrArg (fun c => some (Reason.writeIo o, c)) hst
    | reti o => exact congrArg (fun c => some (Reason.reti o, c)) hst
    | ub => exact congrArg (fun c => some (Reason.ub, c)) hst

theorem loop_eq (n : Nat) (l : σ.L) (c : Cpu Q) : limitLoop n l (c.load false) = loopC n l c :=
  Prog.rel_eq (loop_rel n l _ c rfl)

/-- The single-step method's instruction is the loop's, after clearing the two marks. -/
theorem fetchExecute_eq (c : Cpu Q) : fetchExecute (σ := σ) false c =
    (stepStored { c with lastEi := false, halt := false }).map fun r => (r.1.toRes, r.2) := by
  rw [stepStored, Prog.map, Prog.map, Prog.bind_assoc]
  refine congrArg (Prog.call _) (funext fun ts => congrArg (Prog.call _) (funext fun code => ?_))
  refine Prog.rel_map (f := fun r : Exit σ × St Q => (r.1.toRes, r.2.store))
    (g := fun r : Exit σ × St Q => (r.1.toRes, r.2.store)) (Fresh.executeCode code _ _ ?_)
    fun a b h => ?_
  · exact parts_blank rfl rfl rfl rfl rfl
  · rw [h.1, store_eq h.2]

end
end Z80
