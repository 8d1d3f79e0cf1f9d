import Verif.Proofs.Rel

/-!
# Instructions do not look at the after-EI and halt marks
-/

set_option linter.unusedVariables false

namespace Z80
open Ex

variable {σ : Sig} {Q α β γ : Type}

/-- Forget the after-EI and halt marks. -/
def Cpu.unmark (c : Cpu Q) : Cpu Q := { c with lastEi := false, halt := false }

/-- Forget the marks. -/
def St.unmark (s : St Q) : St Q := { s with cpu := s.cpu.unmark }

/-- Code that does not look at the marks. -/
def Markless (x : Ex σ Q α) : Prop := ∀ s s', s.unmark = s'.unmark →
  Prog.Rel (fun a b => a.1 = b.1 ∧ a.2.unmark = b.2.unmark) (x s) (x s')

theorem unmark_parts {s s' : St Q} (h : s.unmark = s'.unmark) :
    s.cpu.unmark = s'.cpu.unmark ∧ s.flags = s'.flags ∧ s.pc = s'.pc ∧ s.pfx = s'.pfx ∧
      s.deb = s'.deb := by
  cases s; cases s'
  simpa [St.unmark] using h

theorem parts_unmark {s s' : St Q} (h1 : s.cpu.unmark = s'.cpu.unmark) (h2 : s.flags = s'.flags)
    (h3 : s.pc = s'.pc) (h4 : s.pfx = s'.pfx) (h5 : s.deb = s'.deb) : s.unmark = s'.unmark := by
  cases s; cases s'
  simp_all [St.unmark]

namespace Markless

theorem bind {x : Ex σ Q α} {f : α → Ex σ Q β} (hx : Markless x) (hf : ∀ a, Markless (f a)) :
    Markless (x >>= f) := by
  intro s s' h
  refine Prog.rel_bind (hx s s' h) fun a b hab => ?_
  rw [← hab.1]
  exact hf a.1 _ _ hab.2

theorem pure (a : α) : Markless (pure a : Ex σ Q α) := fun _ _ h => ⟨rfl, h⟩

theorem bind_getC {f : Cpu Q → Ex σ Q β} (h0 : ∀ c, f c.unmark = f c) (hf : ∀ c, Markless (f c)) :
    Markless (Ex.getC >>= f) := by
  intro s s' h
  show Prog.Rel _ (f s.cpu s) (f s'.cpu s')
  rw [← h0 s.cpu, (unmark_parts h).1, h0]
  exact hf _ _ _ h

theorem getF : Markless (Ex.getF : Ex σ Q _) := fun _ _ h => ⟨(unmark_parts h).2.1, h⟩
theorem getPc : Markless (Ex.getPc : Ex σ Q _) := fun _ _ h => ⟨(unmark_parts h).2.2.1, h⟩
theorem setF (v) : Markless (Ex.setF v : Ex σ Q _) := fun _ _ h =>
  ⟨rfl, parts_unmark (unmark_parts h).1 rfl (unmark_parts h).2.2.1 (unmark_parts h).2.2.2.1
    (unmark_parts h).2.2.2.2⟩
theorem setPc (v) : Markless (Ex.setPc v : Ex σ Q _) := fun _ _ h =>
  ⟨rfl, parts_unmark (unmark_parts h).1 (unmark_parts h).2.1 rfl (unmark_parts h).2.2.2.1
    (unmark_parts h).2.2.2.2⟩
theorem setPfx (v) : Markless (Ex.setPfx v : Ex σ Q _) := fun _ _ h =>
  ⟨rfl, parts_unmark (unmark_parts h).1 (unmark_parts h).2.1 (unmark_parts h).2.2.1 rfl
    (unmark_parts h).2.2.2.2⟩
theorem modC {f : Cpu Q → Cpu Q} (hf : ∀ c, (f c.unmark).unmark = (f c).unmark) :
    Markless (Ex.modC f : Ex σ Q _) := fun s s' h =>
  ⟨rfl, parts_unmark (by
    show (f s.cpu).unmark = (f s'.cpu).unmark
    rw [← hf s.cpu, (unmark_parts h).1, hf]) (unmark_parts h).2.1 (unmark_parts h).2.2.1
    (unmark_parts h).2.2.2.1 (unmark_parts h).2.2.2.2⟩
theorem call (r : Req σ) : Markless (Ex.call r : Ex σ Q _) := fun _ _ h =>
  Prog.rel_call fun _ => ⟨rfl, h⟩
theorem when {c : Bool} {x : Ex σ Q Unit} (h : Markless x) : Markless (Ex.when c x) := by
  cases c
  · exact fun _ _ h => ⟨rfl, h⟩
  · exact h
theorem ifElse {c : Bool} {x y : Ex σ Q α} (h : Markless x) (h' : Markless y) :
    Markless (Ex.ifElse c x y) := by
  cases c
  · exact h'
  · exact h
theorem dbg (l n a) : Markless (Z80.dbg l n a : Ex σ Q _) := by
  intro s s' h
  obtain ⟨_, _, h3, h4, h5⟩ := unmark_parts h
  unfold Z80.dbg
  rw [← h3, ← h4, ← h5]
  cases s.deb
  · exact ⟨rfl, h⟩
  · exact call _ s s' h

theorem addWaitOpt (a n) : Markless (Z80.addWaitOpt a n : Ex σ Q _) := by
  cases n
  · exact fun _ _ h => ⟨rfl, h⟩
  · exact call _

theorem exAfAfWithFlags : Markless (Z80.exAfAfWithFlags : Ex σ Q _) := by
  intro s s' h
  obtain ⟨h1, h2, h3, h4, h5⟩ := unmark_parts h
  have a1 : s.cpu.afAlt = s'.cpu.afAlt := (congrArg Cpu.afAlt h1 :)
  refine ⟨rfl, parts_unmark ?_ (congrArg RegPair.lo a1) h3 h4 h5⟩
  have := congrArg (fun c : Cpu Q => ({ c with af := c.afAlt, afAlt := ⟨c.af.hi, s.flags⟩ } : Cpu Q)) h1
  show ({ s.cpu.unmark with af := s.cpu.afAlt, afAlt := ⟨s.cpu.af.hi, s.flags⟩ } : Cpu Q) =
    { s'.cpu.unmark with af := s'.cpu.afAlt, afAlt := ⟨s'.cpu.af.hi, s'.flags⟩ }
  rw [← h2]
  exact this

end Markless

theorem setReg_unmark (c : Cpu Q) (r p v) : (c.unmark.setReg r p v).unmark = (c.setReg r p v).unmark := by
  cases r <;> first | rfl | (rcases p with _ | _ | _ <;> rfl)
theorem setReg16_unmark (c : Cpu Q) (r v) : (c.unmark.setReg16' r v).unmark = (c.setReg16' r v).unmark := by
  cases r <;> rfl
theorem setIndex_unmark (c : Cpu Q) (p v) : (c.unmark.setIndexRef p v).unmark = (c.setIndexRef p v).unmark := by
  cases p <;> rfl
theorem setIndex16_unmark (c : Cpu Q) (p v) :
    (c.unmark.setIndex16 p v).unmark = (c.setIndex16 p v).unmark := by
  cases p <;> rfl

macro "markless_side" : tactic => `(tactic| first
  | (intro c; rfl)
  | rfl
  | exact setReg_unmark _ _ _ _
  | exact setReg16_unmark _ _ _
  | exact setIndex_unmark _ _ _
  | exact setIndex16_unmark _ _ _)

section
variable [Flavour Q]

theorem Markless.instrDaa (l) : Markless (instrDaa l : Ex σ Q _) := by
  unfold Z80.instrDaa
  refine Markless.bind (Markless.dbg _ _ _) fun _ => Markless.bind_getC (fun c => rfl) fun c =>
    Markless.bind Markless.getF fun f => ?_
  rw [daa_eq]
  walk Z80.Markless <;> markless_side

theorem Markless.instrE (m : ME) (c0 c1) : Markless (instrE m c0 c1 : Ex σ Q _) := by
  cases m <;> walk Z80.Markless <;> markless_side

theorem Markless.instr0 (m : M0) (c) : Markless (instr0 m c : Ex σ Q _) := by
  cases m <;> walk Z80.Markless <;> markless_side

theorem Markless.instrI (m : MI) (p c) : Markless (instrI m p c : Ex σ Q _) := by
  cases m <;> walk Z80.Markless <;> markless_side

theorem Markless.executeCode (c) : Markless (executeCode c : Ex σ Q _) := by
  refine Markless.bind (Markless.modC fun c => rfl) fun _ => ?_
  intro s s' h
  obtain ⟨_, _, _, h4, _⟩ := unmark_parts h
  show Prog.Rel _ ((match s.pfx with
    | none => executePlain c
    | some p => executeIndexed p c : Ex σ Q _) s) ((match s'.pfx with
    | none => executePlain c
    | some p => executeIndexed p c : Ex σ Q _) s')
  rw [← h4]
  refine (?_ : Markless _) s s' h
  walk Z80.Markless

theorem Markless.nextInstruction : Markless (nextInstruction : Ex σ Q _) := by
  walk Z80.Markless <;> markless_side

end
end Z80
