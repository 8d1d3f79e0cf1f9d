import Verif.Proofs.Kit
import Verif.Proofs.Alu
import Verif.Proofs.Walk

/-!
# Runs that differ only in stale copies of the local variables

During an instruction Rust keeps `flags`, `pc` and `prefix` in local variables; the fields of
`self` are stale until they are written back. Instructions never look at the stale fields, so
`execute_with_limit`, which keeps the variables over many instructions, behaves like the single
step methods, which write them back every time.
-/

namespace Z80
open Ex

variable {σ : Sig} {Q α β γ δ : Type}

/-- The same calls with the same arguments, and related values for the same answers. -/
def Prog.Rel (R : α → β → Prop) : Prog σ α → Prog σ β → Prop
  | .ret a, .ret b => R a b
  | .call r k, .call r' k' => ∃ h : r = r', ∀ a, Prog.Rel R (k a) (k' (h ▸ a))
  | _, _ => False

namespace Prog

theorem rel_call {R : α → β → Prop} {r : Req σ} {k : r.Ans → Prog σ α} {k' : r.Ans → Prog σ β}
    (h : ∀ a, Rel R (k a) (k' a)) : Rel R (.call r k) (.call r k') := ⟨rfl, h⟩

theorem rel_bind {R : α → β → Prop} {R' : γ → δ → Prop} {p : Prog σ α} {q : Prog σ β}
    {f : α → Prog σ γ} {g : β → Prog σ δ} (h : Rel R p q)
    (hf : ∀ a b, R a b → Rel R' (f a) (g b)) : Rel R' (p.bind f) (q.bind g) := by
  induction p generalizing q with
  | ret a =>
    cases q with
    | ret b => exact hf a b h
    | call r k => exact h.elim
  | call r k ih =>
    cases q with
    | ret b => exact h.elim
    | call r' k' =>
      obtain ⟨rfl, h⟩ := h
      exact ⟨rfl, fun a => ih a (h a)⟩

theorem rel_mono {R R' : α → β → Prop} {p : Prog σ α} {q : Prog σ β}
    (hR : ∀ a b, R a b → R' a b) (h : Rel R p q) : Rel R' p q := by
  induction p generalizing q with
  | ret a =>
    cases q with
    | ret b => exact hR a b h
    | call r k => exact h.elim
  | call r k ih =>
    cases q with
    | ret b => exact h.elim
    | call r' k' =>
      obtain ⟨rfl, h⟩ := h
      exact ⟨rfl, fun a => ih a (h a)⟩

theorem rel_map {R : α → β → Prop} {p : Prog σ α} {q : Prog σ β} {f : α → γ} {g : β → γ}
    (h : Rel R p q) (hf : ∀ a b, R a b → f a = g b) : p.map f = q.map g := by
  induction p generalizing q with
  | ret a =>
    cases q with
    | ret b => exact congrArg Prog.ret (hf a b h)
    | call r k => exact h.elim
  | call r k ih =>
    cases q with
    | ret b => exact h.elim
    | call r' k' =>
      obtain ⟨rfl, h⟩ := h
      show Prog.call r _ = Prog.call r _
      exact congrArg _ (funext fun a => ih a (h a))

end Prog

/-- Forget the fields of `self` that are stale during an instruction. -/
def Cpu.blank (c : Cpu Q) : Cpu Q := { c with af := ⟨c.af.hi, 0⟩, pc := 0, pfx := none }

/-- Forget the stale fields. -/
def St.blank (s : St Q) : St Q := { s with cpu := s.cpu.blank }

/-- Code that does not look at the stale fields. -/
def Fresh (x : Ex σ Q α) : Prop := ∀ s s', s.blank = s'.blank →
  Prog.Rel (fun a b => a.1 = b.1 ∧ a.2.blank = b.2.blank) (x s) (x s')

theorem blank_parts {s s' : St Q} (h : s.blank = s'.blank) :
    s.cpu.blank = s'.cpu.blank ∧ s.flags = s'.flags ∧ s.pc = s'.pc ∧ s.pfx = s'.pfx ∧
      s.deb = s'.deb := by
  cases s; cases s'
  simpa [St.blank] using h

theorem parts_blank {s s' : St Q} (h1 : s.cpu.blank = s'.cpu.blank) (h2 : s.flags = s'.flags)
    (h3 : s.pc = s'.pc) (h4 : s.pfx = s'.pfx) (h5 : s.deb = s'.deb) : s.blank = s'.blank := by
  cases s; cases s'
  simp_all [St.blank]

namespace Fresh

theorem bind {x : Ex σ Q α} {f : α → Ex σ Q β} (hx : Fresh x) (hf : ∀ a, Fresh (f a)) :
    Fresh (x >>= f) := by
  intro s s' h
  refine Prog.rel_bind (hx s s' h) fun a b hab => ?_
  rw [← hab.1]
  exact hf a.1 _ _ hab.2

theorem pure (a : α) : Fresh (pure a : Ex σ Q α) := fun _ _ h => ⟨rfl, h⟩

theorem bind_getC {f : Cpu Q → Ex σ Q β} (h0 : ∀ c, f c.blank = f c) (hf : ∀ c, Fresh (f c)) :
    Fresh (Ex.getC >>= f) := by
  intro s s' h
  show Prog.Rel _ (f s.cpu s) (f s'.cpu s')
  rw [← h0 s.cpu, (blank_parts h).1, h0]
  exact hf _ _ _ h

theorem getF : Fresh (Ex.getF : Ex σ Q _) := fun _ _ h => ⟨(blank_parts h).2.1, h⟩
theorem getPc : Fresh (Ex.getPc : Ex σ Q _) := fun _ _ h => ⟨(blank_parts h).2.2.1, h⟩
theorem setF (v) : Fresh (Ex.setF v : Ex σ Q _) := fun _ _ h =>
  ⟨rfl, parts_blank (blank_parts h).1 rfl (blank_parts h).2.2.1 (blank_parts h).2.2.2.1
    (blank_parts h).2.2.2.2⟩
theorem setPc (v) : Fresh (Ex.setPc v : Ex σ Q _) := fun _ _ h =>
  ⟨rfl, parts_blank (blank_parts h).1 (blank_parts h).2.1 rfl (blank_parts h).2.2.2.1
    (blank_parts h).2.2.2.2⟩
theorem setPfx (v) : Fresh (Ex.setPfx v : Ex σ Q _) := fun _ _ h =>
  ⟨rfl, parts_blank (blank_parts h).1 (blank_parts h).2.1 (blank_parts h).2.2.1 rfl
    (blank_parts h).2.2.2.2⟩
theorem modC {f : Cpu Q → Cpu Q} (hf : ∀ c, (f c.blank).blank = (f c).blank) :
    Fresh (Ex.modC f : Ex σ Q _) := fun s s' h =>
  ⟨rfl, parts_blank (by
    show (f s.cpu).blank = (f s'.cpu).blank
    rw [← hf s.cpu, (blank_parts h).1, hf]) (blank_parts h).2.1 (blank_parts h).2.2.1
    (blank_parts h).2.2.2.1 (blank_parts h).2.2.2.2⟩
theorem call (r : Req σ) : Fresh (Ex.call r : Ex σ Q _) := fun _ _ h =>
  Prog.rel_call fun _ => ⟨rfl, h⟩
theorem when {c : Bool} {x : Ex σ Q Unit} (h : Fresh x) : Fresh (Ex.when c x) := by
  cases c
  · exact fun _ _ h => ⟨rfl, h⟩
  · exact h
theorem ifElse {c : Bool} {x y : Ex σ Q α} (h : Fresh x) (h' : Fresh y) :
    Fresh (Ex.ifElse c x y) := by
  cases c
  · exact h'
  · exact h
theorem dbg (l n a) : Fresh (Z80.dbg l n a : Ex σ Q _) := by
  intro s s' h
  obtain ⟨_, _, h3, h4, h5⟩ := blank_parts h
  unfold Z80.dbg
  rw [← h3, ← h4, ← h5]
  cases s.deb
  · exact ⟨rfl, h⟩
  · exact call _ s s' h

theorem addWaitOpt (a n) : Fresh (Z80.addWaitOpt a n : Ex σ Q _) := by
  cases n
  · exact fun _ _ h => ⟨rfl, h⟩
  · exact call _

theorem exAfAfWithFlags : Fresh (Z80.exAfAfWithFlags : Ex σ Q _) := by
  intro s s' h
  obtain ⟨h1, h2, h3, h4, h5⟩ := blank_parts h
  have a1 : s.cpu.afAlt = s'.cpu.afAlt := (congrArg Cpu.afAlt h1 :)
  refine ⟨rfl, parts_blank ?_ (congrArg RegPair.lo a1) h3 h4 h5⟩
  have a2 : s.cpu.af.hi = s'.cpu.af.hi := (congrArg (fun c => c.af.hi) h1 :)
  have := congrArg (fun c : Cpu Q => ({ c with af := ⟨c.afAlt.hi, 0⟩, afAlt := ⟨c.af.hi, s.flags⟩ } : Cpu Q)) h1
  show ({ s.cpu.blank with af := ⟨s.cpu.afAlt.hi, 0⟩, afAlt := ⟨s.cpu.af.hi, s.flags⟩ } : Cpu Q) =
    { s'.cpu.blank with af := ⟨s'.cpu.afAlt.hi, 0⟩, afAlt := ⟨s'.cpu.af.hi, s'.flags⟩ }
  rw [← h2]
  exact this

end Fresh

theorem setReg_blank (c : Cpu Q) (r p v) : (c.blank.setReg r p v).blank = (c.setReg r p v).blank := by
  cases r <;> first | rfl | (rcases p with _ | _ | _ <;> rfl)
theorem setReg16_blank (c : Cpu Q) (r v) : (c.blank.setReg16' r v).blank = (c.setReg16' r v).blank := by
  cases r <;> rfl
theorem setIndex_blank (c : Cpu Q) (p v) : (c.blank.setIndexRef p v).blank = (c.setIndexRef p v).blank := by
  cases p <;> rfl
theorem setIndex16_blank (c : Cpu Q) (p v) :
    (c.blank.setIndex16 p v).blank = (c.setIndex16 p v).blank := by
  cases p <;> rfl

macro "fresh_side" : tactic => `(tactic| first
  | (intro c; rfl)
  | rfl
  | exact setReg_blank _ _ _ _
  | exact setReg16_blank _ _ _
  | exact setIndex_blank _ _ _
  | exact setIndex16_blank _ _ _)

section
variable [Flavour Q]

theorem Fresh.instrDaa (l) : Fresh (instrDaa l : Ex σ Q _) := by
  unfold Z80.instrDaa
  refine Fresh.bind (Fresh.dbg _ _ _) fun _ => Fresh.bind_getC (fun c => rfl) fun c =>
    Fresh.bind Fresh.getF fun f => ?_
  rw [daa_eq]
  walk Z80.Fresh <;> fresh_side

theorem Fresh.instrE (m : ME) (c0 c1) : Fresh (instrE m c0 c1 : Ex σ Q _) := by
  cases m <;> walk Z80.Fresh <;> fresh_side

theorem Fresh.instr0 (m : M0) (c) : Fresh (instr0 m c : Ex σ Q _) := by
  cases m <;> walk Z80.Fresh <;> fresh_side

theorem Fresh.instrI (m : MI) (p c) : Fresh (instrI m p c : Ex σ Q _) := by
  cases m <;> walk Z80.Fresh <;> fresh_side

theorem Fresh.executeCode (c) : Fresh (executeCode c : Ex σ Q _) := by
  refine Fresh.bind (Fresh.modC fun c => rfl) fun _ => ?_
  intro s s' h
  obtain ⟨_, _, _, h4, _⟩ := blank_parts h
  show Prog.Rel _ ((match s.pfx with
    | none => executePlain c
    | some p => executeIndexed p c : Ex σ Q _) s) ((match s'.pfx with
    | none => executePlain c
    | some p => executeIndexed p c : Ex σ Q _) s')
  rw [← h4]
  refine (?_ : Fresh _) s s' h
  walk Z80.Fresh

theorem Fresh.nextInstruction : Fresh (nextInstruction : Ex σ Q _) := by
  walk Z80.Fresh <;> fresh_side

/-- An instruction, with the local variables loaded and stored around it. -/
def stepStored (c : Cpu Q) : Prog σ (Exit σ × Cpu Q) :=
  (Z80.nextInstruction (c.load false)).map fun r => (r.1, r.2.store)

omit [Flavour Q] in
theorem store_eq {s s' : St Q} (h : s.blank = s'.blank) : s.store = s'.store := by
  obtain ⟨h1, h2, h3, h4, _⟩ := blank_parts h
  have : ∀ s : St Q, s.store =
      { s.cpu.blank with af := ⟨s.cpu.blank.af.hi, s.flags⟩, pc := s.pc, pfx := s.pfx } :=
    fun _ => rfl
  rw [this, this, h1, h2, h3, h4]

/-- Keeping the local variables is the same as storing and loading them again. -/
theorem next_stored (s : St Q) (h : s.deb = false) :
    (Z80.nextInstruction (σ := σ) s).map (fun r => (r.1, r.2.store)) = stepStored s.store := by
  refine Prog.rel_map (Fresh.nextInstruction s (s.store.load false) ?_) fun a b hab => ?_
  · exact parts_blank rfl rfl rfl rfl h
  · rw [hab.1, store_eq hab.2]

end
end Z80
