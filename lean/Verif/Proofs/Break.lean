import Verif.Proofs.Runs
import Verif.Proofs.Walk

/-!
# Runs that differ only in the breaks requested by the host
-/

namespace Z80
open Ex

variable {σ : Sig} {Q α β γ δ : Type}

/-- Two answers to a call that differ at most in the break they request. -/
def Req.Same : (r : Req σ) → r.Ans → r.Ans → Prop
  | .writeIo _ _ _, a, b => a.2 = b.2
  | .reti _ _, _, _ => True
  | _, a, b => a = b

/-- The same call with answers that differ at most in the break requested. -/
def Ev.Same (e f : Ev σ) : Prop := ∃ h : e.req = f.req, f.req.Same (h ▸ e.ans) f.ans

/-- The same calls, with answers that differ at most in the breaks requested. -/
inductive Alike : List (Ev σ) → List (Ev σ) → Prop
  | nil : Alike [] []
  | cons {e f t u} (h : e.Same f) (h' : Alike t u) : Alike (e :: t) (f :: u)

/-- The result of an instruction without the break. -/
def Res.mute : Res σ → Res σ
  | .writeIo _ => .ok
  | .reti _ => .ok
  | e => e

/-- The exit of an instruction without the break. -/
def Exit.mute : Exit σ → Exit σ
  | .writeIo _ => .cont
  | .reti _ => .cont
  | e => e

theorem Exit.mute_toRes {e f : Exit σ} (h : e.mute = f.mute) : e.toRes.mute = f.toRes.mute := by
  cases e <;> cases f <;> first | rfl | exact nomatch h | (cases h; done)

/-- The same calls, and related values for answers that differ at most in requested breaks. -/
def Prog.RelB (R : α → β → Prop) : Prog σ α → Prog σ β → Prop
  | .ret a, .ret b => R a b
  | .call r k, .call r' k' =>
    ∃ h : r = r', ∀ a a', r'.Same (h ▸ a) a' → Prog.RelB R (k a) (k' a')
  | _, _ => False

namespace Prog

theorem relB_call {R : α → β → Prop} {r : Req σ} {k : r.Ans → Prog σ α} {k' : r.Ans → Prog σ β}
    (h : ∀ a a', r.Same a a' → RelB R (k a) (k' a')) : RelB R (.call r k) (.call r k') := ⟨rfl, h⟩

theorem relB_bind {R : α → β → Prop} {R' : γ → δ → Prop} {p : Prog σ α} {q : Prog σ β}
    {f : α → Prog σ γ} {g : β → Prog σ δ} (h : RelB R p q)
    (hf : ∀ a b, R a b → RelB R' (f a) (g b)) : RelB R' (p.bind f) (q.bind g) := by
  induction p generalizing q with
  | ret a =>
    cases q with
    | ret b => exact hf a b h
    | call r k => exact h.elim
  | call r k ih =>
    cases q with
    | ret b => exact h.elim
    | call r' k' =>
      obtain ⟨rfl, h⟩ := h
      exact ⟨rfl, fun a a' ha => ih a (h a a' ha)⟩

theorem relB_runs {R : α → β → Prop} {p : Prog σ α} {q : Prog σ β} (h : RelB R p q) {t u a}
    (hr : p.Runs t a) (htu : Alike t u) : ∃ b, q.Runs u b ∧ R a b := by
  induction p generalizing q t u with
  | ret x =>
    cases q with
    | ret y =>
      obtain ⟨rfl, rfl⟩ := runs_ret hr
      cases htu
      exact ⟨y, .ret y, h⟩
    | call r k => exact h.elim
  | call r k ih =>
    cases q with
    | ret b => exact h.elim
    | call r' k' =>
      obtain ⟨rfl, h⟩ := h
      obtain ⟨x, t', rfl, hr'⟩ := runs_call hr
      cases htu with
      | @cons _ e _ u' he htu' =>
        obtain ⟨r'', y⟩ := e
        obtain ⟨h0, hs⟩ := he
        cases h0
        obtain ⟨b, hb, hR⟩ := ih x (h x y hs) hr' htu'
        exact ⟨b, .call r k' y _ _ hb, hR⟩

/-- Two hosts that always answer alike apart from breaks, and change state alike. -/
theorem relB_run {R : α → β → Prop} {p : Prog σ α} {q : Prog σ β} (h : RelB R p q) {S : Type}
    {H H' : Handler σ S} (hH : ∀ r s, r.Same (H r s).1 (H' r s).1 ∧ (H r s).2 = (H' r s).2) (s : S) :
    R (p.run H s).1 (q.run H' s).1 ∧ (p.run H s).2 = (q.run H' s).2 ∧
      Alike (p.trace H s) (q.trace H' s) := by
  induction p generalizing q s with
  | ret x =>
    cases q with
    | ret y => exact ⟨h, rfl, .nil⟩
    | call r k => exact h.elim
  | call r k ih =>
    cases q with
    | ret b => exact h.elim
    | call r' k' =>
      obtain ⟨rfl, h⟩ := h
      have h1 := ih _ (h _ _ (hH r s).1) (H r s).2
      obtain ⟨a, b, c⟩ := h1
      rw [(hH r s).2] at a b c
      refine ⟨?_, ?_, .cons ⟨rfl, (hH r s).1⟩ ?_⟩
      · show R (run H (k (H r s).1) (H r s).2).1 _
        rw [(hH r s).2]; exact a
      · show (run H (k (H r s).1) (H r s).2).2 = _
        rw [(hH r s).2]; exact b
      · rw [(hH r s).2]; exact c

end Prog

/-- Code whose course does not depend on breaks. -/
def Deaf (x : Ex σ Q α) : Prop := ∀ s, Prog.RelB Eq (x s) (x s)

/-- Calls whose answer does not carry a break. -/
def Req.plain : Req σ → Bool
  | .writeIo _ _ _ | .reti _ _ => false
  | _ => true

namespace Deaf

theorem bind {x : Ex σ Q α} {f : α → Ex σ Q β} (hx : Deaf x) (hf : ∀ a, Deaf (f a)) :
    Deaf (x >>= f) := by
  intro s
  refine Prog.relB_bind (hx s) fun a b hab => ?_
  subst hab
  exact hf a.1 _
theorem pure {a : β} : Deaf (pure a : Ex σ Q β) := fun _ => rfl
theorem getS : Deaf (Ex.getS : Ex σ Q _) := fun _ => rfl
theorem getC : Deaf (Ex.getC : Ex σ Q _) := fun _ => rfl
theorem getF : Deaf (Ex.getF : Ex σ Q _) := fun _ => rfl
theorem getPc : Deaf (Ex.getPc : Ex σ Q _) := fun _ => rfl
theorem setF (v) : Deaf (Ex.setF v : Ex σ Q _) := fun _ => rfl
theorem setPc (v) : Deaf (Ex.setPc v : Ex σ Q _) := fun _ => rfl
theorem setPfx (v) : Deaf (Ex.setPfx v : Ex σ Q _) := fun _ => rfl
theorem modC (f) : Deaf (Ex.modC f : Ex σ Q _) := fun _ => rfl
theorem call {r : Req σ} (h : r.plain = true) : Deaf (Ex.call r : Ex σ Q _) := by
  intro s
  refine Prog.relB_call fun a a' haa => ?_
  show (a, s) = (a', s)
  cases r <;> first
    | exact congrArg (fun x => (x, s)) haa
    | exact absurd h Bool.false_ne_true
theorem when {c : Bool} {x : Ex σ Q Unit} (h : Deaf x) : Deaf (Ex.when c x) := by
  cases c
  · exact fun _ => rfl
  · exact h
theorem ifElse {c : Bool} {x y : Ex σ Q α} (h : Deaf x) (h' : Deaf y) :
    Deaf (Ex.ifElse c x y) := by
  cases c
  · exact h'
  · exact h
theorem dbg (c n a) : Deaf (Z80.dbg c n a : Ex σ Q _) := by
  intro s
  unfold Z80.dbg
  cases s.deb
  · exact rfl
  · exact call (r := .debug _) rfl s
theorem addWaitOpt (a n) : Deaf (Z80.addWaitOpt a n : Ex σ Q _) := by
  cases n
  · exact fun _ => rfl
  · exact call rfl

end Deaf

/-- Code whose course, apart from the break in its exit, does not depend on breaks. -/
def DeafX (x : Ex σ Q (Exit σ)) : Prop :=
  ∀ s, Prog.RelB (fun a b => a.1.mute = b.1.mute ∧ a.2 = b.2) (x s) (x s)

/-- Output code: only the value depends on breaks. -/
def DeafO (x : Ex σ Q α) : Prop := ∀ s, Prog.RelB (fun a b => a.2 = b.2) (x s) (x s)

namespace DeafO

theorem bind {x : Ex σ Q α} {f : α → Ex σ Q β} (hx : Deaf x) (hf : ∀ a, DeafO (f a)) :
    DeafO (x >>= f) := by
  intro s
  refine Prog.relB_bind (hx s) fun a b hab => ?_
  subst hab
  exact hf a.1 _

theorem bind_writeIo {bc : U16} {data : U8} {ts : σ.Ts}
    {g : Option σ.O × Option U16 → Ex σ Q (Option σ.O)}
    (hg : ∀ o o' w s, Prog.RelB (fun a b => a.2 = b.2) (g (o, w) s) (g (o', w) s)) :
    DeafO (Z80.writeIo bc data ts >>= g) := by
  intro s
  refine Prog.relB_call fun a a' haa => ?_
  show Prog.RelB _ (g a s) (g a' s)
  have haa : a.2 = a'.2 := haa
  obtain ⟨o, w⟩ := a
  obtain ⟨o', w'⟩ := a'
  cases haa
  exact hg o o' w s

theorem next {x : Ex σ Q α} {f g : α → Ex σ Q β} {s : St Q} (hx : Deaf x)
    (h : ∀ a s, Prog.RelB (fun a b => a.2 = b.2) (f a s) (g a s)) :
    Prog.RelB (fun a b => a.2 = b.2) ((x >>= f) s) ((x >>= g) s) := by
  refine Prog.relB_bind (hx s) fun a b hab => ?_
  subst hab
  exact h a.1 _

variable [Flavour Q]

theorem blockOut (d r) : DeafO (Z80.blockOut d r : Ex σ Q (Option σ.O)) := by
  walk Z80.DeafO
  all_goals first
    | (walk Z80.Deaf <;> rfl; done)
    | exact next (by walk Z80.Deaf) fun _ _ => next (by walk Z80.Deaf) fun _ _ =>
        next (by walk Z80.Deaf <;> rfl) fun _ _ => rfl

theorem ioAOutAn (n) : DeafO (Z80.ioAOutAn n : Ex σ Q (Option σ.O)) := by
  walk Z80.DeafO
  all_goals first
    | (walk Z80.Deaf <;> rfl; done)
    | exact next (by walk Z80.Deaf) fun _ _ => rfl

theorem ioROutBc (n) : DeafO (Z80.ioROutBc n : Ex σ Q (Option σ.O)) := by
  walk Z80.DeafO
  all_goals first
    | (walk Z80.Deaf <;> rfl; done)
    | exact next (by walk Z80.Deaf) fun _ _ => rfl

/-- The call of `RETI`. -/
theorem retiCall (a : U16) (ts : σ.Ts) : DeafO (Z80.retiCall a ts : Ex σ Q _) := fun _ =>
  Prog.relB_call fun _ _ _ => rfl

theorem pure (a : α) : DeafO (Pure.pure a : Ex σ Q α) := fun _ => rfl

theorem ifElse {c : Bool} {x y : Ex σ Q α} (h : DeafO x) (h' : DeafO y) :
    DeafO (Ex.ifElse c x y) := by
  cases c
  · exact h'
  · exact h

end DeafO

namespace DeafX
variable [Flavour Q]

theorem pure (e : Exit σ) : DeafX (Pure.pure e : Ex σ Q _) := fun _ => ⟨rfl, rfl⟩

theorem bind {x : Ex σ Q α} {f : α → Ex σ Q (Exit σ)} (hx : Deaf x) (hf : ∀ a, DeafX (f a)) :
    DeafX (x >>= f) := by
  intro s
  refine Prog.relB_bind (hx s) fun a b hab => ?_
  subst hab
  exact hf a.1 _

theorem out {x : Ex σ Q (Option σ.O)} (h : DeafO x) :
    DeafX (x >>= fun sb => Pure.pure (breakIo sb)) := by
  intro s
  refine Prog.relB_bind (h s) fun a b hab => ⟨?_, hab⟩
  rcases a with ⟨_ | _, _⟩ <;> rcases b with ⟨_ | _, _⟩ <;> rfl

theorem bind_blockOut (d r) :
    DeafX (Z80.blockOut d r >>= fun sb => Pure.pure (breakIo sb) : Ex σ Q (Exit σ)) :=
  out (DeafO.blockOut d r)
theorem bind_ioAOutAn (n) :
    DeafX (Z80.ioAOutAn n >>= fun sb => Pure.pure (breakIo sb) : Ex σ Q (Exit σ)) :=
  out (DeafO.ioAOutAn n)
theorem bind_ioROutBc (n) :
    DeafX (Z80.ioROutBc n >>= fun sb => Pure.pure (breakIo sb) : Ex σ Q (Exit σ)) :=
  out (DeafO.ioROutBc n)

theorem next {x : Ex σ Q α} {f g : α → Ex σ Q (Exit σ)} {s : St Q} (hx : Deaf x)
    (h : ∀ a s, Prog.RelB (fun a b => a.1.mute = b.1.mute ∧ a.2 = b.2) (f a s) (g a s)) :
    Prog.RelB (fun a b => a.1.mute = b.1.mute ∧ a.2 = b.2) ((x >>= f) s) ((x >>= g) s) := by
  refine Prog.relB_bind (hx s) fun a b hab => ?_
  subst hab
  exact h a.1 _

theorem instrE (m c0 c1) : DeafX (Z80.instrE m c0 c1 : Ex σ Q _) := by
  cases m
  case retn =>
    refine bind (by walk Z80.Deaf) fun _ => ?_
    intro s
    refine Prog.relB_bind (R := fun a b => a.2 = b.2) ?_ fun a b hab => ?_
    · refine DeafO.ifElse ?_ (DeafO.bind (by walk Z80.Deaf) fun _ => DeafO.pure _) s
      exact DeafO.bind (by walk Z80.Deaf) fun _ => DeafO.bind (by walk Z80.Deaf <;> rfl) fun _ =>
        DeafO.bind (by walk Z80.Deaf) fun _ => DeafO.retiCall _ _
    · rw [hab]
      refine next (by walk Z80.Deaf <;> rfl) fun _ _ => next (by walk Z80.Deaf) fun _ _ =>
        next (by walk Z80.Deaf) fun _ _ => ⟨?_, rfl⟩
      rcases a with ⟨_ | _, _⟩ <;> rcases b with ⟨_ | _, _⟩ <;> rfl
  all_goals walk Z80.DeafX
  all_goals first
    | (walk Z80.Deaf <;> rfl; done)
    | exact fun _ => ⟨rfl, rfl⟩

theorem instr0 (m c) : DeafX (Z80.instr0 m c : Ex σ Q _) := by
  cases m <;> walk Z80.DeafX
  all_goals first
    | (walk Z80.Deaf <;> rfl; done)

theorem instrI (m p c) : DeafX (Z80.instrI m p c : Ex σ Q _) := by
  cases m <;> walk Z80.DeafX
  all_goals first
    | (walk Z80.Deaf <;> rfl; done)

theorem executeIndexed (p c) : DeafX (Z80.executeIndexed p c : Ex σ Q _) := by
  unfold Z80.executeIndexed
  split
  · exact pure _
  · exact bind (by walk Z80.Deaf) fun _ => by walk Z80.DeafX
  · exact bind (by walk Z80.Deaf) fun _ => pure _
  · exact bind (by walk Z80.Deaf) fun _ => pure _
  · intro s
    refine Prog.relB_bind (instrI _ p c s) fun a b hab => ⟨hab.1, ?_⟩
    show ({ a.2 with pfx := none } : St Q) = { b.2 with pfx := none }
    rw [hab.2]

theorem executeCode (c) : DeafX (Z80.executeCode c : Ex σ Q _) := by
  walk Z80.DeafX
  all_goals (walk Z80.Deaf <;> rfl; done)

end DeafX

/-- Programs outside of an instruction whose course does not depend on breaks. -/
def MuteP (p : Prog σ (Res σ × Cpu Q)) : Prop :=
  Prog.RelB (fun a b => a.1.mute = b.1.mute ∧ a.2 = b.2) p p

theorem relB_ask {r : Req σ} (h : r.plain = true) {R : α → α → Prop} {f : r.Ans → Prog σ α}
    (hf : ∀ a, Prog.RelB R (f a) (f a)) : Prog.RelB R ((ask r).bind f) ((ask r).bind f) := by
  refine Prog.relB_call fun a a' haa => ?_
  have : a = a' := by
    cases r <;> first
      | exact haa
      | exact absurd h Bool.false_ne_true
  subst this
  exact hf a

section
variable [Flavour Q]

theorem mute_instruction (deb c) (cpu : Cpu Q) :
    MuteP (executeInstruction deb c cpu : Prog σ _) := by
  refine Prog.relB_bind (DeafX.executeCode c _) fun a b hab => ⟨Exit.mute_toRes hab.1, ?_⟩
  show a.2.store = b.2.store
  rw [hab.2]

theorem mute_push (v) (c : Cpu Q) : Prog.RelB Eq (pushCpu v c : Prog σ _) (pushCpu v c) := by
  refine Prog.relB_bind (R := Eq) ((by walk Z80.Deaf <;> rfl : Deaf (push16 v : Ex σ Q _)) _)
    fun a b hab => ?_
  subst hab
  rfl

theorem mute_irq (deb) (c : Cpu Q) : MuteP (irqNoCheck deb c : Prog σ _) := by
  refine relB_ask rfl fun ts => relB_ask rfl fun v => ?_
  refine Prog.relB_bind (R := Eq) ?_ fun _ _ _ => ?_
  · cases v.2
    · rfl
    · exact Prog.relB_call fun _ _ _ => rfl
  · generalize c.disableInterrupts.incR.wake = c
    show MuteP _
    split
    · exact mute_instruction _ _ _
    · exact mute_instruction _ _ _
    · refine relB_ask rfl fun _ => Prog.relB_bind (mute_push _ _) fun a b hab => ?_
      subst hab
      exact mute_instruction _ _ _

theorem mute_next (deb) (c : Cpu Q) : MuteP (executeNext deb c : Prog σ _) := by
  refine Prog.relB_bind (R := Eq) ?_ fun i j hij => ?_
  · unfold askIrq
    split
    · exact relB_ask rfl fun ts => Prog.relB_call fun a b (h : a = b) => h
    · rfl
  · subst hij
    split
    · exact mute_irq _ _
    · split
      · exact relB_ask rfl fun _ => ⟨rfl, rfl⟩
      · refine Prog.relB_bind ((by walk Z80.Deaf <;> rfl : Deaf (fetchOpcode : Ex σ Q _)) _)
          fun a b hab => ?_
        subst hab
        exact mute_instruction _ _ _

end
end Z80
