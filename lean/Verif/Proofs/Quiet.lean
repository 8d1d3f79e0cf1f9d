import Verif.Proofs.Rel
import Verif.Proofs.Runs

/-!
# Executing with and without a debugger
-/

namespace Z80
open Ex

variable {σ : Sig} {Q α β γ δ : Type}

/-- The calls of the debugger. -/
def Req.isDebug : Req σ → Bool
  | .debug _ => true
  | _ => false

/-- Leave out the calls of the debugger, which has no answer to give. -/
def Prog.erase : Prog σ α → Prog σ α
  | .ret a => .ret a
  | .call (.debug _) k => (k ()).erase
  | .call r k => .call r fun a => (k a).erase

/-- Number of calls of the debugger. -/
def debugs (t : List (Ev σ)) : Nat := t.countP fun e => e.req.isDebug

namespace Prog

theorem erase_call {r : Req σ} (h : r.isDebug = false) (k : r.Ans → Prog σ α) :
    (Prog.call r k).erase = .call r fun a => (k a).erase := by
  cases r <;> first | rfl | exact absurd h.symm Bool.false_ne_true

theorem erase_bind (p : Prog σ α) (f : α → Prog σ β) :
    (p.bind f).erase = p.erase.bind fun a => (f a).erase := by
  induction p with
  | ret a => rfl
  | call r k ih =>
    cases hr : r.isDebug with
    | true =>
      cases r <;> first | exact absurd hr Bool.false_ne_true | exact ih ()
    | false =>
      rw [erase_call hr]
      show (Prog.call r fun x => (k x).bind f).erase = _
      rw [erase_call hr]
      exact congrArg _ (funext ih)

end Prog

/-- The state without a debugger. -/
def St.quiet (s : St Q) : St Q := { s with deb := false }

/-- Code that behaves the same without a debugger. -/
def Unseen (x : Ex σ Q α) : Prop := ∀ s,
  Prog.Rel (fun a b => a.1 = b.1 ∧ a.2.quiet = b.2) (x s).erase (x s.quiet)

namespace Unseen

theorem bind {x : Ex σ Q α} {f : α → Ex σ Q β} (hx : Unseen x) (hf : ∀ a, Unseen (f a)) :
    Unseen (x >>= f) := by
  intro s
  show Prog.Rel _ (Prog.erase ((x s).bind fun p => f p.1 p.2)) _
  rw [Prog.erase_bind]
  refine Prog.rel_bind (hx s) fun a b hab => ?_
  obtain ⟨b1, b2⟩ := b
  obtain ⟨rfl, rfl⟩ := hab
  exact hf a.1 _

theorem pure {a : β} : Unseen (pure a : Ex σ Q β) := fun _ => ⟨rfl, rfl⟩
theorem getC : Unseen (Ex.getC : Ex σ Q _) := fun _ => ⟨rfl, rfl⟩
theorem getF : Unseen (Ex.getF : Ex σ Q _) := fun _ => ⟨rfl, rfl⟩
theorem getPc : Unseen (Ex.getPc : Ex σ Q _) := fun _ => ⟨rfl, rfl⟩
theorem setF (v) : Unseen (Ex.setF v : Ex σ Q _) := fun _ => ⟨rfl, rfl⟩
theorem setPc (v) : Unseen (Ex.setPc v : Ex σ Q _) := fun _ => ⟨rfl, rfl⟩
theorem setPfx (v) : Unseen (Ex.setPfx v : Ex σ Q _) := fun _ => ⟨rfl, rfl⟩
theorem modC (f) : Unseen (Ex.modC f : Ex σ Q _) := fun _ => ⟨rfl, rfl⟩
theorem call {r : Req σ} (h : r.isDebug = false) : Unseen (Ex.call r : Ex σ Q _) := by
  intro s
  show Prog.Rel _ (Prog.erase (.call r _)) _
  rw [Prog.erase_call h]
  exact Prog.rel_call fun _ => ⟨rfl, rfl⟩
theorem when {c : Bool} {x : Ex σ Q Unit} (h : Unseen x) : Unseen (Ex.when c x) := by
  cases c
  · exact fun _ => ⟨rfl, rfl⟩
  · exact h
theorem ifElse {c : Bool} {x y : Ex σ Q α} (h : Unseen x) (h' : Unseen y) :
    Unseen (Ex.ifElse c x y) := by
  cases c
  · exact h'
  · exact h
theorem dbg (l n a) : Unseen (Z80.dbg l n a : Ex σ Q _) := by
  intro s
  unfold Z80.dbg
  cases s.deb <;> exact ⟨rfl, rfl⟩
theorem addWaitOpt (a n) : Unseen (Z80.addWaitOpt a n : Ex σ Q _) := by
  cases n
  · exact fun _ => ⟨rfl, rfl⟩
  · exact call rfl

variable [Flavour Q]

theorem instrE (m : ME) (c0 c1) : Unseen (Z80.instrE m c0 c1 : Ex σ Q _) := by
  cases m <;> walk Z80.Unseen <;> rfl
theorem instr0 (m : M0) (c) : Unseen (Z80.instr0 m c : Ex σ Q _) := by
  cases m <;> walk Z80.Unseen <;> rfl
theorem instrI (m : MI) (p c) : Unseen (Z80.instrI m p c : Ex σ Q _) := by
  cases m <;> walk Z80.Unseen <;> rfl

theorem executeCode (c) : Unseen (Z80.executeCode c : Ex σ Q _) := by
  refine bind (modC _) fun _ => ?_
  intro s
  show Prog.Rel _ (Prog.erase ((match s.pfx with
    | none => executePlain c
    | some p => executeIndexed p c : Ex σ Q _) s)) ((match s.pfx with
    | none => executePlain c
    | some p => executeIndexed p c : Ex σ Q _) s.quiet)
  refine (?_ : Unseen _) s
  walk Z80.Unseen

end Unseen

theorem erase_ask {r : Req σ} (h : r.isDebug = false) (f : r.Ans → Prog σ α) :
    ((ask r).bind f).erase = (ask r).bind fun a => (f a).erase :=
  Prog.erase_call h _

section
variable [Flavour Q]

theorem erase_instruction (code : U8) (c : Cpu Q) :
    (executeInstruction true code c : Prog σ _).erase = executeInstruction false code c := by
  show Prog.erase (Prog.bind _ _) = _
  rw [Prog.erase_bind]
  refine Prog.rel_map (Unseen.executeCode code _) fun a b hab => ?_
  obtain ⟨b1, b2⟩ := b
  obtain ⟨rfl, rfl⟩ := hab
  rfl

theorem erase_irq (c : Cpu Q) :
    (irqNoCheck true c : Prog σ _).erase = irqNoCheck false c := by
  unfold irqNoCheck
  simp only []
  generalize c.disableInterrupts.incR.wake = c1
  refine (erase_ask rfl _).trans (congrArg _ (funext fun ts => ?_))
  refine (erase_ask rfl _).trans (congrArg _ (funext fun v => ?_))
  show Prog.erase (Prog.bind _ _) = Prog.bind _ _
  rw [Prog.erase_bind]
  have hw : (askWait c1.pc v.2 : Prog σ Unit).erase = askWait c1.pc v.2 := by
    cases v.2 <;> rfl
  rw [hw]
  refine congrArg _ (funext fun _ => ?_)
  cases c1.im with
  | mode0 => exact erase_instruction _ _
  | mode1 => exact erase_instruction _ _
  | mode2 =>
    show Prog.call _ _ = Prog.call _ _
    refine congrArg _ (funext fun _ => congrArg (Prog.call _) (funext fun _ =>
      congrArg (Prog.call _) (funext fun _ => congrArg (Prog.call _) (funext fun _ =>
      congrArg (Prog.call _) (funext fun _ => erase_instruction _ _)))))

theorem erase_next (c : Cpu Q) :
    (executeNext true c : Prog σ _).erase = executeNext false c := by
  show Prog.erase (Prog.bind _ _) = Prog.bind _ _
  rw [Prog.erase_bind]
  have hi : ∀ b, (askIrq b : Prog σ Bool).erase = askIrq b := by
    intro b; cases b <;> rfl
  rw [hi]
  refine congrArg _ (funext fun i => ?_)
  cases i with
  | true => exact erase_irq c
  | false =>
    cases hh : c.halt with
    | true => rfl
    | false =>
      show Prog.call _ _ = Prog.call _ _
      exact congrArg _ (funext fun _ => congrArg (Prog.call _) (funext fun _ =>
        erase_instruction _ _))

end

/-! ## The number of calls of the debugger -/

theorem debugs_append (t u : List (Ev σ)) : debugs (t ++ u) = debugs t + debugs u :=
  List.countP_append

/-- The debugger is not called. -/
def Silent (x : Ex σ Q α) : Prop := ∀ s, (x s).wp fun t _ => debugs t = 0

/-- The debugger is called at most once. -/
def Once (x : Ex σ Q α) : Prop := ∀ s, (x s).wp fun t _ => debugs t ≤ 1

theorem debugs_one {r : Req σ} (h : r.isDebug = false) (a : r.Ans) :
    debugs [(⟨r, a⟩ : Ev σ)] = 0 := by
  rw [debugs, List.countP_cons_of_neg (by rw [h]; exact Bool.false_ne_true)]
  rfl

namespace Silent

theorem bind {x : Ex σ Q α} {f : α → Ex σ Q β} (hx : Silent x) (hf : ∀ a, Silent (f a)) :
    Silent (x >>= f) := by
  intro s
  refine (Prog.wp_bind _ _ _).2 (Prog.wp_mono ?_ (hx s))
  intro t r h
  refine Prog.wp_mono ?_ (hf r.1 r.2)
  intro u r' h'
  rw [debugs_append, h, h']

theorem pure {a : β} : Silent (pure a : Ex σ Q β) := fun _ => rfl
theorem getS : Silent (Ex.getS : Ex σ Q _) := fun _ => rfl
theorem getC : Silent (Ex.getC : Ex σ Q _) := fun _ => rfl
theorem getF : Silent (Ex.getF : Ex σ Q _) := fun _ => rfl
theorem getPc : Silent (Ex.getPc : Ex σ Q _) := fun _ => rfl
theorem setF (v) : Silent (Ex.setF v : Ex σ Q _) := fun _ => rfl
theorem setPc (v) : Silent (Ex.setPc v : Ex σ Q _) := fun _ => rfl
theorem setPfx (v) : Silent (Ex.setPfx v : Ex σ Q _) := fun _ => rfl
theorem modC (f) : Silent (Ex.modC f : Ex σ Q _) := fun _ => rfl
theorem call {r : Req σ} (h : r.isDebug = false) : Silent (Ex.call r : Ex σ Q _) :=
  fun _ a => debugs_one h a
theorem when {c : Bool} {x : Ex σ Q Unit} (h : Silent x) : Silent (Ex.when c x) := by
  cases c
  · exact fun _ => rfl
  · exact h
theorem ifElse {c : Bool} {x y : Ex σ Q α} (h : Silent x) (h' : Silent y) :
    Silent (Ex.ifElse c x y) := by
  cases c
  · exact h'
  · exact h
theorem addWaitOpt (a n) : Silent (Z80.addWaitOpt a n : Ex σ Q _) := by
  cases n
  · exact fun _ => rfl
  · exact call rfl

end Silent

namespace Once

theorem bind {x : Ex σ Q α} {f : α → Ex σ Q β} (hx : Silent x) (hf : ∀ a, Once (f a)) :
    Once (x >>= f) := by
  intro s
  refine (Prog.wp_bind _ _ _).2 (Prog.wp_mono ?_ (hx s))
  intro t r h
  refine Prog.wp_mono ?_ (hf r.1 r.2)
  intro u r' h'
  rw [debugs_append, h]
  omega

theorem then_silent {x : Ex σ Q α} {f : α → Ex σ Q β} (hx : Once x) (hf : ∀ a, Silent (f a)) :
    Once (x >>= f) := by
  intro s
  refine (Prog.wp_bind _ _ _).2 (Prog.wp_mono ?_ (hx s))
  intro t r h
  refine Prog.wp_mono ?_ (hf r.1 r.2)
  intro u r' h'
  rw [debugs_append, h']
  exact h

theorem pure {a : β} : Once (pure a : Ex σ Q β) := fun _ => Nat.zero_le 1

theorem dbg (l n a) : Once (Z80.dbg l n a : Ex σ Q _) := by
  intro s
  unfold Z80.dbg
  cases s.deb
  · exact Nat.zero_le 1
  · exact fun _ => Nat.le_refl 1

theorem bind_dbg {l n a} {f : Unit → Ex σ Q β} (hf : ∀ a, Silent (f a)) :
    Once (Z80.dbg l n a >>= f) := then_silent (dbg l n a) hf

theorem bind_ifElse {c : Bool} {x y : Ex σ Q α} {f : α → Ex σ Q β} (hx : Once x) (hy : Once y)
    (hf : ∀ a, Silent (f a)) : Once (Ex.ifElse c x y >>= f) := by
  refine then_silent ?_ hf
  cases c
  · exact hy
  · exact hx

theorem silent {x : Ex σ Q α} (h : Silent x) : Once x := fun s =>
  Prog.wp_mono (fun t _ h => by rw [h]; exact Nat.zero_le 1) (h s)

theorem modC (f) : Once (Ex.modC f : Ex σ Q _) := silent (Silent.modC f)
theorem setPc (f) : Once (Ex.setPc f : Ex σ Q _) := silent (Silent.setPc f)
theorem call {r : Req σ} (h : r.isDebug = false) : Once (Ex.call r : Ex σ Q _) :=
  silent (Silent.call h)

variable [Flavour Q]

theorem bind_takeRel {c n a} {f : Unit → Ex σ Q β} (hf : ∀ a, Silent (f a)) :
    Once (Z80.takeRel c n a >>= f) := by
  refine then_silent ?_ hf
  walk Z80.Once <;> (walk Z80.Silent <;> rfl)

theorem instrE (m : ME) (c0 c1) : Once (Z80.instrE m c0 c1 : Ex σ Q _) := by
  cases m <;> walk Z80.Once <;> (walk Z80.Silent <;> rfl)
theorem instr0 (m : M0) (c) : Once (Z80.instr0 m c : Ex σ Q _) := by
  cases m <;> walk Z80.Once <;> (walk Z80.Silent <;> rfl)
theorem instrI (m : MI) (p c) : Once (Z80.instrI m p c : Ex σ Q _) := by
  cases m <;> walk Z80.Once <;> (walk Z80.Silent <;> rfl)

theorem bind_instrI (m : MI) (p c) {f : Exit σ → Ex σ Q β} (hf : ∀ a, Silent (f a)) :
    Once (Z80.instrI m p c >>= f) := then_silent (instrI m p c) hf

theorem executeCode (c) : Once (Z80.executeCode c : Ex σ Q _) := by
  walk Z80.Once <;> (walk Z80.Silent <;> rfl)

end Once

section
variable [Flavour Q]

theorem once_instruction (deb code) (c : Cpu Q) :
    (executeInstruction deb code c : Prog σ _).wp fun t _ => debugs t ≤ 1 := by
  refine (Prog.wp_bind _ _ _).2 (Prog.wp_mono ?_ (Once.executeCode code _))
  intro t r h
  show debugs (t ++ []) ≤ 1
  rwa [List.append_nil]

omit [Flavour Q] in
theorem once_ask {r : Req σ} (h : r.isDebug = false) {f : r.Ans → Prog σ α}
    (hf : ∀ a, (f a).wp fun t _ => debugs t ≤ 1) :
    ((ask r).bind f).wp fun t _ => debugs t ≤ 1 := by
  intro a
  refine Prog.wp_mono ?_ (hf a)
  intro t x ht
  show debugs ([⟨r, a⟩] ++ t) ≤ 1
  rw [debugs_append, debugs_one h]
  omega

theorem once_irq (deb) (c : Cpu Q) :
    (irqNoCheck deb c : Prog σ _).wp fun t _ => debugs t ≤ 1 := by
  unfold irqNoCheck
  simp only []
  generalize c.disableInterrupts.incR.wake = c1
  refine once_ask rfl fun ts => once_ask rfl fun v => ?_
  have rest : ∀ u, (match c1.im with
      | .mode0 => executeInstruction deb v.1 c1
      | .mode1 => executeInstruction deb 0xFF#8 c1
      | .mode2 => (do
        ask (.addNoMreq c1.getIr X1)
        let c' ← pushCpu c1.pc c1
        executeInstruction deb 0xC3#8
          (c'.setPc ((c1.getIr &&& 0xFF00#16) ||| v.1.setWidth 16)) : Prog σ (Res σ × Cpu Q))).wp
        fun t _ => debugs (u ++ t) ≤ debugs u + 1 := by
    intro u
    have key : ∀ p : Prog σ (Res σ × Cpu Q), (p.wp fun t _ => debugs t ≤ 1) →
        p.wp fun t _ => debugs (u ++ t) ≤ debugs u + 1 := fun p h =>
      Prog.wp_mono (fun t _ h => by rw [debugs_append]; omega) h
    refine key _ ?_
    cases c1.im with
    | mode0 => exact once_instruction _ _ _
    | mode1 => exact once_instruction _ _ _
    | mode2 =>
      refine once_ask rfl fun _ => ?_
      exact once_ask (r := .addMreq _) rfl fun _ => once_ask (r := .writeMem _ _ _) rfl fun _ =>
        once_ask (r := .addMreq _) rfl fun _ => once_ask (r := .writeMem _ _ _) rfl fun _ =>
          once_instruction _ _ _
  cases hv : v.2 with
  | none => exact Prog.wp_mono (fun t _ h => h) (rest [])
  | some w => exact fun a => Prog.wp_mono (fun t _ h => h) (rest [⟨.addWait _ w, a⟩])

theorem once_next (deb) (c : Cpu Q) :
    (executeNext deb c : Prog σ _).wp fun t _ => debugs t ≤ 1 := by
  have rest : ((if c.halt then (haltStep c).bind fun c => pure (.ok, c) else fetchExecute deb c :
        Prog σ (Res σ × Cpu Q))).wp fun t _ => debugs t ≤ 1 := by
    cases c.halt with
    | true => exact fun ts => Nat.zero_le 1
    | false =>
      intro ts code
      exact Prog.wp_mono (fun t _ h => h) (once_instruction deb code _)
  unfold executeNext askIrq
  cases c.isIrqAllowed with
  | false => exact rest
  | true =>
    refine once_ask (r := .asTimestamp) rfl fun ts => ?_
    refine once_ask (r := .isIrq ts) rfl fun (i : Bool) => ?_
    cases i with
    | true => exact once_irq _ _
    | false => exact rest

end

/-- The calls of a run other than those of the debugger. -/
def undebugged (t : List (Ev σ)) : List (Ev σ) := t.filter fun e => !e.req.isDebug

theorem Prog.erase_runs {p : Prog σ α} {t : List (Ev σ)} {a : α} :
    p.erase.Runs t a ↔ ∃ u, p.Runs u a ∧ t = undebugged u := by
  induction p generalizing t with
  | ret x =>
    constructor
    · intro h
      obtain ⟨rfl, rfl⟩ := runs_ret h
      exact ⟨[], .ret _, rfl⟩
    · rintro ⟨u, h, rfl⟩
      obtain ⟨rfl, rfl⟩ := runs_ret h
      exact .ret _
  | call r k ih =>
    cases hr : r.isDebug with
    | true =>
      obtain ⟨d, rfl⟩ : ∃ d, r = .debug d := by
        cases r <;> first | exact absurd hr Bool.false_ne_true | exact ⟨_, rfl⟩
      refine (ih ()).trans ⟨?_, ?_⟩
      · rintro ⟨u, h, rfl⟩
        exact ⟨⟨.debug d, ()⟩ :: u, .call _ _ _ _ _ h, rfl⟩
      · rintro ⟨u, h, rfl⟩
        obtain ⟨x, v, rfl, h'⟩ := runs_call h
        exact ⟨v, h', rfl⟩
    | false =>
      rw [erase_call hr]
      constructor
      · intro h
        obtain ⟨x, v, rfl, h'⟩ := runs_call h
        obtain ⟨u, h1, rfl⟩ := (ih x).1 h'
        refine ⟨⟨r, x⟩ :: u, .call _ _ _ _ _ h1, ?_⟩
        rw [undebugged, undebugged, List.filter_cons_of_pos (by rw [hr]; rfl)]
      · rintro ⟨u, h, rfl⟩
        obtain ⟨x, v, rfl, h'⟩ := runs_call h
        rw [undebugged, List.filter_cons_of_pos (by rw [hr]; rfl)]
        exact .call r (fun a => (k a).erase) x _ _ ((ih x).2 ⟨v, h', rfl⟩)

end Z80
