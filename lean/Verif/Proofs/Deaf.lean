import Verif.Proofs.Quiet

/-!
# Without a debugger, the answers of `read_debug` are not looked at
-/

namespace Z80
open Ex

variable {σ : Sig} {Q α β : Type}

/-- What follows a call of `read_debug` does not depend on its answer. -/
def Prog.Deaf : Prog σ α → Prop
  | .ret _ => True
  | .call (.readDebug _) k => (∀ x y, k x = k y) ∧ ∀ x, (k x).Deaf
  | .call _ k => ∀ x, (k x).Deaf

namespace Prog

theorem deaf_call {r : Req σ} (hr : ∀ a, r ≠ .readDebug a) (k : r.Ans → Prog σ α)
    (h : ∀ x, (k x).Deaf) : (Prog.call r k).Deaf := by
  cases r <;> first | exact h | exact absurd rfl (hr _)

theorem deaf_bind {p : Prog σ α} {f : α → Prog σ β} (hp : p.Deaf) (hf : ∀ a, (f a).Deaf) :
    (p.bind f).Deaf := by
  induction p with
  | ret a => exact hf a
  | call r k ih =>
    cases r with
    | readDebug a => exact ⟨fun x y => congrArg (·.bind f) (hp.1 x y), fun x => ih x (hp.2 x)⟩
    | _ => exact fun x => ih x (hp x)

theorem deaf_bind_wp {p : Prog σ α} {f : α → Prog σ β} {P : α → Prop} (hp : p.Deaf)
    (hw : p.wp fun _ a => P a) (hf : ∀ a, P a → (f a).Deaf) : (p.bind f).Deaf := by
  induction p with
  | ret a => exact hf a hw
  | call r k ih =>
    cases r with
    | readDebug a =>
      exact ⟨fun x y => congrArg (·.bind f) (hp.1 x y), fun x => ih x (hp.2 x) (hw x)⟩
    | _ => exact fun x => ih x (hp x) (hw x)

/-- Two hosts that differ in the answers of `read_debug` only. -/
theorem deaf_run {S : Type} {H H' : Handler σ S} {p : Prog σ α} (hp : p.Deaf)
    (hr : ∀ r, (∀ a, r ≠ .readDebug a) → ∀ s, H r s = H' r s)
    (hd : ∀ a s, (H (.readDebug a) s).2 = (H' (.readDebug a) s).2) (s : S) :
    p.run H s = p.run H' s := by
  induction p generalizing s with
  | ret a => rfl
  | call r k ih =>
    show (k _).run H _ = (k _).run H' _
    cases r with
    | readDebug a =>
      rw [ih _ (hp.2 _), hd, hp.1 (H (.readDebug a) s).1 (H' (.readDebug a) s).1]
    | _ => rw [ih _ (hp _), hr _ (by intro a h; cases h)]

end Prog

/-- Code that, without a debugger, does not look at the answers of `read_debug`. -/
def Hard (x : Ex σ Q α) : Prop := ∀ s, s.deb = false →
  (x s).Deaf ∧ (x s).wp fun _ r => r.2.deb = false

namespace Hard

theorem bind {x : Ex σ Q α} {f : α → Ex σ Q β} (hx : Hard x) (hf : ∀ a, Hard (f a)) :
    Hard (x >>= f) := by
  intro s hs
  obtain ⟨h1, h2⟩ := hx s hs
  refine ⟨Prog.deaf_bind_wp h1 h2 fun a ha => (hf a.1 a.2 ha).1, ?_⟩
  refine (Prog.wp_bind _ _ _).2 (Prog.wp_mono ?_ h2)
  exact fun t a ha => (hf a.1 a.2 ha).2

theorem pure {a : β} : Hard (pure a : Ex σ Q β) := fun _ h => ⟨trivial, h⟩
theorem getC : Hard (Ex.getC : Ex σ Q _) := fun _ h => ⟨trivial, h⟩
theorem getF : Hard (Ex.getF : Ex σ Q _) := fun _ h => ⟨trivial, h⟩
theorem getPc : Hard (Ex.getPc : Ex σ Q _) := fun _ h => ⟨trivial, h⟩
theorem setF (v) : Hard (Ex.setF v : Ex σ Q _) := fun _ h => ⟨trivial, h⟩
theorem setPc (v) : Hard (Ex.setPc v : Ex σ Q _) := fun _ h => ⟨trivial, h⟩
theorem setPfx (v) : Hard (Ex.setPfx v : Ex σ Q _) := fun _ h => ⟨trivial, h⟩
theorem modC (f) : Hard (Ex.modC f : Ex σ Q _) := fun _ h => ⟨trivial, h⟩
theorem call {r : Req σ} (hr : ∀ a, r ≠ .readDebug a) : Hard (Ex.call r : Ex σ Q _) :=
  fun _ h => ⟨Prog.deaf_call hr _ fun _ => trivial, fun _ => h⟩
theorem when {c : Bool} {x : Ex σ Q Unit} (h : Hard x) : Hard (Ex.when c x) := by
  cases c
  · exact fun _ h => ⟨trivial, h⟩
  · exact h
theorem ifElse {c : Bool} {x y : Ex σ Q α} (h : Hard x) (h' : Hard y) :
    Hard (Ex.ifElse c x y) := by
  cases c
  · exact h'
  · exact h
theorem dbg (l n a) : Hard (Z80.dbg l n a : Ex σ Q _) := by
  intro s hs
  unfold Z80.dbg
  rw [hs]
  exact ⟨trivial, hs⟩
theorem addWaitOpt (a n) : Hard (Z80.addWaitOpt a n : Ex σ Q _) := by
  cases n
  · exact fun _ h => ⟨trivial, h⟩
  · exact call nofun

/-- The only place where `read_debug` is called. -/
theorem skipRel (c n a) : Hard (Z80.skipRel c n a : Ex σ Q _) := by
  intro s hs
  obtain ⟨cpu, flags, pc, pfx, deb⟩ := s
  cases hs
  exact ⟨fun _ => ⟨fun _ _ => rfl, fun _ => trivial⟩, fun _ _ => rfl⟩

variable [Flavour Q]

theorem instrE (m : ME) (c0 c1) : Hard (Z80.instrE m c0 c1 : Ex σ Q _) := by
  cases m <;> walk Z80.Hard <;> nofun
theorem instr0 (m : M0) (c) : Hard (Z80.instr0 m c : Ex σ Q _) := by
  cases m <;> walk Z80.Hard <;> nofun
theorem instrI (m : MI) (p c) : Hard (Z80.instrI m p c : Ex σ Q _) := by
  cases m <;> walk Z80.Hard <;> nofun

theorem executeCode (c) : Hard (Z80.executeCode c : Ex σ Q _) := by
  refine bind (modC _) fun _ => ?_
  intro s
  show s.deb = false → Prog.Deaf ((match s.pfx with
    | none => executePlain c
    | some p => executeIndexed p c : Ex σ Q _) s) ∧ _
  refine (?_ : Hard _) s
  walk Z80.Hard <;> nofun

end Hard

section
variable [Flavour Q]

theorem deaf_instruction (code : U8) (c : Cpu Q) :
    (executeInstruction false code c : Prog σ _).Deaf :=
  Prog.deaf_bind (Hard.executeCode code _ rfl).1 fun _ => trivial

theorem deaf_irqNoCheck (c : Cpu Q) : (irqNoCheck false c : Prog σ _).Deaf := by
  unfold irqNoCheck
  simp only []
  generalize c.disableInterrupts.incR.wake = c1
  refine fun ts v => Prog.deaf_bind (p := askWait c1.pc v.2) ?_ fun _ => ?_
  · cases v.2
    · trivial
    · exact fun _ => trivial
  · cases c1.im with
    | mode0 => exact deaf_instruction _ _
    | mode1 => exact deaf_instruction _ _
    | mode2 => exact fun _ _ _ _ _ => deaf_instruction _ _

theorem deaf_next (c : Cpu Q) : (executeNext false c : Prog σ _).Deaf := by
  refine Prog.deaf_bind ?_ fun i => ?_
  · cases c.isIrqAllowed
    · trivial
    · exact fun _ _ => trivial
  · cases i with
    | true => exact deaf_irqNoCheck c
    | false =>
      cases hh : c.halt with
      | true => exact fun _ => trivial
      | false => exact fun _ _ => deaf_instruction _ _

theorem deaf_irq (c : Cpu Q) : (irq false c : Prog σ _).Deaf := by
  unfold irq
  split
  · exact Prog.deaf_bind (deaf_irqNoCheck c) fun _ => trivial
  · trivial

theorem deaf_nmi (c : Cpu Q) : (nmi c : Prog σ _).Deaf := by
  unfold nmi
  split
  · refine Prog.deaf_bind ?_ fun _ => trivial
    exact fun _ _ _ _ _ _ => trivial
  · trivial

omit [Flavour Q] in
theorem deaf_askIrq (b : Bool) : (askIrq b : Prog σ _).Deaf := by
  cases b
  · trivial
  · exact fun _ _ => trivial

theorem deaf_limitLoop (n : Nat) (l : σ.L) (s : St Q) (hs : s.deb = false) :
    (limitLoop n l s).Deaf := by
  induction n generalizing s with
  | zero => trivial
  | succ n ih =>
    have hn : Hard (nextInstruction : Ex σ Q _) := by
      refine Hard.bind ?_ fun code => Hard.executeCode code
      walk Z80.Hard <;> nofun
    refine Prog.deaf_bind_wp (hn s hs).1 (hn s hs).2 fun r hr => ?_
    obtain ⟨e, s'⟩ := r
    cases e with
    | cont =>
      intro past
      cases past
      · refine Prog.deaf_bind (p := askIrq (isIntAllowed s'.pfx false && s'.cpu.iff1))
          (deaf_askIrq _) fun i => ?_
        cases i
        · exact ih _ hr
        · trivial
      · trivial
    | enableInt =>
      intro past
      cases past
      · exact ih _ hr
      · trivial
    | _ => trivial

theorem deaf_limitOuter (n : Nat) (l : σ.L) (k : Nat) (c : Cpu Q) : (limitOuter n l k c).Deaf := by
  induction k generalizing c with
  | zero => trivial
  | succ k ih =>
    refine Prog.deaf_bind (deaf_limitLoop n l _ rfl) fun r => ?_
    obtain _ | ⟨e, c'⟩ := r
    · trivial
    · cases e with
      | irq =>
        refine Prog.deaf_bind (deaf_irqNoCheck c') fun r => ?_
        obtain ⟨e, c''⟩ := r
        cases e with
        | ok =>
          intro past
          cases past
          · exact ih _
          · trivial
        | _ => trivial
      | _ => trivial

theorem deaf_limitStart (n : Nat) (l : σ.L) (c : Cpu Q) : (limitStart n l c).Deaf := by
  unfold limitStart
  split
  · exact deaf_limitOuter _ _ _ _
  · refine Prog.deaf_bind (deaf_askIrq _) fun i => ?_
    cases i
    · exact deaf_limitOuter _ _ _ _
    · refine Prog.deaf_bind (deaf_irqNoCheck c) fun r => ?_
      obtain ⟨e, c''⟩ := r
      cases e with
      | ok =>
        intro past
        cases past
        · exact deaf_limitOuter _ _ _ _
        · trivial
      | _ => trivial

theorem deaf_limit (n : Nat) (l : σ.L) (c : Cpu Q) : (executeWithLimit n l c).Deaf := by
  have hh : ∀ m (c : Cpu Q), (limitHalted n l m c).Deaf := by
    intro m
    induction m with
    | zero => exact fun _ => trivial
    | succ m ih =>
      intro c past
      cases past
      · refine Prog.deaf_bind (p := askIrq c.iff1) (deaf_askIrq _) fun i => ?_
        cases i
        · exact fun _ => ih _
        · exact deaf_limitStart _ _ _
      · trivial
  unfold executeWithLimit
  split
  · exact hh _ _
  · intro past
    cases past
    · exact deaf_limitStart _ _ _
    · trivial

end
end Z80
