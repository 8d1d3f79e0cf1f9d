import Verif.Proofs.Kit
import Verif.Proofs.Alu
import Verif.Proofs.Walk

/-!
# Invariants of instruction bodies for every host

`Pres φ ψ x`: whatever the host answers, the state before, the calls made and the state after
are related by `φ`, and the value satisfies `ψ`. `Inv φ` lists what `φ` must allow so that
all bodies that do not touch the control state (flip-flops, interrupt mode, halt, I, R) keep it.
-/

namespace Z80
open Ex

variable {σ : Sig} {Q α β : Type}

/-- The control state: what ordinary instructions leave alone. -/
structure Ctl where
  lastEi : Bool
  ir : RegPair
  im : IntMode
  iff1 : Bool
  iff2 : Bool
  halt : Bool
  pfx : Option Prefix
  r : U8

/-- Control state of a CPU. -/
def Cpu.ctl (c : Cpu Q) : Ctl := ⟨c.lastEi, c.ir, c.im, c.iff1, c.iff2, c.halt, c.pfx, c.r⟩

/-- Calls made by instruction bodies after the opcode is fetched. -/
def Req.isBody : Req σ → Bool
  | .isPastLimit _ | .addIrq _ | .addM1 _ | .irqData _ _ | .readOpcode _ _ _ => false
  | _ => true

/-- Whatever the host answers, `φ` holds between the states and `ψ` of the value. -/
def Pres (φ : St Q → List (Ev σ) → St Q → Prop) (ψ : α → Prop) (x : Ex σ Q α) : Prop :=
  ∀ s, (x s).wp fun t r => φ s t r.2 ∧ ψ r.1

/-- No condition on the value. -/
abbrev tt : α → Prop := fun _ => True

/-- Relations kept by bodies that do not touch the control state. -/
structure Inv (φ : St Q → List (Ev σ) → St Q → Prop) : Prop where
  refl : ∀ s, φ s [] s
  trans : ∀ {a t b u c}, φ a t b → φ b u c → φ a (t ++ u) c
  call : ∀ s (r : Req σ) (a : r.Ans), r.isBody = true → φ s [⟨r, a⟩] s
  pc : ∀ s v, φ s [] { s with pc := v }
  flags : ∀ s v, φ s [] { s with flags := v }
  regs : ∀ s c, c.ctl = s.cpu.ctl → φ s [] { s with cpu := c }

theorem wp_and {p : Prog σ α} {P P' : List (Ev σ) → α → Prop} (h : p.wp P) (h' : p.wp P') :
    p.wp fun t a => P t a ∧ P' t a := by
  induction p generalizing P P' with
  | ret a => exact ⟨h, h'⟩
  | call r k ih => exact fun x => ih x (h x) (h' x)

namespace Pres
variable {φ : St Q → List (Ev σ) → St Q → Prop} (hI : Inv φ)
include hI

theorem bind {ψ : β → Prop} {x : Ex σ Q α} {f : α → Ex σ Q β} (hx : Pres φ tt x)
    (hf : ∀ a, Pres φ ψ (f a)) : Pres φ ψ (x >>= f) := by
  intro s
  refine (Prog.wp_bind _ _ _).2 (Prog.wp_mono ?_ (hx s))
  intro t r h
  exact Prog.wp_mono (fun u r' h' => ⟨hI.trans h.1 h'.1, h'.2⟩) (hf r.1 r.2)

theorem pure {ψ : α → Prop} {a : α} (h : ψ a) : Pres φ ψ (pure a : Ex σ Q α) :=
  fun s => ⟨hI.refl s, h⟩
theorem getS : Pres φ tt (Ex.getS : Ex σ Q _) := fun s => ⟨hI.refl s, trivial⟩
theorem getC : Pres φ tt (Ex.getC : Ex σ Q _) := fun s => ⟨hI.refl s, trivial⟩
theorem getF : Pres φ tt (Ex.getF : Ex σ Q _) := fun s => ⟨hI.refl s, trivial⟩
theorem getPc : Pres φ tt (Ex.getPc : Ex σ Q _) := fun s => ⟨hI.refl s, trivial⟩
theorem setF (v) : Pres φ tt (Ex.setF v : Ex σ Q _) := fun s => ⟨hI.flags s v, trivial⟩
theorem setPc (v) : Pres φ tt (Ex.setPc v : Ex σ Q _) := fun s => ⟨hI.pc s v, trivial⟩
theorem modC {f : Cpu Q → Cpu Q} (h : ∀ c, (f c).ctl = c.ctl) :
    Pres φ tt (Ex.modC f : Ex σ Q _) := fun s => ⟨hI.regs s _ (h s.cpu), trivial⟩
theorem call {r : Req σ} (h : r.isBody = true) : Pres φ tt (Ex.call r : Ex σ Q _) :=
  fun s a => ⟨hI.call s r a h, trivial⟩
theorem when {c : Bool} {x : Ex σ Q Unit} (h : Pres φ tt x) : Pres φ tt (Ex.when c x) := by
  cases c
  · exact fun s => ⟨hI.refl s, trivial⟩
  · exact h
omit hI in
theorem ifElse {ψ : α → Prop} {c : Bool} {x y : Ex σ Q α} (h : Pres φ ψ x) (h' : Pres φ ψ y) :
    Pres φ ψ (Ex.ifElse c x y) := by
  cases c
  · exact h'
  · exact h

theorem addMreq (a) : Pres φ tt (Z80.addMreq a : Ex σ Q _) := call hI rfl
theorem addNoMreq (a n) : Pres φ tt (Z80.addNoMreq a n : Ex σ Q _) := call hI rfl
theorem addIo (a) : Pres φ tt (Z80.addIo a : Ex σ Q _) := call hI rfl
theorem asTimestamp : Pres φ tt (Z80.asTimestamp : Ex σ Q _) := call hI rfl
theorem readMem (a ts) : Pres φ tt (Z80.readMem a ts : Ex σ Q _) := call hI rfl
theorem readMem16 (a ts) : Pres φ tt (Z80.readMem16 a ts : Ex σ Q _) := call hI rfl
theorem writeMem (a v ts) : Pres φ tt (Z80.writeMem a v ts : Ex σ Q _) := call hI rfl
theorem readDebug (a) : Pres φ tt (Z80.readDebug a : Ex σ Q _) := call hI rfl
theorem readIo (a ts) : Pres φ tt (Z80.readIo a ts : Ex σ Q _) := call hI rfl
theorem writeIo (a v ts) : Pres φ tt (Z80.writeIo a v ts : Ex σ Q _) := call hI rfl
theorem isIrq (ts) : Pres φ tt (Z80.isIrq ts : Ex σ Q _) := call hI rfl
theorem retiCall (p ts) : Pres φ tt (Z80.retiCall p ts : Ex σ Q _) := call hI rfl
theorem addWaitOpt (a n) : Pres φ tt (Z80.addWaitOpt a n : Ex σ Q _) := by
  cases n
  · exact fun s => ⟨hI.refl s, trivial⟩
  · exact call hI rfl
theorem dbg (l n a) : Pres φ tt (Z80.dbg l n a : Ex σ Q _) := by
  intro s
  unfold Z80.dbg
  cases s.deb
  · exact ⟨hI.refl s, trivial⟩
  · exact call hI (r := .debug _) rfl s

end Pres

theorem ctl_ext {a b : Ctl} (h1 : a.lastEi = b.lastEi) (h2 : a.ir = b.ir) (h3 : a.im = b.im)
    (h4 : a.iff1 = b.iff1) (h5 : a.iff2 = b.iff2) (h6 : a.halt = b.halt) (h7 : a.pfx = b.pfx)
    (h8 : a.r = b.r) : a = b := by
  cases a; cases b; simp_all

theorem setReg_ctl (c : Cpu Q) (r p v) : (c.setReg r p v).ctl = c.ctl := by
  cases r <;> first | rfl | (rcases p with _ | _ | _ <;> rfl)
theorem setReg16_ctl (c : Cpu Q) (r v) : (c.setReg16' r v).ctl = c.ctl := by
  cases r <;> rfl
theorem setIndex_ctl (c : Cpu Q) (p v) : (c.setIndexRef p v).ctl = c.ctl := by
  cases p <;> rfl
theorem setIndex16_ctl (c : Cpu Q) (p v) : (c.setIndex16 p v).ctl = c.ctl := by
  cases p <;> rfl
/-- The exit reason of an ordinary body: no undefined behaviour, not EI, not HALT. -/
def Exit.ordinary : Exit σ → Bool
  | .ub | .enableInt | .halt => false
  | _ => true

/-- The loop exit reason is an ordinary one. -/
abbrev noUb : Exit σ → Prop := fun e => e.ordinary = true

theorem breakIo_ne (o : Option σ.O) : (breakIo (σ := σ) o).ordinary = true := by
  cases o <;> rfl
theorem breakReti_ne (o : Option σ.R) : (breakReti (σ := σ) o).ordinary = true := by
  cases o <;> rfl
theorem cont_ne : (Exit.cont : Exit σ).ordinary = true := rfl

/-- Side conditions left by `walk`. -/
macro "side" : tactic => `(tactic| first
  | with_reducible exact trivial
  | with_reducible exact setReg_ctl _ _ _ _
  | with_reducible exact setReg16_ctl _ _ _
  | with_reducible exact setIndex_ctl _ _ _
  | with_reducible exact setIndex16_ctl _ _ _
  | ((with_reducible apply ctl_ext) <;> rfl)
  | with_reducible exact cont_ne
  | with_reducible exact breakIo_ne _
  | with_reducible exact breakReti_ne _)

section helpers
variable [Flavour Q] {φ : St Q → List (Ev σ) → St Q → Prop} (hI : Inv φ)
include hI

theorem Pres.instrDaa (l) : Pres φ noUb (instrDaa l : Ex σ Q _) := by
  unfold Z80.instrDaa
  refine Pres.bind hI (Pres.dbg hI _ _ _) fun _ => Pres.bind hI (Pres.getC hI) fun c =>
    Pres.bind hI (Pres.getF hI) fun f => ?_
  rw [daa_eq]
  walk Z80.Pres
  all_goals side

theorem Pres.blockTransfer (d r) : Pres φ tt (blockTransfer d r : Ex σ Q _) := by
  unfold Z80.blockTransfer
  walk Z80.Pres <;> side
theorem Pres.blockSearch (d r) : Pres φ tt (blockSearch d r : Ex σ Q _) := by
  unfold Z80.blockSearch
  walk Z80.Pres <;> side
theorem Pres.blockIn (d r) : Pres φ tt (blockIn d r : Ex σ Q _) := by
  unfold Z80.blockIn
  walk Z80.Pres <;> side
theorem Pres.blockOut (d r) : Pres φ tt (blockOut d r : Ex σ Q _) := by
  unfold Z80.blockOut
  walk Z80.Pres <;> side

/-- Bodies after an ED prefix that leave the control state alone. -/
def ME.isPlain : ME → Bool
  | .im0 | .im1 | .im2 | .ldIA | .ldRA | .retn => false
  | _ => true

theorem pres_instrE (m : ME) (hm : m.isPlain = true) (c0 c1) :
    Pres φ noUb (instrE m c0 c1 : Ex σ Q _) := by
  cases m <;> first
    | exact absurd hm Bool.false_ne_true
    | (walk Z80.Pres <;> side)

/-- Unprefixed bodies that leave the control state alone and fetch no further opcode. -/
def M0.isPlain : M0 → Bool
  | .ldRR | .cb | .dd | .fd | .ed | .di | .ei => false
  | _ => true

theorem pres_instr0 (m : M0) (hm : m.isPlain = true) (c) :
    Pres φ noUb (instr0 m c : Ex σ Q _) := by
  cases m <;> first
    | exact absurd hm Bool.false_ne_true
    | (walk Z80.Pres <;> side)

omit hI in
/-- Which operands occur in the prefixed table: no arm declared unreachable is reached. -/
def goodI (code : U8) : Bool :=
  let hlq (r : Reg8) : Bool := r = .H ∨ r = .L
  match decodeI code with
  | some .ldQQ => match Reg8.fromB53 code, Reg8.fromB20 code with
    | some d, some s => hlq d || hlq s
    | none, none => false
    | _, _ => true
  | some .ldQN => match Reg8.fromB53 code with
    | some d => hlq d
    | none => false
  | some .opsQ => match Reg8.fromB20 code with
    | some d => hlq d
    | none => true
  | some .incQ | some .decQ => match Reg8.fromB53 code with
    | some d => hlq d
    | none => true
  | some _ => true
  | none => false
omit hI in
theorem goodI_all (code : U8) : goodI code = true :=
  all8_spec (p := goodI) (by decide +kernel) code

/-- The table after a DD or FD prefix, as far as it is handled by `instrI`. -/
theorem pres_instrI (m : MI) (p code) (h : decodeI code = some m)
    (hm : m ≠ .plain ∧ m ≠ .dd ∧ m ≠ .fd) : Pres φ noUb (instrI m p code : Ex σ Q _) := by
  have hg := goodI_all code
  unfold goodI at hg
  rw [h] at hg
  cases m
  case plain => exact absurd rfl hm.1
  case dd => exact absurd rfl hm.2.1
  case fd => exact absurd rfl hm.2.2
  case ldQQ =>
    rw [instrI]
    rcases h1 : Reg8.fromB53 code with _ | d <;> rcases h2 : Reg8.fromB20 code with _ | e <;>
      simp only [h1, h2] at hg ⊢
    · exact absurd hg Bool.false_ne_true
    · walk Z80.Pres <;> side
    · walk Z80.Pres <;> side
    · rw [if_pos (by simpa [or_assoc] using hg)]
      walk Z80.Pres <;> side
  case ldQN =>
    rw [instrI]
    rcases h1 : Reg8.fromB53 code with _ | d <;> simp only [h1] at hg ⊢
    · exact absurd hg Bool.false_ne_true
    · rw [if_pos (by simpa using hg)]
      walk Z80.Pres <;> side
  case opsQ =>
    rw [instrI]
    rcases h1 : Reg8.fromB20 code with _ | d <;> simp only [h1] at hg ⊢
    · walk Z80.Pres <;> side
    · rw [if_pos (by simpa using hg)]
      walk Z80.Pres <;> side
  case incQ =>
    rw [instrI, instrIncDecQ]
    rcases h1 : Reg8.fromB53 code with _ | d <;> simp only [h1] at hg ⊢
    · walk Z80.Pres <;> side
    · rw [if_pos (by simpa using hg)]
      walk Z80.Pres <;> side
  case decQ =>
    rw [instrI, instrIncDecQ]
    rcases h1 : Reg8.fromB53 code with _ | d <;> simp only [h1] at hg ⊢
    · walk Z80.Pres <;> side
    · rw [if_pos (by simpa using hg)]
      walk Z80.Pres <;> side
  all_goals (clear hg; walk Z80.Pres <;> side)
end helpers
end Z80
