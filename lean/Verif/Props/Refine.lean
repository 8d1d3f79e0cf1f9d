import Verif.Proofs.Step

/-!
# C44: refinement of the programmer-level specification

`Verif/Spec/Machine.lean` describes a Z80 with 64K of memory and devices. `ramHost io` is the
host of the crate made of a `TsCounter` clock of any width, 64K of memory and devices with any
behaviour. `abs` reads the registers and the control state of the CPU, as the getters of the
crate do.
-/

namespace Z80
open Spec
variable {Q : Type} [FlavourSpec Q] {w : Nat} {O R I : Type}

/-- C44: one `execute_next`, with or without a debugger, from any CPU state, memory, time and
device state, changes registers, flags, memory, devices and time, and reports, as specified. -/
theorem C44_execute_next (io : Handler (tsSig w O R) I) (deb : Bool) (c : Cpu Q) (t : BitVec w)
    (m : Mem) (i : I) :
    let r := (executeNext deb c).run (ramHost io) (t, m, i)
    let e := step (FlavourSpec.opt Q) (envOf io) ⟨abs c, m, i, t⟩
    ⟨abs r.1.2, r.2.2.1, r.2.2.2, r.2.1⟩ = e.1 ∧ outR r.1.1 = some e.2 := by
  have h := sim_step io deb c t m i
  exact ⟨congrArg Prod.fst h, congrArg Prod.snd h⟩

/-- C44: `execute_instruction` with any opcode byte. -/
theorem C44_execute_instruction (io : Handler (tsSig w O R) I) (deb : Bool) (code : U8) (c : Cpu Q)
    (t : BitVec w) (m : Mem) (i : I) :
    let r := (executeInstruction deb code c).run (ramHost io) (t, m, i)
    let e := execOp (FlavourSpec.opt Q) (envOf io) code ⟨abs c, m, i, t⟩
    ⟨abs r.1.2, r.2.2.1, r.2.2.2, r.2.1⟩ = e.1 ∧ outR r.1.1 = some e.2 := by
  have h := sim_instruction io deb code c t m i
  exact ⟨congrArg Prod.fst h, congrArg Prod.snd h⟩

/-- C44: `nmi`. -/
theorem C44_nmi (io : Handler (tsSig w O R) I) (c : Cpu Q) (t : BitVec w) (m : Mem) (i : I) :
    let r := (nmi c).run (ramHost io) (t, m, i)
    r.1.1 = nmiOk (abs c) ∧
    ⟨abs r.1.2, r.2.2.1, r.2.2.2, r.2.1⟩ =
      if nmiOk (abs c) then Spec.nmi ⟨abs c, m, i, t⟩ else ⟨abs c, m, i, t⟩ := by
  have hk : isIntAllowed c.pfx c.lastEi = nmiOk (abs c) := by
    simp only [isIntAllowed, nmiOk, abs, absS, Cpu.load]
    cases c.lastEi <;> rcases c.pfx with _ | _ | _ <;> rfl
  unfold Z80.nmi
  rw [hk]
  cases nmiOk (abs c) with
  | false => exact ⟨rfl, rfl⟩
  | true =>
    have h := run_nmi io c t m i
    have e : (nmiNoCheck c >>= fun c => pure (true, c) : Prog _ _).run (ramHost io) (t, m, i) =
      ((true, ((nmiNoCheck c).run (ramHost io) (t, m, i)).1),
        ((nmiNoCheck c).run (ramHost io) (t, m, i)).2) := Prog.run_bind _ _ _ _
    simp only [if_true]
    rw [e]
    exact ⟨rfl, h⟩

/-- C44: `irq`. -/
theorem C44_irq (io : Handler (tsSig w O R) I) (deb : Bool) (c : Cpu Q) (t : BitVec w) (m : Mem)
    (i : I) :
    let r := (irq deb c).run (ramHost io) (t, m, i)
    let e := interrupt (FlavourSpec.opt Q) (envOf io) ⟨abs c, m, i, t⟩
    (⟨abs r.1.2, r.2.2.1, r.2.2.2, r.2.1⟩, r.1.1.map outR) =
      if irqOk (abs c) then (e.1, some (some e.2)) else (⟨abs c, m, i, t⟩, none) := by
  have hk := irqAllowed_eq c
  cases hq : irqOk (abs c) with
  | false =>
    rw [hq] at hk
    unfold irq
    rw [hk]
    rfl
  | true =>
    rw [hq] at hk
    have hpl : c.pfx = none ∧ c.lastEi = false := by
      simp only [Cpu.isIrqAllowed, isIntAllowed, Bool.and_eq_true, Bool.not_eq_true',
        Option.isNone_iff_eq_none] at hk
      exact hk.2
    have h := sim_interrupt io deb c t m i hpl.1 hpl.2
    have e : (irqNoCheck deb c >>= fun r => pure (some r.1, r.2) : Prog _ _).run (ramHost io)
      (t, m, i) = ((some ((irqNoCheck deb c).run (ramHost io) (t, m, i)).1.1,
        ((irqNoCheck deb c).run (ramHost io) (t, m, i)).1.2),
        ((irqNoCheck deb c).run (ramHost io) (t, m, i)).2) := Prog.run_bind _ _ _ _
    unfold irq
    rw [hk]
    simp only [if_true]
    rw [e]
    have h1 := congrArg Prod.fst h
    have h2 := congrArg (fun x => some (Prod.snd x)) h
    exact Prod.ext h1 h2

/-- The methods by which a user drives the CPU one step at a time. -/
inductive Call
  | next (deb : Bool)
  | irq (deb : Bool)
  | nmi
deriving DecidableEq

/-- The methods called one after another. -/
def runCalls {σ : Sig} {S : Type} (H : Handler σ S) : List Call → Cpu Q → S → Cpu Q × S
  | [], c, h => (c, h)
  | .next d :: l, c, h =>
    let r := (executeNext d c).run H h
    runCalls H l r.1.2 r.2
  | .irq d :: l, c, h =>
    let r := (Z80.irq d c).run H h
    runCalls H l r.1.2 r.2
  | .nmi :: l, c, h =>
    let r := (Z80.nmi c).run H h
    runCalls H l r.1.2 r.2

/-- The specified machine driven in the same way. -/
def specCalls (o : Opt) (v : Env w O R I) : List Call → Mach w I → Mach w I
  | [], s => s
  | .next _ :: l, s => specCalls o v l (step o v s).1
  | .irq _ :: l, s => specCalls o v l (if irqOk s.r then (interrupt o v s).1 else s)
  | .nmi :: l, s => specCalls o v l (if nmiOk s.r then Spec.nmi s else s)

/-- C44: executions of any length. -/
theorem C44_history (io : Handler (tsSig w O R) I) (l : List Call) (c : Cpu Q) (t : BitVec w)
    (m : Mem) (i : I) :
    let r := runCalls (ramHost io) l c (t, m, i)
    ⟨abs r.1, r.2.2.1, r.2.2.2, r.2.1⟩ =
      specCalls (FlavourSpec.opt Q) (envOf io) l ⟨abs c, m, i, t⟩ := by
  induction l generalizing c t m i with
  | nil => rfl
  | cons a l ih =>
    cases a with
    | next d =>
      simp only [runCalls, specCalls]
      rw [← (C44_execute_next io d c t m i).1]
      exact ih _ _ _ _
    | irq d =>
      have h := congrArg Prod.fst (C44_irq io d c t m i)
      simp only [runCalls, specCalls]
      refine (ih _ _ _ _).trans (congrArg _ (h.trans ?_))
      cases irqOk (abs c) <;> rfl
    | nmi =>
      simp only [runCalls, specCalls]
      rw [← (C44_nmi io c t m i).2]
      exact ih _ _ _ _

/-! The three variants of the crate. -/

/-- NMOS: OUT (C),0 sends 0, interrupts disturb LD A,I. -/
theorem C44_nmos : FlavourSpec.opt NMOS = ⟨0x00, true, false⟩ := rfl
/-- CMOS. -/
theorem C44_cmos : FlavourSpec.opt CMOS = ⟨0xFF, false, false⟩ := rfl
/-- BM1. -/
theorem C44_bm1 : FlavourSpec.opt BM1 = ⟨0x00, false, true⟩ := rfl

/-- Every value of a programmer's view without pending prefix is met by a CPU state: the theorems
above are about all states of the specified machine. -/
theorem C44_abs_reaches (a f b c d e h l ixh ixl iyh iyl i r : U8) (sp pc wz : U16)
    (i1 i2 ht ei : Bool) : ∃ z : Cpu CMOS,
      (abs z).a = a ∧ (abs z).f = Fl.of f ∧ (abs z).b = b ∧ (abs z).c = c ∧ (abs z).d = d ∧
      (abs z).e = e ∧ (abs z).h = h ∧ (abs z).l = l ∧ (abs z).ixh = ixh ∧ (abs z).ixl = ixl ∧
      (abs z).iyh = iyh ∧ (abs z).iyl = iyl ∧ (abs z).i = i ∧ (abs z).r = r ∧ (abs z).sp = sp ∧
      (abs z).pc = pc ∧ (abs z).wz = wz ∧ (abs z).iff1 = i1 ∧ (abs z).iff2 = i2 ∧
      (abs z).halted = ht ∧ (abs z).ei = ei ∧ (abs z).idx = .hl := by
  refine ⟨{ af := ⟨a, f⟩, afAlt := ⟨0, 0⟩, bc := ⟨b, c⟩, de := ⟨d, e⟩, hl := ⟨h, l⟩,
            bcAlt := ⟨0, 0⟩, deAlt := ⟨0, 0⟩, hlAlt := ⟨0, 0⟩, ix := ⟨ixh, ixl⟩,
            iy := ⟨iyh, iyl⟩, pc := pc, sp := sp, memptr := wz, lastEi := ei, ir := ⟨i, r⟩,
            im := .mode0, iff1 := i1, iff2 := i2, halt := ht, pfx := none, r := r,
            flavour := ⟨⟩ }, ?_⟩
  refine ⟨rfl, rfl, rfl, rfl, rfl, rfl, rfl, rfl, rfl, rfl, rfl, rfl, rfl, ?_, rfl, rfl, rfl, rfl,
    rfl, rfl, rfl, rfl⟩
  exact rOf_self i r

end Z80
