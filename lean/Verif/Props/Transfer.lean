import Verif.Props.Executed
import Verif.Props.Stack

/-!
# C18-C20, C25 on any host

Stack, call, return and jump instructions and accepted maskable interrupts: the data accesses in order
with their addresses and data, and everything the getters show afterwards.
-/

set_option linter.constructorNameAsVariable false

namespace Z80
open Spec

variable {Q : Type} [FlavourSpec Q] {σ : Sig}

/-- Register pair of PUSH and POP, where `p` stands for HL. -/
def Obs.stackPair (o : Obs) : Spec.SP → U16
  | .bc => word o.b o.c
  | .de => word o.d o.e
  | .hl => o.ptr
  | .af => word o.a o.f

/-- Register pair of PUSH and POP set. -/
def Obs.setStackPair (o : Obs) (v : U16) : Spec.SP → Obs
  | .bc => { o with b := hi8 v, c := lo8 v }
  | .de => { o with d := hi8 v, e := lo8 v }
  | .hl => o.setPtr v
  | .af => { o with a := hi8 v, f := lo8 v }

/-- The accesses that push `v`: high byte first. -/
def Obs.pushes (o : Obs) (v : U16) : List Access :=
  [.write (o.sp - 1) (hi8 v), .write (o.sp - 2) (lo8 v)]

/-- C18: `PUSH` on any host. -/
theorem C18_executed_push (p : Spec.SP) {deb : Bool} {c c' : Cpu Q} {t : List (Ev σ)} {e : Res σ}
    (h : (executeInstruction deb (pushOp p) c).Runs t (e, c')) :
    e = .ok ∧ traffic t = c.obs.pushes (c.obs.stackPair p) ∧
      c'.obs = ({ c.obs with sp := c.obs.sp - 2 } : Obs).done := by
  rw [obs_shown c]
  refine executed_ok (P := fun _ l s => l = _ ∧ s = _) ?_ h
  generalize abs c = r
  obtain ⟨⟩ := r
  rename_i idx _
  cases p <;> cases idx <;> exact And.intro rfl ⟨rfl, rfl⟩

/-- C18: `POP` on any host. -/
theorem C18_executed_pop (p : Spec.SP) {deb : Bool} {c c' : Cpu Q} {t : List (Ev σ)} {e : Res σ}
    (h : (executeInstruction deb (popOp p) c).Runs t (e, c')) :
    e = .ok ∧ ∃ v, traffic t = [.read16 c.obs.sp v] ∧
      c'.obs = (({ c.obs with sp := c.obs.sp + 2 } : Obs).setStackPair v p).done := by
  rw [obs_shown c]
  refine executed_ok (P := fun _ l s => ∃ v, l = [.read16 (abs c).shown.sp v] ∧
    s = (({ (abs c).shown with sp := (abs c).shown.sp + 2 } : Obs).setStackPair v p).done) ?_ h
  generalize abs c = r
  obtain ⟨⟩ := r
  rename_i idx _
  have hb (v : U8) : (Fl.of v).byte = v := byte_of v
  cases p <;> cases idx <;> refine fun v => ⟨rfl, v, rfl, ?_⟩ <;> first
    | rfl
    | exact congrArg (fun x => Obs.done { (Regs.shown _) with sp := _, a := hi8 v, f := x }) (hb (lo8 v))

/-- C19: `CALL nn`, and `CALL cc,nn` if the condition holds, push the address after the instruction
(PC is past the opcode byte) and go to `nn`; otherwise PC moves past the operand. -/
theorem C19_executed_call {deb : Bool} {c c' : Cpu Q} {t : List (Ev σ)} {e : Res σ} :
    ((executeInstruction deb 0xCD#8 c).Runs t (e, c') → e = .ok ∧ ∃ nn,
      traffic t = .read16 c.getPc nn :: c.obs.pushes (c.getPc + 2) ∧
      c'.obs = ({ c.obs with sp := c.obs.sp - 2, pc := nn, memptr := nn } : Obs).done) ∧
    ∀ k, (executeInstruction deb (callOp k) c).Runs t (e, c') → e = .ok ∧ ∃ nn,
      if condOf k c.getFlags then
        traffic t = .read16 c.getPc nn :: c.obs.pushes (c.getPc + 2) ∧
        c'.obs = ({ c.obs with sp := c.obs.sp - 2, pc := nn, memptr := nn } : Obs).done
      else traffic t = [.read16 c.getPc nn] ∧
        c'.obs = ({ c.obs with pc := c.getPc + 2, memptr := nn } : Obs).done := by
  rw [obs_shown c]
  refine ⟨fun h => ?_, fun k h => ?_⟩
  · refine executed_ok (P := fun _ l s => ∃ nn, l = .read16 (abs c).pc nn :: (abs c).shown.pushes ((abs c).pc + 2) ∧
      s = ({ (abs c).shown with sp := (abs c).shown.sp - 2, pc := nn, memptr := nn } : Obs).done) ?_ h
    exact fun v => ⟨rfl, v, rfl, rfl⟩
  · rw [← holds_cond]
    refine executed_ok (P := fun _ l s => ∃ nn, if (abs c).holds k then
        l = .read16 (abs c).pc nn :: (abs c).shown.pushes ((abs c).pc + 2) ∧
        s = ({ (abs c).shown with sp := (abs c).shown.sp - 2, pc := nn, memptr := nn } : Obs).done
      else l = [.read16 (abs c).pc nn] ∧
        s = ({ (abs c).shown with pc := (abs c).pc + 2, memptr := nn } : Obs).done) ?_ h
    generalize abs c = r
    have hd : decode (callOp k) = .callCc k := by cases k <;> decide
    have hc : ∀ r : Regs, ({ r with ei := false, halted := false } : Regs).holds k = r.holds k := by
      intro r
      cases k <;> rfl
    unfold opCycles
    rw [hd]
    refine fun v => ?_
    dsimp only
    rw [hc]
    cases r.holds k
    · exact And.intro rfl ⟨v, rfl, rfl⟩
    · exact And.intro rfl ⟨v, rfl, rfl⟩

/-- C19: `RST` pushes the address after it and goes to the address in its opcode. -/
theorem C19_executed_rst (y : Fin 8) {deb : Bool} {c c' : Cpu Q} {t : List (Ev σ)} {e : Res σ}
    (h : (executeInstruction deb (BitVec.ofNat 8 (0xC7 + 8 * y.1)) c).Runs t (e, c')) :
    e = .ok ∧ traffic t = c.obs.pushes c.getPc ∧
      c'.obs = ({ c.obs with
        sp := c.obs.sp - 2, pc := BitVec.ofNat 16 (8 * y.1), memptr := BitVec.ofNat 16 (8 * y.1) } : Obs).done := by
  have hd : ∀ y : Fin 8, decode (BitVec.ofNat 8 (0xC7 + 8 * y.1)) = .rst y.1 := by decide
  rw [obs_shown c, show c.getPc = (abs c).pc from rfl]
  refine executed_ok (P := fun _ l s => l = _ ∧ s = _) ?_ h
  unfold opCycles
  rw [hd]
  exact And.intro rfl ⟨rfl, rfl⟩

/-- C19: `RET`, and `RET cc` if the condition holds, go to the word at SP; otherwise nothing happens. -/
theorem C19_executed_ret {deb : Bool} {c c' : Cpu Q} {t : List (Ev σ)} {e : Res σ} :
    ((executeInstruction deb 0xC9#8 c).Runs t (e, c') → e = .ok ∧ ∃ v, traffic t = [.read16 c.obs.sp v] ∧
      c'.obs = ({ c.obs with sp := c.obs.sp + 2, pc := v, memptr := v } : Obs).done) ∧
    ∀ k, (executeInstruction deb (retOp k) c).Runs t (e, c') → e = .ok ∧
      if condOf k c.getFlags then ∃ v, traffic t = [.read16 c.obs.sp v] ∧
        c'.obs = ({ c.obs with sp := c.obs.sp + 2, pc := v, memptr := v } : Obs).done
      else traffic t = [] ∧ c'.obs = c.obs.done := by
  rw [obs_shown c]
  refine ⟨fun h => ?_, fun k h => ?_⟩
  · refine executed_ok (P := fun _ l s => ∃ v, l = [.read16 (abs c).sp v] ∧
      s = ({ (abs c).shown with sp := (abs c).sp + 2, pc := v, memptr := v } : Obs).done) ?_ h
    exact fun v => ⟨rfl, v, rfl, rfl⟩
  · rw [← holds_cond]
    refine executed_ok (P := fun _ l s => if (abs c).holds k then ∃ v, l = [.read16 (abs c).sp v] ∧
        s = ({ (abs c).shown with sp := (abs c).sp + 2, pc := v, memptr := v } : Obs).done
      else l = [] ∧ s = (abs c).shown.done) ?_ h
    generalize abs c = r
    have hd : decode (retOp k) = .retCc k := by cases k <;> decide
    have hc : ∀ r : Regs, ({ r with ei := false, halted := false } : Regs).holds k = r.holds k := by
      intro r
      cases k <;> rfl
    unfold opCycles
    rw [hd]
    dsimp only [cycles0]
    rw [hc]
    cases r.holds k
    · exact And.intro rfl ⟨rfl, rfl⟩
    · exact fun v => ⟨rfl, v, rfl, rfl⟩

/-- The control transfer of a jump: PC, and MEMPTR. -/
def Obs.at (o : Obs) (pc memptr : U16) : Obs := ({ o with pc := pc, memptr := memptr } : Obs).done

/-- C20: `JP nn` and `JP cc,nn`. -/
theorem C20_executed_jp {deb : Bool} {c c' : Cpu Q} {t : List (Ev σ)} {e : Res σ} :
    ((executeInstruction deb 0xC3#8 c).Runs t (e, c') → e = .ok ∧ ∃ nn,
      traffic t = [.read16 c.getPc nn] ∧ c'.obs = c.obs.at nn nn) ∧
    (∀ k, (executeInstruction deb (jpOp k) c).Runs t (e, c') → e = .ok ∧ ∃ nn,
      traffic t = [.read16 c.getPc nn] ∧
      c'.obs = c.obs.at (if condOf k c.getFlags then nn else c.getPc + 2) nn) ∧
    ((executeInstruction deb 0xE9#8 c).Runs t (e, c') → e = .ok ∧
      traffic t = [] ∧ c'.obs = c.obs.at c.obs.ptr c.obs.memptr) := by
  rw [obs_shown c]
  refine ⟨fun h => ?_, fun k h => ?_, fun h => ?_⟩
  · refine executed_ok (P := fun _ l s => ∃ nn, l = [.read16 (abs c).pc nn] ∧
      s = (abs c).shown.at nn nn) ?_ h
    exact fun v => ⟨rfl, v, rfl, rfl⟩
  · rw [← holds_cond]
    refine executed_ok (P := fun _ l s => ∃ nn, l = [.read16 (abs c).pc nn] ∧
      s = (abs c).shown.at (if (abs c).holds k then nn else (abs c).pc + 2) nn) ?_ h
    generalize abs c = r
    have hd : decode (jpOp k) = .jpCc k := by cases k <;> decide
    have hc : ∀ r : Regs, ({ r with ei := false, halted := false } : Regs).holds k = r.holds k := by
      intro r
      cases k <;> rfl
    unfold opCycles
    rw [hd]
    refine fun v => ?_
    dsimp only
    rw [hc]
    cases r.holds k
    · exact And.intro rfl ⟨v, rfl, rfl⟩
    · exact And.intro rfl ⟨v, rfl, rfl⟩
  · refine executed_ok (P := fun _ l s => l = [] ∧ s = _) ?_ h
    generalize abs c = r
    obtain ⟨⟩ := r
    rename_i idx _
    cases idx <;> exact And.intro rfl ⟨rfl, rfl⟩

/-- C20: `JR e`, `JR cc,e` and `DJNZ e`. The displacement of a branch that is not taken is not
read as data. -/
theorem C20_executed_jr {deb : Bool} {c c' : Cpu Q} {t : List (Ev σ)} {e : Res σ} :
    ((executeInstruction deb 0x18#8 c).Runs t (e, c') → e = .ok ∧ ∃ d, traffic t = [.read c.getPc d] ∧
      c'.obs = c.obs.at (c.getPc + 1 + disp d) (c.getPc + 1 + disp d)) ∧
    (∀ k, ccNum k < 4 → (executeInstruction deb (jrOp k) c).Runs t (e, c') → e = .ok ∧
      if condOf k c.getFlags then ∃ d, traffic t = [.read c.getPc d] ∧
        c'.obs = c.obs.at (c.getPc + 1 + disp d) (c.getPc + 1 + disp d)
      else traffic t = [] ∧ c'.obs = c.obs.at (c.getPc + 1) c.obs.memptr) ∧
    ((executeInstruction deb 0x10#8 c).Runs t (e, c') → e = .ok ∧
      let o : Obs := { c.obs with b := c.obs.b - 1 }
      if o.b ≠ 0 then ∃ d, traffic t = [.read c.getPc d] ∧
        c'.obs = o.at (c.getPc + 1 + disp d) (c.getPc + 1 + disp d)
      else traffic t = [] ∧ c'.obs = o.at (c.getPc + 1) o.memptr) := by
  rw [obs_shown c]
  refine ⟨fun h => ?_, fun k hk h => ?_, fun h => ?_⟩
  · refine executed_ok (P := fun _ l s => ∃ d, l = [.read (abs c).pc d] ∧
      s = (abs c).shown.at ((abs c).pc + 1 + disp d) ((abs c).pc + 1 + disp d)) ?_ h
    exact fun v => ⟨rfl, v, rfl, rfl⟩
  · rw [← holds_cond]
    refine executed_ok (P := fun _ l s => if (abs c).holds k then ∃ d, l = [.read (abs c).pc d] ∧
        s = (abs c).shown.at ((abs c).pc + 1 + disp d) ((abs c).pc + 1 + disp d)
      else l = [] ∧ s = (abs c).shown.at ((abs c).pc + 1) (abs c).shown.memptr) ?_ h
    generalize abs c = r
    have hd : decode (jrOp k) = .jrCc k := by
      revert hk
      cases k <;> decide
    have hc : ∀ r : Regs, ({ r with ei := false, halted := false } : Regs).holds k = r.holds k := by
      intro r
      cases k <;> rfl
    unfold opCycles
    rw [hd]
    dsimp only [cycles0]
    rw [hc]
    cases r.holds k
    · exact And.intro rfl ⟨rfl, rfl⟩
    · exact fun v => ⟨rfl, v, rfl, rfl⟩
  · refine executed_ok (P := fun _ l s =>
      let o : Obs := { (abs c).shown with b := (abs c).b - 1 }
      if (abs c).b - 1 ≠ 0 then ∃ d, l = [.read (abs c).pc d] ∧
        s = o.at ((abs c).pc + 1 + disp d) ((abs c).pc + 1 + disp d)
      else l = [] ∧ s = o.at ((abs c).pc + 1) o.memptr) ?_ h
    generalize abs c = r
    show (Tree.Ends (endCycles _ (.idle _ 1 (if r.b - 1 ≠ 0 then _ else _))) _)
    by_cases hb : r.b - 1 ≠ 0
    · rw [if_pos hb]
      refine fun v => And.intro rfl ?_
      dsimp only
      rw [if_pos hb]
      exact ⟨v, rfl, rfl⟩
    · rw [if_neg hb]
      refine And.intro rfl ?_
      dsimp only
      rw [if_neg hb]
      exact ⟨rfl, rfl⟩

/-! ### Accepted interrupts -/

/-- The address execution continues at: after a HALT the instruction that follows it. -/
def Obs.resumeAt (o : Obs) : U16 := if o.halt then o.pc + 1 else o.pc

/-- Accepted maskable interrupt: the flip-flops are reset, R moved on, the halted state left. -/
def Obs.acknowledged (o : Obs) : Obs :=
  { o with iffs := (false, false), r := Spec.refresh o.r 1, halt := false, pc := o.resumeAt }

theorem shown_acknowledged (r : Regs) (he : r.ei = false) :
    (wake ({ r with iff1 := false, iff2 := false, ei := false } : Regs).bumpR).shown = r.shown.acknowledged := by
  rw [bumpR_refresh]
  obtain ⟨⟩ := r
  rename_i ha ei _ _
  cases ha
  · cases he
    rfl
  · cases he
    rfl

/-- C25 on any host: an accepted maskable interrupt in mode 1 pushes the address to continue at
and goes to 0x0038; in mode 2 it then reads the address to go to at the address made of I and
the byte from the acknowledge. -/
theorem C25_executed {deb : Bool} {c c' : Cpu Q} {t : List (Ev σ)} {e : Option (Res σ)}
    (ha : c.getIffs.1 = true ∧ c.getPrefix = none ∧ c.isAfterEi = false)
    (h : (irq deb c).Runs t (e, c')) :
    (c.getIm = .mode1 → e = some .ok ∧ traffic t = c.obs.pushes c.obs.resumeAt ∧
      c'.obs = { c.obs.acknowledged with sp := c.obs.sp - 2, pc := 0x38#16, memptr := 0x38#16 }) ∧
    (c.getIm = .mode2 → e = some .ok ∧ ∃ v a, Spec.ackOf t = [v] ∧
      traffic t = c.obs.pushes c.obs.resumeAt ++ [.read16 (word c.obs.i v) a] ∧
      c'.obs = { c.obs.acknowledged with sp := c.obs.sp - 2, pc := a, memptr := a }) := by
  have hq : irqOk (abs c) = true := by
    rw [← irqAllowed_eq]
    unfold Cpu.isIrqAllowed isIntAllowed
    rw [show c.iff1 = true from ha.1, show c.pfx = none from ha.2.1, show c.lastEi = false from ha.2.2]
    rfl
  unfold irq at h
  rw [irqAllowed_eq, hq] at h
  obtain ⟨u, v, a, rfl, h1, h2⟩ := Prog.runs_bind.1 h
  obtain ⟨rfl, hr⟩ := Prog.runs_ret h2
  cases hr
  obtain ⟨l, x, h3, h4, h5, h6⟩ := drives_path (drive_interrupt deb c (irq_pre hq).1 (irq_pre hq).2) h1
  rw [List.append_nil, ← access_filter, ← ack_filter, performs_access h4, performs_acks h4, obs_shown a.2, h5,
    obs_shown c]
  have hw := shown_acknowledged (abs c) ha.2.2
  have hp : (wake ({ abs c with iff1 := false, iff2 := false, ei := false } : Regs).bumpR).shown.pfx = none := by
    rw [hw, ← obs_shown]
    exact ha.2.1
  have him : (wake ({ abs c with iff1 := false, iff2 := false, ei := false } : Regs).bumpR).im = imOf c.getIm := by
    unfold wake
    split <;> rfl
  unfold irqCycles at h3
  dsimp only at h3
  rw [him] at h3
  have hsp : (abs c).shown.pushes (abs c).shown.resumeAt =
      (abs c).shown.acknowledged.pushes (abs c).shown.acknowledged.pc := rfl
  have hi : (abs c).shown.i = (abs c).shown.acknowledged.i := rfl
  have hss : (abs c).shown.sp = (abs c).shown.acknowledged.sp := rfl
  rw [hsp, hi, hss, ← hw]
  revert h3
  generalize wake ({ abs c with iff1 := false, iff2 := false, ei := false } : Regs).bumpR = r at hp ⊢
  intro h3
  refine ⟨fun hm => ?_, fun hm => ?_⟩
  · rw [hm] at h3
    have hE := ends_path (P := fun l (x : Res' σ.O σ.R) => x.2.2 = .ok ∧
      l.filterMap Cyc.access? = r.shown.pushes r.pc ∧
      x.1.shown = { r.shown with pfx := none, sp := r.sp - 2, pc := 0x38#16, memptr := 0x38#16 }) (by
        exact fun v _ => And.intro rfl ⟨rfl, rfl⟩) h3
    refine ⟨congrArg some (outS_ok (h6.trans (congrArg some hE.1))), hE.2.1, hE.2.2.trans ?_⟩
    exact congrArg (fun p => ({ r.shown with pfx := p, sp := r.sp - 2, pc := 0x38#16, memptr := 0x38#16 } : Obs))
      hp.symm
  · rw [hm] at h3
    have hE := ends_path (P := fun l (x : Res' σ.O σ.R) => x.2.2 = .ok ∧ ∃ v a, Spec.acks l = [v] ∧
      l.filterMap Cyc.access? = r.shown.pushes r.pc ++ [.read16 (word r.i v) a] ∧
      x.1.shown = { r.shown with pfx := none, sp := r.sp - 2, pc := a, memptr := a }) (by
        exact fun v _ a => And.intro rfl ⟨v, a, rfl, rfl, rfl⟩) h3
    obtain ⟨hE, v, a', h7, h8, h9⟩ := hE
    refine ⟨congrArg some (outS_ok (h6.trans (congrArg some hE))), v, a', h7, h8, h9.trans ?_⟩
    exact congrArg (fun p => ({ r.shown with pfx := p, sp := r.sp - 2, pc := a', memptr := a' } : Obs)) hp.symm

/-- C25 on any host, mode 0: after the acknowledge, and the wait states the host asked for in it, the byte
from the acknowledge is executed as an instruction by a CPU with the flip-flops reset, R moved on, the
halted state left and PC at the address to continue at. -/
theorem C25_executed_mode0 {deb : Bool} {c c' : Cpu Q} {t : List (Ev σ)} {e : Option (Res σ)}
    (ha : c.getIffs.1 = true ∧ c.getPrefix = none ∧ c.isAfterEi = false) (hm : c.getIm = .mode0)
    (h : (irq deb c).Runs t (e, c')) :
    ∃ ts v w u x c1, e = some x ∧ c1.obs = c.obs.acknowledged ∧ c1.flavour = c.flavour ∧
      (executeInstruction deb v c1).Runs u (x, c') ∧
      t = ⟨.addIrq c.obs.resumeAt, ts⟩ :: ⟨.irqData c.obs.resumeAt ts, (v, w)⟩ ::
        (match w with
          | none => u
          | some n => ⟨.addWait c.obs.resumeAt n, ()⟩ :: u) := by
  have hq : c.isIrqAllowed = true := by
    unfold Cpu.isIrqAllowed isIntAllowed
    rw [show c.iff1 = true from ha.1, show c.pfx = none from ha.2.1, show c.lastEi = false from ha.2.2]
    rfl
  have hpc : c.disableInterrupts.incR.wake.pc = c.obs.resumeAt := by
    unfold Cpu.wake Obs.resumeAt
    show _ = if c.halt = true then c.pc + 1 else c.pc
    cases hh : c.halt
    · rw [if_neg (show ¬(c.disableInterrupts.incR.halt = true) by rw [show c.disableInterrupts.incR.halt = c.halt from rfl, hh]; decide)]
      rfl
    · rw [if_pos (show c.disableInterrupts.incR.halt = true from hh)]
      rfl
  have him : c.disableInterrupts.incR.wake.im = .mode0 := by
    unfold Cpu.wake
    split <;> exact hm
  have hfl : c.disableInterrupts.incR.wake.flavour = c.flavour := by
    unfold Cpu.wake
    split <;> rfl
  have hob : c.disableInterrupts.incR.wake.obs = c.obs.acknowledged := by
    rw [obs_shown, wake_regs c ha.2.2, shown_acknowledged _ ha.2.2, obs_shown c]
  unfold irq at h
  rw [hq] at h
  obtain ⟨u, v, a, rfl, h1, h2⟩ := Prog.runs_bind.1 h
  obtain ⟨rfl, hr⟩ := Prog.runs_ret h2
  cases hr
  rw [List.append_nil]
  unfold irqNoCheck at h1
  dsimp only at h1
  rw [him, hpc] at h1
  obtain ⟨ts, u1, rfl, h3⟩ := Prog.runs_call h1
  obtain ⟨⟨v, w⟩, u2, rfl, h4⟩ := Prog.runs_call h3
  obtain ⟨u6, u7, b, rfl, h8, h9⟩ := Prog.runs_bind.1 h4
  obtain ⟨rfl, rfl⟩ := Prog.runs_ret h8
  obtain ⟨u3, u4, b, rfl, h5, h6⟩ := Prog.runs_bind.1 h9
  refine ⟨ts, v, w, u4, a.1, _, rfl, hob, hfl, h6, ?_⟩
  cases w with
  | none =>
    obtain ⟨rfl, -⟩ := Prog.runs_ret h5
    rfl
  | some n =>
    obtain ⟨x, u5, rfl, h7⟩ := Prog.runs_call h5
    obtain ⟨rfl, -⟩ := Prog.runs_ret h7
    rfl

/-! ### Cases -/

/-- `CALL NC`, `RET Z`, `RST`, `PUSH IX`, `POP AF`, `JP`, `DJNZ` and the three interrupt modes: what is read and
written, and where execution continues. -/
example :
    let c : Cpu NMOS := { Cpu.new with sp := 1#16, bc := ⟨2, 0⟩, af := ⟨0, 0x40⟩, ix := ⟨0x12, 0x34⟩, pc := 1#16 }
    let go := fun (c : Cpu NMOS) op l =>
      let r := executeInstruction false op c
      let s := (0, program (0 :: l), ())
      (traffic (r.trace demo s), (r.run demo s).1.2.getPc, (r.run demo s).1.2.getSp)
    let d : Cpu NMOS := { c with halt := true, iff1 := true, ir := ⟨0, 0⟩, pc := 0x4000#16 }
    let int := fun k =>
      let r := irq false { d with im := k }
      let s := (0, program [0, 0, 0, 0, 0, 0x56, 0x12], ())
      let host := ramHost (demoIo true 0xC7 none none)
      (traffic (r.trace host s), (r.run host s).1.2.getPc, (r.run host s).1.2.getSp)
    go c 0xD4 [0x34, 0x12] = ([.read16 1 0x1234, .write 0 0, .write 0xFFFF 3], 0x1234, 0xFFFF) ∧
    go c 0xC8 [0x34, 0x12] = ([.read16 1 0x1234], 0x1234, 3) ∧ go c 0xC0 [] = ([], 1, 1) ∧
    go c 0xDF [] = ([.write 0 0, .write 0xFFFF 1], 0x18, 0xFFFF) ∧
    go { c with pfx := some .xdd } 0xE5 [] = ([.write 0 0x12, .write 0xFFFF 0x34], 1, 0xFFFF) ∧
    go c 0xF1 [0x55, 0xAA] = ([.read16 1 0xAA55], 1, 3) ∧
    go c 0xC3 [0x34, 0x12] = ([.read16 1 0x1234], 0x1234, 1) ∧
    go c 0x10 [0xFC] = ([.read 1 0xFC], 0xFFFE, 1) ∧
    int .mode0 = ([.write 0 0x40, .write 0xFFFF 1], 0, 0xFFFF) ∧
    int .mode1 = ([.write 0 0x40, .write 0xFFFF 1], 0x38, 0xFFFF) ∧
    int .mode2 = ([.write 0 0x40, .write 0xFFFF 1, .read16 0xC7 0], 0, 0xFFFF) := by
  decide +kernel

end Z80
