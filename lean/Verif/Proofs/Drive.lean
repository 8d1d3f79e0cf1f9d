import Verif.Proofs.DriveX
import Verif.Proofs.Step

/-! # Bus cycles of a whole instruction and of a step -/

set_option linter.constructorNameAsVariable false

namespace Z80
open Spec
variable {Q : Type} [FlavourSpec Q] {σ : Sig} {O R : Type}

theorem drive0_all (code : U8) (k : I0) (h : agree0 code k)
    (hk : notPrefix k) : Drive0 (Q := Q) σ code k := by
  cases k with
  | cb | dd | ed | fd => exact absurd hk Bool.false_ne_true
  | nop => exact drive0_nop code h
  | exAf => exact drive0_exAf code h
  | djnz => exact drive0_djnz code h
  | jr => exact drive0_jr code h
  | jrCc c => exact drive0_jrCc code c h
  | ldRpNn p => exact drive0_ldRpNn code p h
  | addHl p => exact drive0_addHl code p h
  | ldRpA p => exact drive0_ldRpA code p h
  | ldARp p => exact drive0_ldARp code p h
  | ldNnHl => exact drive0_ldNnHl code h
  | ldHlNn => exact drive0_ldHlNn code h
  | ldNnA => exact drive0_ldNnA code h
  | ldANn => exact drive0_ldANn code h
  | incRp p => exact drive0_incRp code p h
  | decRp p => exact drive0_decRp code p h
  | incR r => exact drive0_incR code r h
  | decR r => exact drive0_decR code r h
  | ldRN r => exact drive0_ldRN code r h
  | accRot k => exact drive0_accRot code k h
  | daa => exact drive0_daa code h
  | cpl => exact drive0_cpl code h
  | scf => exact drive0_scf code h
  | ccf => exact drive0_ccf code h
  | halt => exact drive0_halt code h
  | ldRR d r => exact drive0_ldRR code d r h
  | aluR k r => exact drive0_aluR code k r h
  | aluN k => exact drive0_aluN code k h
  | retCc c => exact drive0_retCc code c h
  | pop p => exact drive0_pop code p h
  | ret => exact drive0_ret code h
  | exx => exact drive0_exx code h
  | jpHl => exact drive0_jpHl code h
  | ldSpHl => exact drive0_ldSpHl code h
  | jpCc c => exact drive0_jpCc code c h
  | jp => exact drive0_jp code h
  | outNA => exact drive0_outNA code h
  | inAN => exact drive0_inAN code h
  | exSpHl => exact drive0_exSpHl code h
  | exDeHl => exact drive0_exDeHl code h
  | di => exact drive0_di code h
  | ei => exact drive0_ei code h
  | callCc c => exact drive0_callCc code c h
  | push p => exact drive0_push code p h
  | call => exact drive0_call code h
  | rst y => exact drive0_rst code y h

theorem driveE_all (c0 code : U8) (k : IEd) (h : agreeE code k) :
    DriveE (Q := Q) σ c0 code k := by
  cases k with
  | nop => exact driveE_nop c0 code h
  | inC r => exact driveE_inC c0 code r h
  | outC r => exact driveE_outC c0 code r h
  | sbcHl p => exact driveE_sbcHl c0 code p h
  | adcHl p => exact driveE_adcHl c0 code p h
  | ldNnRp p => exact driveE_ldNnRp c0 code p h
  | ldRpNn p => exact driveE_ldRpNn c0 code p h
  | neg => exact driveE_neg c0 code h
  | retn => exact driveE_retn c0 code h
  | reti => exact driveE_reti c0 code h
  | im n => exact driveE_im c0 code n h
  | ldIA => exact driveE_ldIA c0 code h
  | ldRA => exact driveE_ldRA c0 code h
  | ldAI => exact driveE_ldAI c0 code h
  | ldAR => exact driveE_ldAR c0 code h
  | rrd => exact driveE_rrd c0 code h
  | rld => exact driveE_rld c0 code h
  | blk b d r =>
    cases b with
    | ld => exact driveE_blk_ld c0 code d r h
    | cp => exact driveE_blk_cp c0 code d r h
    | inp => exact driveE_blk_in c0 code d r h
    | out => exact driveE_blk_out c0 code d r h


theorem drive_ed (code : U8) (h : decode0 code = some .ed) (s : St Q) (x : Ix)
    (hp : s.pfx = none) :
    Drives (σ := σ) (executePlain code) s.begin
      ((fun r : Regs => .m1 r.bumpR.pc r.bumpR.ir fun c =>
        endCycles (fEd (decodeEd c)) (edCycles (FlavourSpec.opt Q) (decodeEd c) (r.bumpR.skip 1)))
       { absS FlavourSpec.cur s with idx := x }) := by
  simp only [executePlain, instr0, run_simps, prog_simps, code_simps, St.begin, h]
  refine congrArg (Prog.addM1 _) (funext fun ts => ?_)
  simp only [absS, spec_simps, norm_simps, hp]
  refine congrArg (Prog.readOpcode _ _ _) (funext fun v => ?_)
  have h1 := driveE_all (Q := Q) (σ := σ) code v _ (agreeE_all v)
    { s with cpu := s.cpu.incR, pc := s.pc + 1#16 } x hp
  simp only [Drives, St.begin, code_simps] at h1
  simp only [absS, spec_simps, norm_simps, code_simps, hp] at h1
  exact h1

theorem cycles0_plain (o : Opt) (x : Ix) (k : I0) (hu : usesHl k = false) (r : Regs) :
    cycles0 (O := O) (R := R) o x k r = cycles0 o .hl k r := by
  cases k with
  | ldRpNn p | incRp p | decRp p | pop p | push p => cases p <;> first | rfl | cases hu
  | incR r | decR r | ldRN r | aluR _ r => cases r <;> first | rfl | cases hu
  | ldRR d r => cases d <;> cases r <;> first | rfl | cases hu
  | _ => first | rfl | cases hu

theorem driveX_all (code : U8) (k : I0) (h : agree0 code k)
    (hx : agreeI code k) (hk : notPrefix k) : DriveX (Q := Q) σ code k := by
  cases hu : usesHl k with
  | false =>
    intro p s x hp
    rw [cycles0_plain _ _ _ hu]
    rw [agreeI, hu, decide_eq_true_eq] at hx
    have := drive0_all (Q := Q) (σ := σ) code k h hk { s with pfx := none } x rfl
    rw [executeIndexed_plain p (by simpa using hx)]
    exact this
  | true =>
    cases k with
    | cb | dd | ed | fd => exact absurd hk Bool.false_ne_true
    | ldRpNn p => exact driveX_ldRpNn code p h hx hu
    | addHl p => exact driveX_addHl code p h hx hu
    | ldNnHl => exact driveX_ldNnHl code h hx hu
    | ldHlNn => exact driveX_ldHlNn code h hx hu
    | incRp p => exact driveX_incRp code p h hx hu
    | decRp p => exact driveX_decRp code p h hx hu
    | incR r => exact driveX_incR code r h hx hu
    | decR r => exact driveX_decR code r h hx hu
    | ldRN r => exact driveX_ldRN code r h hx hu
    | ldRR d r => exact driveX_ldRR code d r h hx hu
    | aluR k r => exact driveX_aluR code k r h hx hu
    | pop p => exact driveX_pop code p h hx hu
    | jpHl => exact driveX_jpHl code h hx hu
    | ldSpHl => exact driveX_ldSpHl code h hx hu
    | exSpHl => exact driveX_exSpHl code h hx hu
    | push p => exact driveX_push code p h hx hu
    | _ => exact absurd hu Bool.false_ne_true


theorem upd_eif' {r : Regs} (he : r.ei = false) (hh : r.halted = false) :
    ({ r with ei := false, halted := false } : Regs) = r := by
  cases r; simp only at he hh; subst he hh; rfl

theorem opCycles_other {o : Opt} {op : U8} {r : Regs} {k : I0}
    (hd : decode op = k) (hk : notPrefix k) (he : r.ei = false) (hh : r.halted = false) :
    opCycles (O := O) (R := R) o op r = endCycles (f0 k) (cycles0 o r.idx k r) := by
  unfold opCycles
  rw [upd_eif' he hh]
  simp only [hd]
  cases k <;> first | exact absurd hk Bool.false_ne_true | rfl
theorem opCycles_ed {o : Opt} {op : U8} {r : Regs}
    (hd : decode op = .ed) (he : r.ei = false) (hh : r.halted = false) :
    opCycles (O := O) (R := R) o op r = ((fun r : Regs => .m1 r.bumpR.pc r.bumpR.ir fun c =>
        endCycles (fEd (decodeEd c)) (edCycles o (decodeEd c) (r.bumpR.skip 1))) r) := by
  unfold opCycles
  rw [upd_eif' he hh]
  simp only [hd]
theorem opCycles_cb {o : Opt} {op : U8} {r : Regs}
    (hd : decode op = .cb) (hi : r.idx = .hl) (he : r.ei = false) (hh : r.halted = false) :
    opCycles (O := O) (R := R) o op r = ((fun r : Regs => .m1 r.bumpR.pc r.bumpR.ir fun c =>
        endCycles (fCb (decodeCb c)) (cbCycles (decodeCb c) (r.bumpR.skip 1))) r) := by
  unfold opCycles
  rw [upd_eif' he hh]
  simp only [hd, hi]
theorem opCycles_xcb {o : Opt} {op : U8} {r : Regs} {x : Ix}
    (hd : decode op = .cb) (hi : r.idx = x) (hx : x ≠ .hl) (he : r.ei = false)
    (hh : r.halted = false) :
    opCycles (O := O) (R := R) o op r =
      ((fun r : Regs => .rd r.pc fun d => .rd (r.pc + 1#16) fun c => .idle (r.pc + 1#16) 2
        (endCycles (fCb (decodeCb c)) (xcbCycles (decodeCb c) (r.xhl x + disp d)
          { r.skip 2 with wz := r.xhl x + disp d }))) r) := by
  unfold opCycles
  rw [upd_eif' he hh]
  simp only [hd, hi]
  rfl

/-- `execute_instruction!` does what is specified. -/
theorem drive_code (code : U8) (s : St Q)
    (he : s.cpu.lastEi = false) (hh : s.cpu.halt = false) :
    Drives (σ := σ) (executeCode code) s
      (opCycles (FlavourSpec.opt Q) code (absS FlavourSpec.cur s)) := by
  have h := agree0_all code
  have hx := agreeI_all code
  have hb : ∀ f : St Q → Ex σ Q (Exit σ),
    progE (Ex.modC (fun c => { c with flavour := Flavour.beginInstruction c.flavour })
     >>= fun _ => Ex.getS >>= f) s = progE (f s.begin) s.begin := fun _ => rfl
  unfold executeCode
  simp only [Drives, hb]
  cases hk : notPrefix (decode code) with
  | true =>
    rw [opCycles_other rfl hk he hh]
    cases hp : s.pfx with
    | none =>
      have := drive0_all (Q := Q) (σ := σ) code _ h hk s (ixOf s.pfx) hp
      simp only [absS, ixOf, hp] at this ⊢
      simp only [show s.begin.pfx = none from hp]
      exact this
    | some p =>
      have := driveX_all (Q := Q) (σ := σ) code _ h hx hk p s (ixOf s.pfx) hp
      simp only [absS, hp] at this ⊢
      simp only [show s.begin.pfx = some p from hp]
      exact this
  | false =>
    cases hd : decode code with
    | dd =>
      rw [hd] at h hx
      simp only [agree0, agreeI, usesHl, miOf, if_true, decide_eq_true_eq] at h hx
      cases hp : s.pfx with
      | none =>
        simp only [show s.begin.pfx = none from hp, executePlain, h, instr0, run_simps, prog_simps]
        simp only [opCycles, hd, absS, St.begin, prog_simps, spec_simps, norm_simps, he, hh]
      | some p =>
        simp only [show s.begin.pfx = some p from hp]
        unfold executeIndexed
        rw [hx]
        simp only [run_simps, prog_simps]
        simp only [opCycles, hd, absS, St.begin, prog_simps, spec_simps, norm_simps, he, hh]
    | fd =>
      rw [hd] at h hx
      simp only [agree0, agreeI, usesHl, miOf, if_true, decide_eq_true_eq] at h hx
      cases hp : s.pfx with
      | none =>
        simp only [show s.begin.pfx = none from hp, executePlain, h, instr0, run_simps, prog_simps]
        simp only [opCycles, hd, absS, St.begin, prog_simps, spec_simps, norm_simps, he, hh]
      | some p =>
        simp only [show s.begin.pfx = some p from hp]
        unfold executeIndexed
        rw [hx]
        simp only [run_simps, prog_simps]
        simp only [opCycles, hd, absS, St.begin, prog_simps, spec_simps, norm_simps, he, hh]
    | ed =>
      rw [hd] at h hx
      rw [agree0, decide_eq_true_eq] at h
      rw [agreeI, show usesHl I0.ed = false from rfl, decide_eq_true_eq] at hx
      rw [opCycles_ed hd he hh]
      cases hp : s.pfx with
      | none =>
        simp only [show s.begin.pfx = none from hp]
        exact drive_ed code h s (ixOf s.pfx) hp
      | some p =>
        simp only [show s.begin.pfx = some p from hp]
        rw [executeIndexed_plain p (by simpa using hx)]
        exact drive_ed code h { s with pfx := none } (ixOf s.pfx) rfl
    | cb =>
      rw [hd] at h hx
      rw [agree0, decide_eq_true_eq] at h
      rw [agreeI, show usesHl I0.cb = true from rfl, if_pos rfl, decide_eq_true_eq] at hx
      cases hp : s.pfx with
      | none =>
        simp only [show s.begin.pfx = none from hp]
        rw [opCycles_cb hd (by simp only [absS, hp, ixOf]) he hh]
        exact drive_cb code h s (ixOf s.pfx) hp
      | some p =>
        simp only [show s.begin.pfx = some p from hp]
        rw [opCycles_xcb (x := ixOf (some p)) hd (by simp only [absS, hp])
          (by cases p <;> decide) he hh]
        exact drive_xcb code p hx s (ixOf s.pfx) hp
    | _ => rw [hd] at hk; exact absurd hk.symm Bool.false_ne_true

/-! ### Steps -/

/-- Reported result of a step on any host. -/
def outS : Res σ → Option (Out σ.O σ.R)
  | .ok => some .ok
  | .halt => some .halt
  | .writeIo o => some (.writeIo o)
  | .reti r => some (.reti r)
  | .ub => none

/-- What the programmer sees at the end of a step. -/
def seenR (r : Res σ × Cpu Q) : Regs × Option (Out σ.O σ.R) := (abs r.2, outS r.1)

/-- A program makes the calls of the specified cycles, with the specified results. -/
def DrivesP (p : Prog σ (Res σ × Cpu Q)) (b : Cycles σ.O σ.R) : Prop :=
  p.erase.map seenR = b.calls.map wanted

theorem outS_toRes (e : Exit σ) : outS e.toRes = outX e := by cases e <;> rfl

theorem map_map {α β γ : Type} (p : Prog σ α) (f : α → β) (g : β → γ) :
    (p.map f).map g = p.map fun a => g (f a) := by
  induction p with
  | ret a => rfl
  | call r k ih => exact congrArg _ (funext ih)

theorem drive_instruction (deb : Bool) (code : U8) (c : Cpu Q) :
    DrivesP (σ := σ) (executeInstruction deb code c)
      (opCycles (FlavourSpec.opt Q) code (abs c)) := by
  have h := drive_code (σ := σ) code (Cpu.load { c with lastEi := false, halt := false } deb)
    rfl rfl
  have e : opCycles (O := σ.O) (R := σ.R) (FlavourSpec.opt Q) code (absS FlavourSpec.cur
      (Cpu.load { c with lastEi := false, halt := false } deb)) =
      opCycles (FlavourSpec.opt Q) code (abs c) := rfl
  rw [e] at h
  unfold DrivesP
  rw [← h]
  simp only [executeInstruction]
  show ((Prog.bind (executeCode code _) fun r => .ret (r.1.toRes, r.2.store)).erase).map seenR = _
  rw [Prog.erase_bind]
  show (Prog.map seenR (Prog.map (fun r : Exit σ × St Q => (r.1.toRes, r.2.store)) (executeCode code
    (Cpu.load { c with lastEi := false, halt := false } deb)).erase)) = _
  rw [map_map]
  have : (fun a : Exit σ × St Q => seenR (Q := Q) (a.1.toRes, a.2.store)) = seen := by
    funext a
    show (abs a.2.store, outS a.1.toRes) = _
    rw [outS_toRes, abs_store]; rfl
  rw [this]
  rfl

theorem drive_fetch (deb : Bool) (c : Cpu Q) :
    DrivesP (σ := σ) (fetchExecute deb c) (fetchCycles (FlavourSpec.opt Q) (abs c)) := by
  have e : abs (c.incR.setPc (c.pc + 1#16)) = (abs c).bumpR.skip 1 := by
    simp only [abs, absS, Cpu.load, Cpu.setPc, Cpu.getPc, code_simps, spec_simps, norm_simps,
      Regs.skip]
  have e2 : (abs c).bumpR.ir = c.incR.getIr := by
    simp only [Regs.ir, abs, absS, Cpu.load, code_simps, spec_simps, norm_simps, getIr_eq]
  refine congrArg (Prog.addM1 c.pc) (funext fun ts => ?_)
  rw [e2]
  refine congrArg (Prog.readOpcode c.pc c.incR.getIr ts) (funext fun op => ?_)
  rw [← e]
  exact drive_instruction (σ := σ) deb op (c.incR.setPc (c.pc + 1#16))

theorem drive_halt (c : Cpu Q) :
    DrivesP (σ := σ) (haltStep c >>= fun c => pure (.ok, c))
      (.idleM1 (abs c).pc (fin (abs c).bumpR)) := by
  refine congrArg (Prog.addM1 c.pc) (funext fun _ => ?_)
  have e : abs c.incR = (abs c).bumpR := by
    simp only [abs, absS, Cpu.load, Cpu.getPc, code_simps, spec_simps, norm_simps]
  show Prog.ret (abs c.incR, _) = Prog.ret ((abs c).bumpR, _)
  rw [e]; rfl

theorem erase_pushCpu {α : Type} (v : U16) (c : Cpu Q) (f : Cpu Q → Prog σ α) :
    (Prog.bind (pushCpu v c) f).erase = Prog.addMreq (c.sp - 1#16) fun ts =>
      Prog.writeMem (c.sp - 1#16) (hi8 v) ts fun _ => Prog.addMreq (c.sp - 2#16) fun ts =>
      Prog.writeMem (c.sp - 2#16) (lo8 v) ts fun _ => (f { c with sp := c.sp - 2#16 }).erase := by
  have e : (push16 (σ := σ) v (c.load false)).erase = progE (push16 v) (c.load false) := rfl
  have h : (push16 (σ := σ) v (c.load false)).erase = Prog.addMreq (c.sp - 1#16) fun ts =>
      Prog.writeMem (c.sp - 1#16) (hi8 v) ts fun _ => Prog.addMreq (c.sp - 2#16) fun ts =>
      Prog.writeMem (c.sp - 2#16) (lo8 v) ts fun _ =>
        .ret ((), { c.load false with cpu := { c with sp := c.sp - 2#16 } }) := by
    rw [e]
    simp only [run_simps, prog_simps, code_simps, Cpu.load, norm_simps]
  rw [Prog.erase_bind]
  have h2 : (pushCpu (σ := σ) v c).erase = (push16 v (c.load false)).erase.map fun r => r.2.cpu := by
    show (Prog.bind (push16 v (c.load false)) fun r => .ret r.2.cpu).erase = _
    rw [Prog.erase_bind]; rfl
  rw [h2, h]
  rfl

theorem opCycles_rst38 (o : Opt) (r : Regs) (h1 : r.idx = .hl) (h2 : r.ei = false)
    (h3 : r.halted = false) :
    opCycles (O := O) (R := R) o 0xFF#8 r =
      endCycles false (.idle r.ir 1 (pushCycles r.pc r fun r => fin (r.goto 0x38))) := by
  rw [opCycles_other (k := .rst 7) (by decide +kernel) rfl h2 h3, h1]
  rfl
theorem opCycles_jp (o : Opt) (r : Regs) (h1 : r.idx = .hl) (h2 : r.ei = false)
    (h3 : r.halted = false) :
    opCycles (O := O) (R := R) o 0xC3#8 r =
      endCycles false (.rd16 r.pc fun v => fin (r.goto v)) := by
  rw [opCycles_other (k := .jp) (by decide +kernel) rfl h2 h3, h1]
  rfl

/-- Registers when an interrupt is accepted. -/
theorem wake_regs (c : Cpu Q) (hl : c.lastEi = false) : abs c.disableInterrupts.incR.wake =
    wake { abs c with iff1 := false, iff2 := false, ei := false }.bumpR := by
  cases h : c.halt <;>
  simp only [abs, absS, wake, Cpu.wake, h, hl, Cpu.load, Cpu.getPc, Cpu.getFlags, code_simps,
    spec_simps, norm_simps]

theorem drive_interrupt (deb : Bool) (c : Cpu Q) (hp : c.pfx = none) (hl : c.lastEi = false) :
    DrivesP (σ := σ) (irqNoCheck deb c) (irqCycles (FlavourSpec.opt Q) (abs c)) := by
  have hw := wake_regs c hl
  have h1 : c.disableInterrupts.incR.wake.pfx = none := by
    unfold Cpu.wake; split <;> exact hp
  have h2 : c.disableInterrupts.incR.wake.lastEi = false := by
    unfold Cpu.wake; split <;> exact hl
  have h3 : c.disableInterrupts.incR.wake.halt = false := by
    unfold Cpu.wake; split
    · rfl
    · simp_all
  unfold irqCycles
  rw [← hw]
  have hx : irqNoCheck (σ := σ) deb c = (Prog.addIrq c.disableInterrupts.incR.wake.pc fun ts =>
    Prog.irqData c.disableInterrupts.incR.wake.pc ts fun v =>
    Prog.bind (askWait c.disableInterrupts.incR.wake.pc v.2) fun _ =>
    irqBody deb c.disableInterrupts.incR.wake v.1) := rfl
  rw [hx]
  generalize c.disableInterrupts.incR.wake = c' at *
  have hi : (abs c').idx = .hl := by
    simp only [abs, absS, Cpu.load, h1, ixOf]
  have hb : ∀ v : U8, DrivesP (σ := σ) (irqBody deb c' v)
      (match (abs c').im with
      | 0 => opCycles (FlavourSpec.opt Q) v (abs c')
      | 1 => endCycles false (.idle (abs c').ir 1 (pushCycles (abs c').pc (abs c') fun r =>
          fin (r.goto 0x38)))
      | _ => .idle (abs c').ir 1 (pushCycles (abs c').pc (abs c') fun r => .rd16 (word r.i v)
          fun a => endCycles false (fin (r.goto a)))) := by
    intro v
    have him : (abs c').im = imOf c'.im := rfl
    rw [him]
    unfold irqBody
    cases hm : c'.im with
    | mode0 => exact drive_instruction deb v c'
    | mode1 =>
      have := drive_instruction (σ := σ) deb 0xFF#8 c'
      rw [opCycles_rst38 _ _ hi h2 h3] at this
      exact this
    | mode2 =>
      have hd := drive_instruction (σ := σ) deb 0xC3#8
        ({ c' with sp := c'.sp - 2#16 }.setPc ((c'.getIr &&& 0xFF00#16) ||| v.setWidth 16))
      rw [opCycles_jp _ _ (by exact hi) (by exact h2) (by exact h3)] at hd
      have e1 : c'.getIr = (abs c').ir := getIr_eq c'
      have e2 : (c'.getIr &&& 0xFF00#16) ||| v.setWidth 16 = word (abs c').i v := by
        rw [e1]; exact vector_eq _ _ _
      rw [e2] at hd
      show ((Prog.addNoMreq c'.getIr X1 fun _ => Prog.bind (pushCpu c'.pc c') fun c =>
        executeInstruction deb 0xC3#8 (c.setPc ((c'.getIr &&& 0xFF00#16) ||| v.setWidth 16))
        ).erase).map seenR = _
      rw [e2, e1]
      refine congrArg (Prog.addNoMreq (abs c').ir X1) (funext fun _ => ?_)
      dsimp only
      rw [erase_pushCpu]
      refine congrArg (Prog.addMreq (c'.sp - 1#16)) (funext fun ts => ?_)
      refine congrArg (Prog.writeMem (c'.sp - 1#16) _ ts) (funext fun _ => ?_)
      refine congrArg (Prog.addMreq (c'.sp - 2#16)) (funext fun ts => ?_)
      refine congrArg (Prog.writeMem (c'.sp - 2#16) _ ts) (funext fun _ => ?_)
      exact hd
  refine congrArg (Prog.addIrq c'.pc) (funext fun ts => ?_)
  refine congrArg (Prog.irqData c'.pc ts) (funext fun v => ?_)
  obtain ⟨v, ws⟩ := v
  cases ws with
  | none => exact hb v
  | some n => exact congrArg (Prog.call (.addWait c'.pc n)) (funext fun _ => hb v)

/-- `nmi_no_check` makes the specified cycles. -/
theorem drive_nmi (c : Cpu Q) :
    (nmiNoCheck (σ := σ) c).erase.map abs = (nmiCycles (abs c)).calls.map fun e => e.1 := by
  have hx : nmiNoCheck (σ := σ) c = (Prog.addM1 (if c.halt then c.pc + 1#16 else c.pc) fun _ =>
    Prog.addNoMreq (Cpu.getIr { ({ c with lastEi := false, iff1 := false }).incR with halt := false }) X1
    fun _ => Prog.bind (pushCpu (if c.halt then c.pc + 1#16 else c.pc)
      { ({ c with lastEi := false, iff1 := false }).incR with halt := false }) fun c =>
        .ret { c with flavour := Flavour.beginInstruction c.flavour, pc := 0x66#16 }) := rfl
  rw [hx]
  show (Prog.addM1 _ fun _ => Prog.addNoMreq _ _ fun _ => (Prog.bind _ _).erase).map abs = _
  rw [erase_pushCpu]
  unfold nmiCycles
  cases hh : c.halt <;>
  simp only [wake, Prog.erase, abs, absS, Cpu.load, Cpu.getPc, getIr_eq, hh, prog_simps, spec_simps, norm_simps,
    code_simps] <;> rfl

/-- `execute_next` makes the specified cycles. -/
theorem drive_step (deb : Bool) (c : Cpu Q) :
    DrivesP (σ := σ) (executeNext deb c) (stepCycles (FlavourSpec.opt Q) (abs c)) := by
  have hgo : DrivesP (σ := σ) (if c.halt then haltStep c >>= fun c => pure (.ok, c)
      else fetchExecute deb c)
     (if (abs c).halted then .idleM1 (abs c).pc (fin (abs c).bumpR)
      else fetchCycles (FlavourSpec.opt Q) (abs c)) := by
    have hh : (abs c).halted = c.halt := rfl
    rw [hh]
    cases c.halt with
    | true => exact drive_halt c
    | false => exact drive_fetch deb c
  have ha := irqAllowed_eq c
  unfold stepCycles
  rw [← ha]
  cases hq : c.isIrqAllowed with
  | false =>
    simp only [Bool.false_eq_true, if_false]
    unfold executeNext
    rw [hq]
    exact hgo
  | true =>
    have hpl : c.pfx = none ∧ c.lastEi = false := by
      simp only [Cpu.isIrqAllowed, isIntAllowed, Bool.and_eq_true, Bool.not_eq_true',
        Option.isNone_iff_eq_none] at hq
      exact hq.2
    unfold executeNext
    rw [hq]
    simp only [if_true]
    refine congrArg Prog.asTimestamp (funext fun ts => ?_)
    refine congrArg (Prog.isIrq ts) (funext fun b => ?_)
    cases b with
    | true => exact drive_interrupt deb c hpl.1 hpl.2
    | false => exact hgo

end Z80
