import Verif.Proofs.Variant
import Verif.Proofs.Limit

/-!
# Instructions of `execute_with_limit`, which keep the mark of `EI`
-/

set_option linter.constructorNameAsVariable false

namespace Z80
open Spec
variable {O R : Type} {σ : Sig} {Q : Type} [FlavourSpec Q]

/-- `opCycles` without the clearing of the marks. -/
def opKeep (o : Opt) (op : U8) (r : Regs) : Cycles O R :=
  match decode op with
  | .dd => fin { r with idx := .ix, q := r.q.map fun _ => false }
  | .fd => fin { r with idx := .iy, q := r.q.map fun _ => false }
  | .ed =>
    let r1 := r.bumpR
    .m1 r1.pc r1.ir fun c => endCycles (fEd (decodeEd c)) (edCycles o (decodeEd c) (r1.skip 1))
  | .cb =>
    match r.idx with
    | .hl =>
      let r1 := r.bumpR
      .m1 r1.pc r1.ir fun c => endCycles (fCb (decodeCb c)) (cbCycles (decodeCb c) (r1.skip 1))
    | x => .rd r.pc fun d => .rd (r.pc + 1) fun c => .idle (r.pc + 1) 2
        (endCycles (fCb (decodeCb c)) (xcbCycles (decodeCb c) (r.xhl x + disp d)
          { r.skip 2 with wz := r.xhl x + disp d }))
  | k => endCycles (f0 k) (cycles0 o r.idx k r)

theorem opKeep_clear (o : Opt) (op : U8) (r : Regs) :
    opCycles (O := O) (R := R) o op r = opKeep o op { r with ei := false, halted := false } := rfl

theorem opKeep_other {o : Opt} {op : U8} {r : Regs} {k : I0} (hd : decode op = k) (hk : notPrefix k) :
    opKeep (O := O) (R := R) o op r = endCycles (f0 k) (cycles0 o r.idx k r) := by
  unfold opKeep
  simp only [hd]
  cases k <;> first | exact absurd hk Bool.false_ne_true | rfl
theorem opKeep_ed {o : Opt} {op : U8} {r : Regs} (hd : decode op = .ed) :
    opKeep (O := O) (R := R) o op r = ((fun r : Regs => .m1 r.bumpR.pc r.bumpR.ir fun c =>
        endCycles (fEd (decodeEd c)) (edCycles o (decodeEd c) (r.bumpR.skip 1))) r) := by
  unfold opKeep
  simp only [hd]
theorem opKeep_cb {o : Opt} {op : U8} {r : Regs} (hd : decode op = .cb) (hi : r.idx = .hl) :
    opKeep (O := O) (R := R) o op r = ((fun r : Regs => .m1 r.bumpR.pc r.bumpR.ir fun c =>
        endCycles (fCb (decodeCb c)) (cbCycles (decodeCb c) (r.bumpR.skip 1))) r) := by
  unfold opKeep
  simp only [hd, hi]
theorem opKeep_xcb {o : Opt} {op : U8} {r : Regs} {x : Ix} (hd : decode op = .cb) (hi : r.idx = x) (hx : x ≠ .hl) :
    opKeep (O := O) (R := R) o op r =
      ((fun r : Regs => .rd r.pc fun d => .rd (r.pc + 1#16) fun c => .idle (r.pc + 1#16) 2
        (endCycles (fCb (decodeCb c)) (xcbCycles (decodeCb c) (r.xhl x + disp d)
          { r.skip 2 with wz := r.xhl x + disp d }))) r) := by
  unfold opKeep
  simp only [hd, hi]
  rfl

/-- `execute_instruction!` in any state. -/
theorem drive_keep (code : U8) (s : St Q) :
    Drives (σ := σ) (executeCode code) s
      (opKeep (FlavourSpec.opt Q) code (absS FlavourSpec.cur s)) := by
  have h := agree0_all code
  have hx := agreeI_all code
  have hb : ∀ f : St Q → Ex σ Q (Exit σ),
    progE (Ex.modC (fun c => { c with flavour := Flavour.beginInstruction c.flavour })
     >>= fun _ => Ex.getS >>= f) s = progE (f s.begin) s.begin := fun _ => rfl
  unfold executeCode
  simp only [Drives, hb]
  cases hk : notPrefix (decode code) with
  | true =>
    rw [opKeep_other rfl hk]
    cases hp : s.pfx with
    | none =>
      have := drive0_all (Q := Q) (σ := σ) code _ h hk s (ixOf s.pfx) hp
      simp only [absS, ixOf, hp] at this ⊢
      simp only [show s.begin.pfx = none from hp]
      exact this
    | some p =>
      have := driveX_all (Q := Q) (σ := σ) code _ h hx hk p s (ixOf s.pfx) hp
      simp only [absS, hp] at this ⊢
      simp only [show s.begin.pfx = some p from hp]
      exact this
  | false =>
    cases hd : decode code with
    | dd =>
      rw [hd] at h hx
      simp only [agree0, agreeI, usesHl, miOf, if_true, decide_eq_true_eq] at h hx
      cases hp : s.pfx with
      | none =>
        simp only [show s.begin.pfx = none from hp, executePlain, h, instr0, run_simps, prog_simps]
        simp only [opKeep, hd, absS, St.begin, prog_simps, spec_simps, norm_simps]
      | some p =>
        simp only [show s.begin.pfx = some p from hp]
        unfold executeIndexed
        rw [hx]
        simp only [run_simps, prog_simps]
        simp only [opKeep, hd, absS, St.begin, prog_simps, spec_simps, norm_simps]
    | fd =>
      rw [hd] at h hx
      simp only [agree0, agreeI, usesHl, miOf, if_true, decide_eq_true_eq] at h hx
      cases hp : s.pfx with
      | none =>
        simp only [show s.begin.pfx = none from hp, executePlain, h, instr0, run_simps, prog_simps]
        simp only [opKeep, hd, absS, St.begin, prog_simps, spec_simps, norm_simps]
      | some p =>
        simp only [show s.begin.pfx = some p from hp]
        unfold executeIndexed
        rw [hx]
        simp only [run_simps, prog_simps]
        simp only [opKeep, hd, absS, St.begin, prog_simps, spec_simps, norm_simps]
    | ed =>
      rw [hd] at h hx
      rw [agree0, decide_eq_true_eq] at h
      rw [agreeI, show usesHl I0.ed = false from rfl, decide_eq_true_eq] at hx
      rw [opKeep_ed hd]
      cases hp : s.pfx with
      | none =>
        simp only [show s.begin.pfx = none from hp]
        exact drive_ed code h s (ixOf s.pfx) hp
      | some p =>
        simp only [show s.begin.pfx = some p from hp]
        rw [executeIndexed_plain p (by simpa using hx)]
        exact drive_ed code h { s with pfx := none } (ixOf s.pfx) rfl
    | cb =>
      rw [hd] at h hx
      rw [agree0, decide_eq_true_eq] at h
      rw [agreeI, show usesHl I0.cb = true from rfl, if_pos rfl, decide_eq_true_eq] at hx
      cases hp : s.pfx with
      | none =>
        simp only [show s.begin.pfx = none from hp]
        rw [opKeep_cb hd (by simp only [absS, hp, ixOf])]
        exact drive_cb code h s (ixOf s.pfx) hp
      | some p =>
        simp only [show s.begin.pfx = some p from hp]
        rw [opKeep_xcb (x := ixOf (some p)) hd (by simp only [absS, hp]) (by cases p <;> decide)]
        exact drive_xcb code p hx s (ixOf s.pfx) hp
    | _ => rw [hd] at hk; exact absurd hk.symm Bool.false_ne_true

/-- Whether it was `EI`, the result, and the registers. -/
def keeps (r : Exit σ × Cpu Q) : Bool × Option (Out σ.O σ.R) × Regs :=
  (match r.1 with | .enableInt => true | _ => false, outX r.1, abs r.2)

/-- The same of the specified cycles. -/
def stepKeep (o : Opt) (r : Regs) : Prog σ (Bool × Option (Out σ.O σ.R) × Regs) :=
  .call (.addM1 r.pc) fun ts => .call (.readOpcode r.pc r.bumpR.ir ts) fun op =>
    (opKeep (O := σ.O) (R := σ.R) o op (r.bumpR.skip 1)).calls.map fun e => (op == 0xFB, some e.2.2, e.1)

theorem map_wp {α β : Type} {p : Prog σ α} {f g : α → β} (h : p.wp fun _ a => f a = g a) : p.map f = p.map g := by
  induction p with
  | ret a => exact congrArg Prog.ret h
  | call r k ih => exact congrArg (Prog.call r) (funext fun a => ih a (h a))

theorem keep_step (c : Cpu Q) : (stepStored (σ := σ) c).map keeps = stepKeep (FlavourSpec.opt Q) (abs c) := by
  have e2 : (abs c).bumpR.ir = c.incR.getIr := by
    simp only [Regs.ir, abs, absS, Cpu.load, code_simps, spec_simps, norm_simps, getIr_eq]
  unfold stepStored stepKeep
  rw [map_map, e2]
  refine congrArg (Prog.call (.addM1 c.pc)) (funext fun ts => ?_)
  refine congrArg (Prog.call (.readOpcode c.pc c.incR.getIr ts)) (funext fun op => ?_)
  have h := drive_keep (σ := σ) op { c.load false with cpu := c.incR, pc := c.pc + 1#16 }
  have e : absS FlavourSpec.cur ({ c.load false with cpu := c.incR, pc := c.pc + 1#16 } : St Q) = (abs c).bumpR.skip 1 := by
    simp only [abs, absS, Cpu.load, Cpu.getPc, code_simps, spec_simps, norm_simps, Regs.skip]
  rw [e] at h
  have hq : (executeCode (σ := σ) op { c.load false with cpu := c.incR, pc := c.pc + 1#16 }).map seen =
      (progE (σ := σ) (executeCode op) { c.load false with cpu := c.incR, pc := c.pc + 1#16 }).map seen := by
    refine (Prog.rel_map (Unseen.executeCode op ({ c.load false with cpu := c.incR, pc := c.pc + 1#16 } : St Q)) fun a b hab => ?_).symm
    obtain ⟨b1, b2⟩ := b
    obtain ⟨rfl, rfl⟩ := hab
    rfl
  have h : _ = _ := hq.trans h
  have := congrArg (fun p => p.map fun x : Regs × Option (Out σ.O σ.R) => (op == 0xFB, x.2, x.1)) h
  rw [map_map, map_map] at this
  refine Eq.trans (map_wp ?_) this
  refine Prog.wp_mono (fun t r h => ?_) (ok_code op _)
  have hei := h.ei
  show (_, outX r.1, absS FlavourSpec.cur r.2) = (_, outX r.1, absS FlavourSpec.cur r.2)
  congr 1
  obtain ⟨x, y⟩ := r
  cases x with
  | enableInt => exact (beq_iff_eq.2 (hei.1 rfl)).symm
  | _ => exact (beq_eq_false_iff_ne.2 fun h => nomatch hei.2 h).symm

/-- `irq_no_check` from the acknowledge cycle on. -/
def irqTail (c : Cpu Q) : Prog σ (Res σ × Cpu Q) := do
  let ts ← ask (.addIrq c.pc)
  let v ← ask (.irqData c.pc ts)
  askWait c.pc v.2
  match c.im with
  | .mode0 => executeInstruction false v.1 c
  | .mode1 => executeInstruction false 0xFF#8 c
  | .mode2 => do
    ask (.addNoMreq c.getIr X1)
    let c' ← pushCpu c.pc c
    executeInstruction false 0xC3#8
      (c'.setPc ((c.getIr &&& 0xFF00#16) ||| v.1.setWidth 16))

theorem irqTail_mark (c : Cpu Q) (b : Bool) : irqTail (σ := σ) { c with lastEi := b } = irqTail c := by
  refine congrArg (Prog.call (.addIrq c.pc)) (funext fun ts => ?_)
  refine congrArg (Prog.call (.irqData c.pc ts)) (funext fun v => ?_)
  refine congrArg (Prog.bind (askWait c.pc v.2)) (funext fun _ => ?_)
  obtain ⟨_, _, _, _, _, _, _, _, _, _, _, _, _, _, _, im, _, _, _, _, _, _⟩ := c
  cases im with
  | mode0 => rfl
  | mode1 => rfl
  | mode2 => rfl

/-- An interrupt is taken in the same way when the mark of `EI` has been left behind. -/
theorem drive_interrupt_keep (c : Cpu Q) (hp : c.pfx = none) :
    DrivesP (σ := σ) (irqNoCheck false c) (irqCycles (FlavourSpec.opt Q) (abs c)) := by
  have h := drive_interrupt (σ := σ) false { c with lastEi := false } hp rfl
  have e1 : ∀ c : Cpu Q, irqNoCheck (σ := σ) false c = irqTail c.disableInterrupts.incR.wake := fun _ => rfl
  have e2 : ({ c with lastEi := false } : Cpu Q).disableInterrupts.incR.wake =
      { c.disableInterrupts.incR.wake with lastEi := false } := by
    show Cpu.wake { c.disableInterrupts.incR with lastEi := false } = _
    generalize c.disableInterrupts.incR = c1
    unfold Cpu.wake
    dsimp only
    split <;> rfl
  rw [e1, e2, irqTail_mark, ← e1] at h
  exact h

end Z80
