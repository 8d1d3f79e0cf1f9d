import Verif.Spec.Mirror
import Verif.Proofs.Pfx
import Verif.Props.Transparent

/-! # IX and IY exchanged -/

set_option linter.constructorNameAsVariable false

namespace Z80
open Spec
variable {O R : Type} {σ : Sig}

/-- The other index register. -/
def Spec.Ix.other : Ix → Ix
  | .hl => .hl
  | .ix => .iy
  | .iy => .ix

/-- IX and IY exchanged. -/
def Spec.Regs.mirror (r : Regs) : Regs :=
  { r with ixh := r.iyh, ixl := r.iyl, iyh := r.ixh, iyl := r.ixl, idx := r.idx.other }

/-- The end of an instruction, exchanged. -/
def mirrorE (e : Res' O R) : Res' O R := (e.1.mirror, e.2)

theorem mirror0 (o : Opt) (x : Ix) (k : I0) (r : Regs) :
    cycles0 (O := O) (R := R) o x.other k r.mirror = (cycles0 o x k r).map mirrorE := by
  cases k with
  | djnz =>
    unfold cycles0
    refine congrArg (Tree.idle r.ir 1) ?_
    show (if r.b - 1 ≠ 0 then _ else _) = Tree.map mirrorE (if r.b - 1 ≠ 0 then _ else _)
    split <;> rfl
  | jrCc c =>
    show (if r.holds c then _ else _) = Tree.map mirrorE (if r.holds c then _ else _)
    split <;> rfl
  | retCc c =>
    refine congrArg (Tree.idle r.ir 1) ?_
    show (if r.holds c then _ else _) = Tree.map mirrorE (if r.holds c then _ else _)
    split <;> rfl
  | callCc c =>
    refine congrArg (Tree.rd16 r.pc) (funext fun v => ?_)
    show (if r.holds c then _ else _) = Tree.map mirrorE (if r.holds c then _ else _)
    split <;> rfl
  | jpCc c =>
    refine congrArg (Tree.rd16 r.pc) (funext fun v => congrArg Tree.done ?_)
    show (if r.holds c then _ else _, _) = mirrorE (if r.holds c then _ else _, _)
    split <;> rfl
  | incR g | decR g | ldRN g | aluR _ g => cases x <;> cases g <;> rfl
  | ldRR d g => cases x <;> cases d <;> cases g <;> rfl
  | ldRpNn p | incRp p | decRp p | pop p | push p => cases x <;> cases p <;> rfl
  | addHl p => cases x <;> cases p <;> rfl
  | ldHlNn | ldNnHl | exSpHl | jpHl | ldSpHl => cases x <;> rfl
  | ldRpA p | ldARp p => cases p <;> rfl
  | _ => rfl

theorem mirrorCb (k : ICb) (r : Regs) :
    cbCycles (O := O) (R := R) k r.mirror = (cbCycles k r).map mirrorE := by
  cases k with
  | rot k g | bit n g | res n g | set n g => cases g <;> rfl

theorem mirrorXcb (k : ICb) (a : U16) (r : Regs) :
    xcbCycles (O := O) (R := R) k a r.mirror = (xcbCycles k a r).map mirrorE := by
  cases k with
  | rot k g | bit n g | res n g | set n g => cases g <;> rfl

theorem mirrorRep (again : Bool) (a : U16) {r r' : Regs} (y : Out O R) (h : r' = r.mirror) :
    repeatCycles again a r' y = (repeatCycles again a r y).map mirrorE := by
  subst h
  cases again <;> rfl

theorem mirrorEd (o : Opt) (k : IEd) (r : Regs) :
    edCycles (O := O) (R := R) o k r.mirror = (edCycles o k r).map mirrorE := by
  cases k with
  | ldAI | ldAR =>
    unfold edCycles ldAIrCycles
    refine congrArg (Tree.idle r.ir 1) ?_
    show (if (o.early && r.iff1 && r.iff2) = true then _ else _) =
      Tree.map mirrorE (if (o.early && r.iff1 && r.iff2) = true then _ else _)
    split <;> rfl
  | inC g | outC g => cases g <;> rfl
  | ldRpNn p | ldNnRp p | sbcHl p | adcHl p => cases p <;> rfl
  | blk b d rep =>
    cases b with
    | ld =>
      exact congrArg (Tree.rd r.hl) (funext fun v => congrArg (Tree.wr r.de v)
        (congrArg (Tree.idle r.de 2) (mirrorRep _ _ _ rfl)))
    | cp =>
      exact congrArg (Tree.rd r.hl) (funext fun v => congrArg (Tree.idle r.hl 5)
        (mirrorRep _ _ _ rfl))
    | inp =>
      exact congrArg (Tree.idle r.ir 1) (congrArg (Tree.inp r.bc) (funext fun v =>
        congrArg (Tree.wr r.hl v) (mirrorRep _ _ _ rfl)))
    | out =>
      exact congrArg (Tree.idle r.ir 1) (congrArg (Tree.rd r.hl) (funext fun v =>
        congrArg (Tree.out _ v) (funext fun x => mirrorRep _ _ _ rfl)))
  | _ => rfl

theorem mirrorEnd (f : Bool) (c : Cycles O R) :
    endCycles f (c.map mirrorE) = (endCycles f c).map mirrorE := by
  induction c with
  | done a => rfl
  | m1 a ir k ih => exact congrArg (Tree.m1 a ir) (funext ih)
  | idleM1 a k ih => exact congrArg (Tree.idleM1 a) ih
  | rd a k ih => exact congrArg (Tree.rd a) (funext ih)
  | rd16 a k ih => exact congrArg (Tree.rd16 a) (funext ih)
  | skip a k ih => exact congrArg (Tree.skip a) ih
  | wr a v k ih => exact congrArg (Tree.wr a v) ih
  | idle a v k ih => exact congrArg (Tree.idle a v) ih
  | inp a k ih => exact congrArg (Tree.inp a) (funext ih)
  | out a v k ih => exact congrArg (Tree.out a v) (funext ih)
  | reti a k ih => exact congrArg (Tree.reti a) (funext ih)
  | irq k ih => exact congrArg Tree.irq (funext ih)
  | ack a k ih => exact congrArg (Tree.ack a) (funext ih)

theorem decode_other (op : U8) : decode (otherPrefix op) =
    match decode op with
    | .dd => .fd
    | .fd => .dd
    | k => k := by
  exact of_decide_eq_true (all8_spec (p := fun op =>
    decide (decode (otherPrefix op) = match decode op with | .dd => .fd | .fd => .dd | k => k)) (by decide +kernel) op)

theorem mirrorEnd' {f : Bool} {c c' : Cycles O R} (h : c' = c.map mirrorE) : endCycles f c' = (endCycles f c).map mirrorE :=
  h ▸ mirrorEnd f c

theorem mirrorEd' {o : Opt} {k : IEd} {r r' : Regs} (h : r' = r.mirror) :
    edCycles (O := O) (R := R) o k r' = (edCycles o k r).map mirrorE := h ▸ mirrorEd o k r
theorem mirrorCb' {k : ICb} {r r' : Regs} (h : r' = r.mirror) :
    cbCycles (O := O) (R := R) k r' = (cbCycles k r).map mirrorE := h ▸ mirrorCb k r
theorem mirrorXcb' {k : ICb} {a a' : U16} {r r' : Regs} (ha : a' = a) (h : r' = r.mirror) :
    xcbCycles (O := O) (R := R) k a' r' = (xcbCycles k a r).map mirrorE := ha ▸ h ▸ mirrorXcb k a' r

theorem mirrorOp (o : Opt) (op : U8) (r : Regs) :
    opCycles (O := O) (R := R) o (otherPrefix op) r.mirror = (opCycles o op r).map mirrorE := by
  unfold opCycles
  rw [decode_other]
  generalize decode op = k
  cases k with
  | dd | fd => rfl
  | ed =>
    refine congrArg (Tree.m1 _ _) (funext fun c => ?_)
    show _ = Tree.map mirrorE (endCycles _ _)
    exact mirrorEnd' (mirrorEd' rfl)
  | cb =>
    obtain ⟨a, f, b, c, d, e, h, l, a', f', b', c', d', e', h', l', ixh, ixl, iyh, iyl, sp, pc, wz, i, r, iff1, iff2, im,
      halted, ei, idx, q⟩ := r
    cases idx with
    | hl =>
      refine congrArg (Tree.m1 _ _) (funext fun c => ?_)
      show _ = Tree.map mirrorE (endCycles _ _)
      exact mirrorEnd' (mirrorCb' rfl)
    | ix | iy =>
      refine congrArg (Tree.rd _) (funext fun d => congrArg (Tree.rd _) (funext fun c => congrArg (Tree.idle _ 2) ?_))
      show _ = Tree.map mirrorE (endCycles _ _)
      exact mirrorEnd' (mirrorXcb' rfl rfl)
  | _ => exact mirrorEnd' (mirror0 o r.idx _ { r with ei := false, halted := false })

/-! ### Hosts -/

variable {S α β : Type}

theorem run_exchanging (z : Bool) (H : Handler σ S) (p : Prog σ α) (s : S) :
    p.run (exchanging z H) (s, false) = ((p.run H s).1, (p.run H s).2, false) := by
  induction p generalizing s with
  | ret a => rfl
  | call r k ih =>
    have : exchanging z H r (s, false) = ((H r s).1, (H r s).2, false) := by
      cases r <;> rfl
    show Prog.run _ (k (exchanging z H r (s, false)).1) (exchanging z H r (s, false)).2 = _
    rw [this]
    exact ih _ _

theorem calls_map (g : α → β) (b : Tree σ.O σ.R α) : (b.map g).calls (σ := σ) = b.calls.map g := by
  have hw : ∀ (p : U16) (w : Option U16) (q : Prog σ α), (waiting p w q).map g = waiting p w (q.map g) := by
    intro p w q
    cases w <;> rfl
  induction b with
  | done a => rfl
  | m1 a ir k ih => exact congrArg (Prog.call _) (funext fun _ => congrArg (Prog.call _) (funext ih))
  | idleM1 a k ih => exact congrArg (Prog.call _) (funext fun _ => ih)
  | rd a k ih => exact congrArg (Prog.call _) (funext fun _ => congrArg (Prog.call _) (funext ih))
  | rd16 a k ih =>
    exact congrArg (Prog.call _) (funext fun _ => congrArg (Prog.call _) (funext fun v =>
      congrArg (Prog.call _) (funext fun _ => ih v)))
  | skip a k ih => exact congrArg (Prog.call _) (funext fun _ => congrArg (Prog.call _) (funext fun _ => ih))
  | wr a v k ih => exact congrArg (Prog.call _) (funext fun _ => congrArg (Prog.call _) (funext fun _ => ih))
  | idle a v k ih => exact congrArg (Prog.call _) (funext fun _ => ih)
  | inp a k ih =>
    exact congrArg (Prog.call _) (funext fun _ => congrArg (Prog.call _) (funext fun v =>
      (congrArg (waiting _ _) (ih v.1)).trans (hw _ _ _).symm))
  | out a v k ih =>
    exact congrArg (Prog.call _) (funext fun _ => congrArg (Prog.call _) (funext fun v =>
      (congrArg (waiting _ _) (ih v.1)).trans (hw _ _ _).symm))
  | reti a k ih => exact congrArg (Prog.call _) (funext fun _ => congrArg (Prog.call _) (funext ih))
  | irq k ih => exact congrArg (Prog.call _) (funext fun _ => congrArg (Prog.call _) (funext ih))
  | ack a k ih =>
    exact congrArg (Prog.call _) (funext fun _ => congrArg (Prog.call _) (funext fun v =>
      (congrArg (waiting _ _) (ih v.1)).trans (hw _ _ _).symm))

theorem run_mirrored (z : Bool) (H : Handler σ S) (b : Cycles σ.O σ.R) (s : S) :
    (b.map mirrorE).calls.run (exchanging z H) (s, false) =
      (mirrorE (b.calls.run H s).1, (b.calls.run H s).2, false) := by
  rw [run_exchanging, calls_map, (run_map b.calls mirrorE s).1]

theorem run_ack (z : Bool) (H : Handler σ S) {pc : U16} {k k' : U8 → Cycles σ.O σ.R}
    (h : ∀ v, k' (if z then otherPrefix v else v) = (k v).map mirrorE) (s : S) :
    (Tree.ack pc k').calls.run (exchanging z H) (s, true) =
      (mirrorE ((Tree.ack pc k).calls.run H s).1, ((Tree.ack pc k).calls.run H s).2, false) := by
  have hw : ∀ (w : Option U16) (b : Cycles σ.O σ.R) (s : S), (waiting pc w (b.map mirrorE).calls).run (exchanging z H) (s, false) =
      (mirrorE ((waiting pc w b.calls).run H s).1, ((waiting pc w b.calls).run H s).2, false) := by
    intro w b s
    cases w with
    | none => exact run_mirrored z H b s
    | some n => exact run_mirrored z H b _
  have h' : ∀ (x : U8 × Option U16) (s : S),
      (waiting pc (if z then (otherPrefix x.1, x.2) else x).2 (k' (if z then (otherPrefix x.1, x.2) else x).1).calls).run
        (exchanging z H) (s, false) =
      (mirrorE ((waiting pc x.2 (k x.1).calls).run H s).1, ((waiting pc x.2 (k x.1).calls).run H s).2, false) := by
    intro x s
    rw [← hw, ← h]
    cases z <;> rfl
  exact h' _ _

theorem mirror_wake (r : Regs) : wake r.mirror = (wake r).mirror := by
  unfold wake
  show (if r.halted then _ else _) = Regs.mirror (if r.halted then _ else _)
  split <;> rfl

theorem mirrorIrq (o : Opt) (H : Handler σ S) (r : Regs) (s : S) :
    (irqCycles o r.mirror).calls.run (exchanging (r.im == 0) H) (s, true) =
      (mirrorE ((irqCycles o r).calls.run H s).1, ((irqCycles o r).calls.run H s).2, false) := by
  have hw : wake ({ r.mirror with iff1 := false, iff2 := false, ei := false } : Regs).bumpR =
      (wake ({ r with iff1 := false, iff2 := false, ei := false } : Regs).bumpR).mirror :=
    mirror_wake ({ r with iff1 := false, iff2 := false, ei := false } : Regs).bumpR
  have hi : (wake ({ r with iff1 := false, iff2 := false, ei := false } : Regs).bumpR).im = r.im := by
    unfold wake
    split <;> rfl
  unfold irqCycles
  dsimp only
  rw [hw]
  generalize wake ({ r with iff1 := false, iff2 := false, ei := false } : Regs).bumpR = q at hi
  rw [← hi]
  refine run_ack _ H (fun v => ?_) s
  show (match q.im with | 0 => _ | 1 => _ | _ => _) = Tree.map mirrorE (match q.im with | 0 => _ | 1 => _ | _ => _)
  generalize q.im = n
  match n with
  | 0 => exact mirrorOp o v q
  | 1 => rfl
  | n + 2 => rfl

/-- A step of the CPU with the registers exchanged, before a host that exchanges the prefixes. -/
theorem run_step (o : Opt) (H : Handler σ S) (r : Regs) (s : S) : ∃ first,
    (stepCycles o r.mirror).calls.run (exchanging (r.im == 0) H) (s, true) =
      (mirrorE ((stepCycles o r).calls.run H s).1, ((stepCycles o r).calls.run H s).2, first) := by
  have go : ∀ s : S, ∃ first,
      (if r.mirror.halted then .idleM1 r.mirror.pc (fin r.mirror.bumpR) else fetchCycles o r.mirror : Cycles σ.O σ.R).calls.run
        (exchanging (r.im == 0) H) (s, true) =
      (mirrorE ((if r.halted then .idleM1 r.pc (fin r.bumpR) else fetchCycles o r : Cycles σ.O σ.R).calls.run H s).1,
        ((if r.halted then .idleM1 r.pc (fin r.bumpR) else fetchCycles o r : Cycles σ.O σ.R).calls.run H s).2, first) := by
    intro s
    show ∃ first, Prog.run _ (Tree.calls (if r.halted then _ else _)) _ = _
    split
    · exact ⟨true, rfl⟩
    · refine ⟨false, ?_⟩
      have h := fun op s => (congrArg (fun b => b.calls.run (exchanging (r.im == 0) H) (s, false))
        (mirrorOp (O := σ.O) (R := σ.R) o op (r.bumpR.skip 1))).trans (run_mirrored (r.im == 0) H _ s)
      exact h _ _
  unfold stepCycles
  dsimp only
  rw [show irqOk r.mirror = irqOk r by unfold irqOk Regs.mirror; cases r.idx <;> rfl]
  split
  · show ∃ first, Prog.run _ (Tree.calls (if (H (.isIrq (H .asTimestamp s).1) (H .asTimestamp s).2).1 then _ else _))
        ((H (.isIrq (H .asTimestamp s).1) (H .asTimestamp s).2).2, true) =
      (mirrorE (Prog.run _ (Tree.calls (if (H (.isIrq (H .asTimestamp s).1) (H .asTimestamp s).2).1 then _ else _)) _).1,
      (Prog.run _ (Tree.calls (if (H (.isIrq (H .asTimestamp s).1) (H .asTimestamp s).2).1 then _ else _)) _).2, _)
    generalize H (.isIrq (H .asTimestamp s).1) (H .asTimestamp s).2 = x
    obtain ⟨b, s'⟩ := x
    cases b
    · exact go s'
    · exact ⟨false, mirrorIrq o H r s'⟩
  · exact go s

end Z80
