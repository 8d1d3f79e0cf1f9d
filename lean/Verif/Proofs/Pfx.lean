import Verif.Spec.Prefix
import Verif.Proofs.Variant

/-! # DD and FD prefixes -/

set_option linter.constructorNameAsVariable false

namespace Z80
open Spec
variable {O R : Type} {σ : Sig}

theorem prefix_decode {op : U8} (h : isIxPrefix op = true) :
    (decode op = .dd ∧ prefixOf op = .ix) ∨ (decode op = .fd ∧ prefixOf op = .iy) := by
  have : op = 0xDD#8 ∨ op = 0xFD#8 := by
    simpa [isIxPrefix, Bool.or_eq_true] using h
  rcases this with rfl | rfl
  · exact .inl ⟨rfl, rfl⟩
  · exact .inr ⟨rfl, rfl⟩

theorem pfxOp (o : Opt) {op : U8} (h : isIxPrefix op = true) (r : Regs) :
    opCycles (O := O) (R := R) o op r = fin (afterPrefix op r) := by
  unfold opCycles
  rcases prefix_decode h with ⟨h1, h2⟩ | ⟨h1, h2⟩ <;> rw [h1] <;> unfold afterPrefix <;> rw [h2]

theorem pfxStep (o : Opt) (r : Regs) {l : List Cyc} {e : Res' O R} (h : (stepCycles o r).Path l e)
    {op : U8} {ops : List U8} (hop : isIxPrefix op = true) (ha : acks l = [])
    (hl : opcodes l = op :: ops) :
    l = (if irqOk r then [.irq false] else []) ++ [.m1 r.pc r.bumpR.ir op] ∧
      e = (afterPrefix op (r.bumpR.skip 1), false, .ok) := by
  have go : ∀ {l : List Cyc}, (if r.halted then .idleM1 r.pc (fin r.bumpR) else fetchCycles o r :
      Cycles O R).Path l e → opcodes l = op :: ops →
      l = [.m1 r.pc r.bumpR.ir op] ∧ e = (afterPrefix op (r.bumpR.skip 1), false, .ok) := by
    intro l h hl
    cases hh : r.halted with
    | true =>
      rw [hh] at h
      cases h with
      | idleM1 h => cases h; cases hl
    | false =>
      rw [hh] at h
      cases h with
      | @m1 _ _ _ op' l _ h =>
        obtain rfl : op' = op := (List.cons.inj (show op' :: opcodes l = op :: ops from hl)).1
        dsimp only at h
        rw [pfxOp o hop] at h
        cases h
        exact ⟨rfl, rfl⟩
  unfold stepCycles at h
  dsimp only at h
  split at h
  · rename_i hi
    rw [if_pos hi]
    cases h with
    | @irq _ b l _ h =>
      cases b with
      | true => cases h with | ack h => cases ha
      | false =>
        obtain ⟨h1, h2⟩ := go (l := l) h hl
        exact ⟨congrArg (_ :: ·) h1, h2⟩
  · rename_i hi
    rw [if_neg hi]
    exact go h hl

/-! ### Independence of the pending prefix -/

/-- Forget the pending prefix. -/
def hideIdx (e : Res' O R) : Res' O R := ({ e.1 with idx := .hl }, e.2)

theorem idx0 (o : Opt) (x : Ix) (k : I0) (r : Regs) :
    (cycles0 (O := O) (R := R) o x k r).map hideIdx =
      (cycles0 o x k { r with idx := .hl }).map hideIdx := by
  cases k with
  | djnz =>
    unfold cycles0
    refine congrArg (Tree.idle r.ir 1) ?_
    show Tree.map hideIdx (if r.b - 1 ≠ 0 then _ else _) = Tree.map hideIdx (if r.b - 1 ≠ 0 then _ else _)
    split <;> rfl
  | jrCc c =>
    unfold cycles0
    show Tree.map hideIdx (if r.holds c then _ else _) = Tree.map hideIdx (if r.holds c then _ else _)
    split <;> rfl
  | retCc c =>
    unfold cycles0
    refine congrArg (Tree.idle r.ir 1) ?_
    show Tree.map hideIdx (if r.holds c then _ else _) = Tree.map hideIdx (if r.holds c then _ else _)
    split <;> rfl
  | callCc c =>
    unfold cycles0
    refine congrArg (Tree.rd16 r.pc) (funext fun v => ?_)
    show Tree.map hideIdx (if r.holds c then _ else _) = Tree.map hideIdx (if r.holds c then _ else _)
    split <;> rfl
  | jpCc c =>
    unfold cycles0
    refine congrArg (Tree.rd16 r.pc) (funext fun v => congrArg Tree.done ?_)
    show hideIdx (if r.holds c then _ else _, _) = hideIdx (if r.holds c then _ else _, _)
    split <;> rfl
  | incR g | decR g | ldRN g | aluR _ g => cases x <;> cases g <;> rfl
  | ldRR d g => cases x <;> cases d <;> cases g <;> rfl
  | ldRpNn p | incRp p | decRp p | pop p => cases x <;> cases p <;> rfl
  | addHl p | ldHlNn | exSpHl => cases x <;> rfl
  | _ => rfl

theorem idxEd (o : Opt) (k : IEd) (r : Regs) :
    (edCycles (O := O) (R := R) o k r).map hideIdx =
      (edCycles o k { r with idx := .hl }).map hideIdx := by
  have hi : ∀ {r r' : Regs}, { r with idx := .hl } = { r' with idx := .hl } →
      r' = { r with idx := r'.idx } := by
    intro r r' h
    cases r; cases r'
    simp only [Regs.mk.injEq] at h
    simp_all
  cases k with
  | ldAI | ldAR =>
    unfold edCycles ldAIrCycles
    refine congrArg (Tree.idle r.ir 1) ?_
    show Tree.map hideIdx (if (o.early && r.iff1 && r.iff2) = true then _ else _) =
      Tree.map hideIdx (if (o.early && r.iff1 && r.iff2) = true then _ else _)
    split <;> rfl
  | inC g | outC g => cases g <;> rfl
  | ldRpNn p => cases p <;> rfl
  | blk b d rep =>
    have hrep : ∀ (again : Bool) (a : U16) (r r' : Regs) (y : Out O R),
        { r with idx := .hl } = { r' with idx := .hl } →
        (repeatCycles again a r y).map hideIdx = (repeatCycles again a r' y).map hideIdx := by
      intro again a r r' y h
      rw [hi h]
      cases again <;> rfl
    cases b with
    | ld =>
      exact congrArg (Tree.rd r.hl) (funext fun v => congrArg (Tree.wr r.de v)
        (congrArg (Tree.idle r.de 2) (hrep _ _ _ _ _ rfl)))
    | cp =>
      exact congrArg (Tree.rd r.hl) (funext fun v => congrArg (Tree.idle r.hl 5)
        (hrep _ _ _ _ _ rfl))
    | inp =>
      exact congrArg (Tree.idle r.ir 1) (congrArg (Tree.inp r.bc) (funext fun v =>
        congrArg (Tree.wr r.hl v) (hrep _ _ _ _ _ rfl)))
    | out =>
      exact congrArg (Tree.idle r.ir 1) (congrArg (Tree.rd r.hl) (funext fun v =>
        congrArg (Tree.out _ v) (funext fun x => hrep _ _ _ _ _ rfl)))
  | _ => rfl

theorem end_idx {f : Bool} {c c' : Cycles O R} (h : c.map hideIdx = c'.map hideIdx) :
    endCycles f c = endCycles f c' := by
  have hb : ∀ c : Cycles O R, endCycles f c =
      (c.map hideIdx).bind fun e => .done ({ e.1 with idx := .hl, q := e.1.q.map fun _ => f }, e.2) := by
    intro c
    induction c with
    | done a => rfl
    | m1 a ir k ih => exact congrArg (Tree.m1 a ir) (funext ih)
    | idleM1 a k ih => exact congrArg (Tree.idleM1 a) ih
    | rd a k ih => exact congrArg (Tree.rd a) (funext ih)
    | rd16 a k ih => exact congrArg (Tree.rd16 a) (funext ih)
    | skip a k ih => exact congrArg (Tree.skip a) ih
    | wr a v k ih => exact congrArg (Tree.wr a v) ih
    | idle a v k ih => exact congrArg (Tree.idle a v) ih
    | inp a k ih => exact congrArg (Tree.inp a) (funext ih)
    | out a v k ih => exact congrArg (Tree.out a v) (funext ih)
    | reti a k ih => exact congrArg (Tree.reti a) (funext ih)
    | irq k ih => exact congrArg Tree.irq (funext ih)
    | ack a k ih => exact congrArg (Tree.ack a) (funext ih)
  rw [hb, hb, h]

/-- An opcode that does not use HL is executed after a prefix as it is without. -/
theorem idxOp (o : Opt) {op : U8} (h : indexable op = false) (r : Regs) :
    opCycles (O := O) (R := R) o op r = opCycles o op { r with idx := .hl } := by
  by_cases hp : isIxPrefix op = true
  · rw [pfxOp o hp, pfxOp o hp]; rfl
  have hn := imp8 (p := fun op => !indexable op && !isIxPrefix op) (q := fun op => !usesHl (decode op))
    (c := op) (by decide +kernel) (by rw [h]; simpa using hp)
  have hn : usesHl (decode op) = false := by simpa using hn
  unfold opCycles
  generalize decode op = k at hn
  cases k with
  | cb | dd | fd => cases hn
  | ed =>
    refine congrArg (Tree.m1 _ _) (funext fun c => ?_)
    exact end_idx (idxEd o _ _)
  | _ =>
    dsimp only
    rw [cycles0_plain _ _ _ hn]
    exact end_idx (idx0 o _ _ _)

/-- After an instruction no prefix is pending. -/
theorem idxDone (o : Opt) {op : U8} (h : isIxPrefix op = false) (r : Regs) :
    (opCycles (O := O) (R := R) o op r).Ends fun _ e => e.1.idx = .hl := by
  have hd := imp8 (p := fun op => !isIxPrefix op)
    (q := fun op => decide (decode op ≠ .dd ∧ decode op ≠ .fd)) (c := op) (by decide +kernel)
    (by rw [h]; rfl)
  obtain ⟨h1, h2⟩ := of_decide_eq_true hd
  have he : ∀ {f : Bool} {c : Cycles O R}, (endCycles f c).Ends fun _ e => e.1.idx = .hl := by
    intro f c
    rw [ends_end']
    exact ends_iff.2 fun _ _ _ => rfl
  unfold opCycles
  generalize decode op = k at *
  cases k with
  | dd => exact absurd rfl h1
  | fd => exact absurd rfl h2
  | ed => exact fun _ => he
  | cb =>
    dsimp only
    generalize r.idx = x
    cases x with
    | hl => exact fun _ => he
    | ix | iy => exact fun _ _ => he
  | _ => exact he

end Z80
