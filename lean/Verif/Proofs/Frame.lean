import Verif.Spec.Frame
import Verif.Proofs.Wz

/-! # Program counter and unchanged registers of the specified cycles -/

set_option linter.constructorNameAsVariable false

namespace Z80
open Spec
variable {O R : Type}

/-- The value of a register. -/
def Spec.Regs.loc (r : Regs) : Loc → Nat
  | .a => r.a.toNat | .f => r.f.byte.toNat
  | .b => r.b.toNat | .c => r.c.toNat | .d => r.d.toNat | .e => r.e.toNat | .h => r.h.toNat | .l => r.l.toNat
  | .ixh => r.ixh.toNat | .ixl => r.ixl.toNat | .iyh => r.iyh.toNat | .iyl => r.iyl.toNat
  | .a' => r.a'.toNat | .f' => r.f'.byte.toNat
  | .b' => r.b'.toNat | .c' => r.c'.toNat | .d' => r.d'.toNat | .e' => r.e'.toNat | .h' => r.h'.toNat | .l' => r.l'.toNat
  | .sp => r.sp.toNat | .i => r.i.toNat | .r7 => r.r.toNat / 128
  | .iff1 => r.iff1.toNat | .iff2 => r.iff2.toNat | .im => r.im

/-- Everything but `S` is the same. -/
def Keeps (S : List Loc) (r r' : Regs) : Prop := ∀ g, g ∉ S → r'.loc g = r.loc g

theorem mem_elem {g : Loc} {S : List Loc} (h : S.elem g = true) : g ∈ S := List.mem_of_elem_eq_true h

macro "keeps" : tactic => `(tactic| (intro g hg; cases g <;> first | exact absurd (mem_elem rfl) hg | rfl))

theorem Keeps.refl (S : List Loc) (r : Regs) : Keeps S r r := fun _ _ => rfl

theorem keeps_set (r : Regs) (x : Ix) (g : Spec.R) (v : U8) : Keeps (g.locs x) r (r.set x g v) := by
  cases g <;> cases x <;> keeps
theorem keeps_setXhl (r : Regs) (x : Ix) (v : U16) : Keeps x.locs r (r.setXhl x v) := by cases x <;> keeps
theorem keeps_setRp (r : Regs) (x : Ix) (p : RP) (v : U16) : Keeps (p.locs x) r (r.setRp x p v) := by
  cases p <;> cases x <;> keeps
theorem keeps_setSp2 (r : Regs) (x : Ix) (p : SP) (v : U16) : Keeps (p.locs x) r (r.setSp2 x p v) := by
  cases p <;> cases x <;> keeps
theorem keeps_alu (r : Regs) (k : Alu) (v : U8) : Keeps k.locs r (r.setAF (aluOp k r.a v r.f)) := by
  cases k <;> keeps

/-- Changing flags as well, and registers that are not in the list. -/
theorem Keeps.flags {S : List Loc} {r r' : Regs} (h : Keeps S r r') (f : Fl) (w pc : U16) :
    Keeps (.f :: S) r { r' with f := f, wz := w, pc := pc } := by
  intro g hg
  have h' := h g fun hs => hg (.tail _ hs)
  cases g
  case f => exact absurd (.head _) hg
  all_goals exact h'

theorem Keeps.other {S : List Loc} {r r' : Regs} (h : Keeps S r r') (w pc : U16) :
    Keeps S r { r' with wz := w, pc := pc } := by
  intro g hg
  have h' := h g hg
  cases g <;> exact h'

theorem Keeps.other' {S : List Loc} {r r' : Regs} (w pc : U16) (h : Keeps S { r with wz := w, pc := pc } r') :
    Keeps S r r' := by
  intro g hg
  have h' := h g hg
  cases g <;> exact h'

theorem Keeps.sp {S : List Loc} {r r' : Regs} (sp : U16) (h : Keeps S { r with sp := sp } r') :
    Keeps (.sp :: S) r r' := by
  intro g hg
  have h' := h g fun hs => hg (.tail _ hs)
  cases g
  case sp => exact absurd (.head _) hg
  all_goals exact h'

theorem keeps_operand {x : Ix} {r : Regs} {k : U16 → Regs → Cycles O R} {S : List Loc}
    (h : ∀ a w pc, (k a { r with wz := w, pc := pc }).Ends fun _ e => Keeps S r e.1) :
    (operand x r k).Ends fun _ e => Keeps S r e.1 := by
  cases x
  · exact h _ _ _
  · exact fun d => h _ _ _
  · exact fun d => h _ _ _

theorem and8_self (a : U8) : (and8 a a).1 = a := by
  simpa using all8_spec (p := fun a => (and8 a a).1 == a) (by decide +kernel) a
theorem or8_self (a : U8) : (or8 a a).1 = a := by
  simpa using all8_spec (p := fun a => (or8 a a).1 == a) (by decide +kernel) a

theorem keeps0 (o : Opt) (x : Ix) (k : I0) (r : Regs) :
    (cycles0 (O := O) (R := R) o x k r).Ends fun _ e => Keeps (changes0 x k) r e.1 := by
  cases k with
  | djnz =>
    show (if r.b - 1 ≠ 0 then _ else _ : Cycles O R).Ends _
    split
    · intro v
      keeps
    · show Keeps _ _ _
      keeps
  | jrCc c | retCc c | jpCc c | callCc c =>
    cases h : r.holds c <;>
      simp only [cycles0, h, relCycles, popCycles, pushCycles, fin, Tree.Ends, Bool.false_eq_true, if_true, if_false] <;>
        first | (intro v; keeps) | keeps
  | incR g | decR g =>
    cases g
    case m =>
      simp only [cycles0]
      refine keeps_operand fun a w pc v => ?_
      exact (Keeps.refl _ r).flags _ _ _
    all_goals exact (keeps_set r x _ _).flags _ _ _
  | ldRN g =>
    cases g
    case m =>
      cases x
      · exact fun _ => (Keeps.refl _ r).other _ _
      · exact fun _ _ => (Keeps.refl _ r).other _ _
      · exact fun _ _ => (Keeps.refl _ r).other _ _
    all_goals first
      | exact fun v => (keeps_set r x .b v).other _ _
      | exact fun v => (keeps_set r x .c v).other _ _
      | exact fun v => (keeps_set r x .d v).other _ _
      | exact fun v => (keeps_set r x .e v).other _ _
      | exact fun v => (keeps_set r x .h v).other _ _
      | exact fun v => (keeps_set r x .l v).other _ _
      | exact fun v => (keeps_set r x .a v).other _ _
  | aluR k g =>
    cases g
    case m =>
      simp only [cycles0, changes0, reduceCtorEq, false_and, reduceIte]
      refine keeps_operand fun a w pc v => ?_
      exact Keeps.other' w pc (keeps_alu _ k v)
    case a =>
      cases k
      case and =>
        intro g hg
        cases g
        case a => exact congrArg BitVec.toNat (and8_self r.a)
        all_goals first | exact absurd (mem_elem rfl) hg | rfl
      case or =>
        intro g hg
        cases g
        case a => exact congrArg BitVec.toNat (or8_self r.a)
        all_goals first | exact absurd (mem_elem rfl) hg | rfl
      all_goals
        simp only [cycles0, changes0, reduceCtorEq, false_or, or_false, and_false, reduceIte]
        exact keeps_alu r _ _
    all_goals
      simp only [cycles0, changes0, reduceCtorEq, false_and, reduceIte]
      exact keeps_alu r k _
  | aluN k => exact fun v => (keeps_alu r k v).other _ _
  | ldRR d g =>
    cases d
    case m => 
      refine keeps_operand (k := fun a r' => .wr a (r.get .hl g) (fin r')) fun a w pc => ?_
      exact (Keeps.refl _ r).other _ _
    all_goals
      cases g
      case m =>
        simp only [cycles0, changes0, reduceIte, reduceCtorEq]
        refine keeps_operand fun a w pc v => ?_
        exact Keeps.other' w pc (keeps_set _ .hl _ v)
      all_goals
        simp only [cycles0, changes0, reduceIte, reduceCtorEq]
        first
        | exact keeps_set r x _ _
        | exact fun g _ => by cases x <;> cases g <;> rfl
  | ldRpNn p => exact fun v => (keeps_setRp r x p v).other _ _
  | incRp p | decRp p => exact (keeps_setRp r x p _)
  | addHl p => exact (keeps_setXhl r x _).flags _ _ _
  | ldHlNn => exact fun a v => (keeps_setXhl r x _).other _ _
  | exSpHl => exact fun v => (keeps_setXhl r x _).other _ _
  | pop p => exact fun v => Keeps.sp _ (keeps_setSp2 { r with sp := r.sp + 2 } x p v)
  | nop | exAf | exx | exDeHl | accRot k | daa | cpl | scf | ccf | halt | jpHl | ldSpHl | di | ei | cb | dd | ed | fd =>
    show Keeps _ _ _
    keeps
  | ldRpA p =>
    show Keeps _ _ _
    keeps
  | push p =>
    show Keeps _ _ _
    keeps
  | rst p =>
    show Keeps _ _ _
    keeps
  | jr | ldARp | ldNnHl | ldNnA | ret | jp | call =>
    intro v
    keeps
  | ldANn =>
    intro v w
    keeps
  | outNA | inAN =>
    intro v w n
    keeps

theorem keepsCb (k : ICb) (r : Regs) :
    (cbCycles (O := O) (R := R) k r).Ends fun _ e => Keeps (changesCb k) r e.1 := by
  rcases k with ⟨k, g⟩ | ⟨n, g⟩ | ⟨n, g⟩ | ⟨n, g⟩
  · cases g
    case m => exact fun v => (Keeps.refl _ r).flags _ _ _
    all_goals exact (keeps_set r .hl _ _).flags _ _ _
  · cases g
    case m => exact fun v => (Keeps.refl _ r).flags _ _ _
    all_goals exact (Keeps.refl _ r).flags _ _ _
  all_goals
    cases g
    case m => exact fun v => Keeps.refl _ r
    all_goals
      simp only [cbCycles, changesCb]
      exact keeps_set r .hl _ _

theorem keepsXCb (k : ICb) (a : U16) (r : Regs) :
    (xcbCycles (O := O) (R := R) k a r).Ends fun _ e => Keeps (changesCb k) r e.1 := by
  rcases k with ⟨k, g⟩ | ⟨n, g⟩ | ⟨n, g⟩ | ⟨n, g⟩
  · exact fun v => (keeps_set r .hl _ _).flags _ _ _
  · exact fun v => (Keeps.refl _ r).flags _ _ _
  all_goals exact fun v => keeps_set r .hl _ _

theorem keepsEd (o : Opt) (k : IEd) (r : Regs) :
    (edCycles (O := O) (R := R) o k r).Ends fun _ e => Keeps (changesEd k) r e.1 := by
  cases k with
  | blk b d rep =>
    cases b <;> simp only [edCycles, blkCycles, repeatCycles, Tree.Ends] <;> intros <;> split <;> simp only [Tree.Ends] <;>
      keeps
  | ldAI | ldAR =>
    simp only [edCycles, ldAIrCycles, Tree.Ends]
    split
    · intro b
      keeps
    · show Keeps _ _ _
      keeps
  | inC g => exact fun v n => (keeps_set r .hl g v).flags _ _ _
  | ldRpNn p => exact fun v w => (keeps_setRp r .hl p w).other _ _
  | sbcHl p | adcHl p | nop | neg | im n | ldIA | ldRA =>
    show Keeps _ _ _
    keeps
  | rld | rrd | retn =>
    intro v
    keeps
  | outC g | reti =>
    intro v w
    keeps
  | ldNnRp p =>
    intro v
    keeps

/-! ### The program counter -/

theorem pc_setXhl (r : Regs) (x : Ix) (v : U16) : (r.setXhl x v).pc = r.pc := by cases x <;> rfl
theorem pc_set (r : Regs) (x : Ix) (g : Spec.R) (v : U8) : (r.set x g v).pc = r.pc := by
  cases g <;> cases x <;> rfl
theorem pc_setRp (r : Regs) (x : Ix) (p : RP) (v : U16) : (r.setRp x p v).pc = r.pc := by
  cases p <;> cases x <;> rfl
theorem pc_setSp2 (r : Regs) (x : Ix) (p : SP) (v : U16) : (r.setSp2 x p v).pc = r.pc := by
  cases p <;> cases x <;> rfl

macro "pc_tac" : tactic => `(tactic|
  (simp [cycles0, relCycles, operand, pushCycles, popCycles, modifyCycles, fin, Tree.Ends, pc0, relTarget, I0.operands,
    I0.memory, Regs.skip, Regs.setAF, Regs.goto, Regs.wzStore, pc_setXhl, pc_set, pc_setRp, pc_setSp2, bytesRead,
    wordsRead]))

theorem pcOk0 (o : Opt) (x : Ix) (k : I0) (r : Regs) (hk : notPrefix k) :
    (cycles0 (O := O) (R := R) o x k r).Ends fun l e =>
      e.1.pc = pc0 x k r (bytesRead l) (wordsRead l) := by
  cases k with
  | djnz =>
    by_cases h : r.b = 1#8
    · simp [cycles0, h, fin, Tree.Ends, pc0, Regs.skip]
    · have := (sub_one_ne r.b).2 h
      simp [cycles0, h, this, relCycles, fin, Tree.Ends, pc0, relTarget, Regs.goto, bytesRead]
  | jrCc c | retCc c | jpCc c | callCc c =>
    cases h : r.holds c <;>
      simp [cycles0, h, relCycles, popCycles, pushCycles, fin, Tree.Ends, pc0, relTarget, Regs.goto, Regs.skip, bytesRead,
        wordsRead]
  | incR g | decR g | ldRN g | aluR _ g => cases x <;> cases g <;> pc_tac
  | ldRR d g => cases x <;> cases d <;> cases g <;> pc_tac
  | cb | ed => exact absurd hk Bool.false_ne_true
  | _ => pc_tac

theorem pcOkCb (k : ICb) (r : Regs) :
    (cbCycles (O := O) (R := R) k r).Ends fun _ e => e.1.pc = r.pc := by
  rcases k with ⟨k, g⟩ | ⟨n, g⟩ | ⟨n, g⟩ | ⟨n, g⟩ <;> cases g <;>
    (simp only [cbCycles, modifyCycles, fin, Tree.Ends]; try intros) <;> first | trivial | rfl

theorem pcOkXCb (k : ICb) (a : U16) (r : Regs) :
    (xcbCycles (O := O) (R := R) k a r).Ends fun _ e => e.1.pc = r.pc := by
  rcases k with ⟨k, g⟩ | ⟨n, g⟩ | ⟨n, g⟩ | ⟨n, g⟩ <;> cases g <;>
    (simp only [xcbCycles, modifyCycles, fin, Tree.Ends]; try intros) <;> first | trivial | rfl

theorem pcOkEd (o : Opt) (k : IEd) (r : Regs) :
    (edCycles (O := O) (R := R) o k (r.bumpR.skip 1)).Ends fun l e =>
      e.1.pc = pcEd k r (bytesRead l) (wordsRead l) := by
  have hp : ∀ n : U16, n + 1#16 - 2#16 = n - 1#16 := fun n => by bv_omega
  have hbc : (r.bumpR.skip 1).bc = r.bc := rfl
  have hb : (r.bumpR.skip 1).b = r.b := rfl
  have hpc : (r.bumpR.skip 1).pc = r.pc + 1#16 := rfl
  have ha : (r.bumpR.skip 1).a = r.a := rfl
  cases k with
  | blk b d rep =>
    have hs : ∀ (r : Regs) v, (r.setXhl .hl v).pc = r.pc := fun _ _ => rfl
    have hs' : ∀ (r : Regs) v, (r.setBc v).pc = r.pc := fun _ _ => rfl
    have hs'' : ∀ (r : Regs) v, (r.setDe v).pc = r.pc := fun _ _ => rfl
    cases b with
    | ld =>
      intro v
      by_cases h : r.bc = 1#16
      · cases rep <;> simp [h, hs, hs', hs'', hbc, hpc, repeatCycles, Tree.Ends, pcEd, again, IEd.operands]
      · have := (sub_one_ne16 r.bc).2 h
        cases rep <;>
          simp [h, hs, hs', hs'', this, hbc, hpc, hp, repeatCycles, Tree.Ends, pcEd, again, IEd.operands]
    | cp =>
      intro v
      by_cases h : r.bc = 1#16
      · cases rep <;> simp [h, hs, hs', hs'', hbc, hpc, repeatCycles, Tree.Ends, pcEd, again, IEd.operands]
      · have h2 := (sub_one_ne16 r.bc).2 h
        by_cases hv : r.a = v
        · cases rep <;>
            simp [h, h2, hs, hs', ha, hv, hbc, hpc, hp, repeatCycles, Tree.Ends, pcEd, again, IEd.operands, bytesRead]
        · cases rep <;>
            simp [h, h2, hs, hs', ha, hv, hbc, hpc, hp, repeatCycles, Tree.Ends, pcEd, again, IEd.operands, bytesRead]
    | inp | out =>
      simp only [edCycles, blkCycles]
      by_cases h : r.b = 1#8
      · cases rep <;> simp [h, hb, hs, hpc, repeatCycles, Tree.Ends, pcEd, again, IEd.operands]
      · have h2 := (sub_one_ne r.b).2 h
        cases rep <;> simp [h, h2, hb, hs, hpc, hp, repeatCycles, Tree.Ends, pcEd, again, IEd.operands]
  | ldAI | ldAR =>
    simp only [edCycles, ldAIrCycles, Tree.Ends]
    split
    · exact fun _ => rfl
    · rfl
  | inC g => exact fun v w => pc_set _ _ _ _
  | ldRpNn p =>
    intro v w
    show (Regs.skip _ 2).pc = r.pc + 3#16
    show (Regs.setRp _ .hl p w).pc + 2#16 = r.pc + 3#16
    rw [pc_setRp, hpc, BitVec.add_assoc]
    rfl
  | sbcHl p | adcHl p | nop | neg | im n | ldIA | ldRA => exact rfl
  | rld | rrd | retn => exact fun v => rfl
  | outC g | reti => exact fun v w => rfl
  | ldNnRp p =>
    intro v
    show r.pc + 1#16 + 2#16 = r.pc + 3#16
    rw [BitVec.add_assoc]
    rfl

/-! ### Instructions and steps -/

theorem ends_and {T : Cycles O R} {P Q : List Cyc → Res' O R → Prop} (h : T.Ends P) (h' : T.Ends Q) :
    T.Ends fun l e => P l e ∧ Q l e :=
  ends_iff.2 fun _ _ hp => ⟨ends_path h hp, ends_path h' hp⟩

theorem loc_end (r : Regs) (x : Ix) (q : Option Bool) (g : Loc) : ({ r with idx := x, q := q } : Regs).loc g = r.loc g := by
  cases g <;> rfl
theorem loc_start (r : Regs) (y : Ix) (g : Loc) :
    ({ r with ei := false, halted := false, idx := y } : Regs).loc g = r.loc g := by
  cases g <;> rfl
theorem loc_wz (r : Regs) (w pc : U16) (g : Loc) : ({ r with wz := w, pc := pc } : Regs).loc g = r.loc g := by
  cases g <;> rfl
theorem loc_bump (r : Regs) (g : Loc) : r.bumpR.loc g = r.loc g := by
  cases g
  case r7 =>
    show (BitVec.ofNat 8 (r.r.toNat / 128 * 128 + (r.r.toNat % 128 + 1) % 128)).toNat / 128 = r.r.toNat / 128
    rw [BitVec.toNat_ofNat]
    have := r.r.isLt
    omega
  all_goals rfl

/-- The rest of an instruction between its start and its end. -/
theorem Keeps.op {S : List Loc} {r r' : Regs} {x : Ix} {q : Option Bool} {y : Ix}
    (h : Keeps S { r with ei := false, halted := false, idx := y } r') : Keeps S r { r' with idx := x, q := q } :=
  fun g hg => (loc_end r' x q g).trans ((h g hg).trans (loc_start r y g))

theorem Keeps.m1 {S : List Loc} {r r' : Regs} (h : Keeps S (r.bumpR.skip 1) r') : Keeps S r r' := fun g hg =>
  (h g hg).trans ((loc_wz r.bumpR _ _ g).trans (loc_bump r g))

theorem frameOp (o : Opt) (op : U8) (r : Regs) :
    (opCycles (O := O) (R := R) o op r).Ends fun l e =>
      e.1.pc = pcAfter op r (opcodes l) (bytesRead l) (wordsRead l) ∧
      Keeps (changes op r (opcodes l) (bytesRead l)) r e.1 := by
  have h0 : ∀ k, decode op = k → notPrefix k → (opCycles (O := O) (R := R) o op r).Ends fun l e =>
      e.1.pc = pc0 r.idx k r (bytesRead l) (wordsRead l) ∧ Keeps (changes0 r.idx k) r e.1 := by
    intro k hd hk
    have e : opCycles (O := O) (R := R) o op r = endCycles (f0 k) (cycles0 o r.idx k
        { r with ei := false, halted := false }) := by
      unfold opCycles
      simp only [hd]
      cases k <;> first | exact absurd hk Bool.false_ne_true | rfl
    rw [e]
    refine ends_end'.2 ?_
    exact ends_mono (ends_and (pcOk0 o r.idx k _ hk) (keeps0 o r.idx k _)) fun l e h => ⟨h.1, h.2.op⟩
  unfold pcAfter changes
  cases hd : decode op with
  | dd | fd =>
    unfold opCycles
    simp only [hd]
    refine ⟨?_, fun g _ => rfl⟩
    show r.pc = r.pc + BitVec.ofNat 16 (0 + if _ then 1 else 0)
    rw [if_neg (fun h => Bool.false_ne_true h.2)]
    exact (BitVec.add_zero _).symm
  | ed =>
    unfold opCycles
    simp only [hd]
    intro v
    refine ends_end'.2 ?_
    exact ends_mono (ends_and (pcOkEd o _ _) (keepsEd o _ _)) fun l e h => ⟨h.1, h.2.m1.op⟩
  | cb =>
    unfold opCycles
    simp only [hd]
    cases hx : r.idx with
    | hl =>
      intro v
      refine ends_end'.2 ?_
      exact ends_mono (ends_and (pcOkCb _ _) (keepsCb _ _)) fun l e h => ⟨h.1, h.2.m1.op⟩
    | ix | iy =>
      intro d v
      simp only [Tree.Ends]
      refine ends_end'.2 ?_
      refine ends_mono (ends_and (pcOkXCb _ _ _) (keepsXCb _ _ _)) fun l e h => ⟨h.1, ?_⟩
      first
      | exact Keeps.op (r := r) (y := .ix) (h.2.other' _ _)
      | exact Keeps.op (r := r) (y := .iy) (h.2.other' _ _)
  | _ => exact h0 _ hd rfl

theorem frameIrq (o : Opt) (r : Regs) {l : List Cyc} {e : Res' O R} (h : (irqCycles o r).Path l e) :
    e.1.pc = pcStep r (acks l) (opcodes l) (bytesRead l) (wordsRead l) ∧
    Keeps (changesStep r (acks l) (opcodes l) (bytesRead l)) r e.1 := by
  have hi : (wake r).im = r.im := by unfold wake; split <;> rfl
  have hx : ∀ op ops bytes, changes op (wake r) ops bytes = changes op r ops bytes := by
    unfold wake; split <;> (intros; rfl)
  have hl : ∀ g, (wake r).loc g = r.loc g := by
    unfold wake; split <;> (intro g; cases g <;> rfl)
  unfold irqCycles at h
  rw [wakeBump] at h
  dsimp only at h
  cases h with
  | @ack _ _ v x l _ h =>
    show e.1.pc = (match r.im with
      | 0 => pcAfter v (wake r) (opcodes l) (bytesRead l) (wordsRead l)
      | 1 => 0x38
      | _ => (wordsRead l).headD 0) ∧
      Keeps (.iff1 :: .iff2 :: if r.im = 0 then changes v r (opcodes l) (bytesRead l) else [.sp]) r e.1
    generalize hw : ({ wake r with iff1 := false, iff2 := false, ei := false }.bumpR : Regs) = w at h
    have hwi : w.im = r.im := by rw [← hw]; exact hi
    have hwp : ∀ ops bytes words, pcAfter v w ops bytes words = pcAfter v (wake r) ops bytes words := by
      rw [← hw]; intros; rfl
    have hwx : ∀ ops bytes, changes v w ops bytes = changes v r ops bytes := by
      rw [← hw]; exact hx v
    have hwl : ∀ g, g ≠ .iff1 → g ≠ .iff2 → w.loc g = r.loc g := by
      intro g h1 h2
      rw [← hw, loc_bump, ← hl]
      cases g <;> first | rfl | exact absurd rfl h1 | exact absurd rfl h2
    have hk : ∀ {S}, Keeps S w e.1 → Keeps (.iff1 :: .iff2 :: S) r e.1 := fun h g hg =>
      (h g fun hs => hg (.tail _ (.tail _ hs))).trans
        (hwl g (fun he => hg (he ▸ .head _)) fun he => hg (he ▸ .tail _ (.head _)))
    rw [hwi] at h
    rcases hm : r.im with _ | _ | n
    · rw [hm] at h
      have h' := ends_path (frameOp o v _) h
      exact ⟨h'.1.trans (hwp _ _ _), hk (hwx _ _ ▸ h'.2)⟩
    · rw [hm] at h
      have h' : e.1.pc = 0x38#16 ∧ Keeps [.sp] w e.1 := by
        refine ends_path (P := fun _ e => e.1.pc = 0x38#16 ∧ Keeps [.sp] w e.1) ?_ h
        simp only [endCycles, Tree.bind, pushCycles, fin, Tree.Ends]
        exact ⟨rfl, by keeps⟩
      exact ⟨h'.1, hk h'.2⟩
    · rw [hm] at h
      have h' : e.1.pc = (wordsRead l).headD 0 ∧ Keeps [.sp] w e.1 := by
        refine ends_path (P := fun l e => e.1.pc = (wordsRead l).headD 0 ∧ Keeps [.sp] w e.1) ?_ h
        simp only [endCycles, Tree.bind, pushCycles, fin, Tree.Ends]
        exact fun _ => ⟨rfl, by keeps⟩
      exact ⟨h'.1, hk h'.2⟩

theorem frameStep (o : Opt) (r : Regs) {l : List Cyc} {e : Res' O R}
    (h : (stepCycles o r).Path l e) :
    e.1.pc = pcStep r (acks l) (opcodes l) (bytesRead l) (wordsRead l) ∧
    Keeps (changesStep r (acks l) (opcodes l) (bytesRead l)) r e.1 := by
  have go : ∀ {l : List Cyc}, (if r.halted then .idleM1 r.pc (fin r.bumpR) else fetchCycles o r :
      Cycles O R).Path l e →
      e.1.pc = pcStep r (acks l) (opcodes l) (bytesRead l) (wordsRead l) ∧
      Keeps (changesStep r (acks l) (opcodes l) (bytesRead l)) r e.1 := by
    intro l h
    cases hh : r.halted with
    | true =>
      rw [hh] at h
      cases h with
      | idleM1 h =>
        cases h
        exact ⟨rfl, fun g _ => loc_bump r g⟩
    | false =>
      rw [hh] at h
      cases h with
      | @m1 _ _ _ op l _ h =>
        have h1 := ends_path (frameOp o op _) h
        have h2 : acks l = [] := ends_path (noAck o op _) h
        show _ = pcStep r (acks l) (op :: opcodes l) (bytesRead l) (wordsRead l) ∧
          Keeps (changesStep r (acks l) (op :: opcodes l) (bytesRead l)) r e.1
        rw [h2]
        exact ⟨h1.1, h1.2.m1⟩
  unfold stepCycles at h
  dsimp only at h
  split at h
  · cases h with
    | @irq _ b l _ h =>
      cases b with
      | true => exact frameIrq o r (l := l) h
      | false => exact go (l := l) h
  · exact go h

theorem frameNmi (r : Regs) {l : List Cyc} {e : Res' O R} (h : (nmiCycles r).Path l e) :
    e.1.pc = 0x66#16 ∧ Keeps [.sp, .iff1] r e.1 := by
  have hl : ∀ g, (wake { r with iff1 := false, ei := false }.bumpR).loc g =
      ({ r with iff1 := false, ei := false } : Regs).loc g := by
    intro g
    refine Eq.trans ?_ (loc_bump _ g)
    unfold wake; split <;> cases g <;> rfl
  refine ends_path (P := fun _ e => e.1.pc = 0x66#16 ∧ Keeps [.sp, .iff1] r e.1) ?_ h
  simp only [nmiCycles, pushCycles, fin, Tree.Ends]
  refine ⟨rfl, fun g hg => ?_⟩
  have h := hl g
  cases g <;> first | exact absurd (mem_elem rfl) hg | exact h

theorem pc_straight {op : U8} {r : Regs} {ops bytes : List U8} {words : List U16}
    (h : straight op (ops.headD 0) = true) :
    pcAfter op { r with pc := r.pc + 1 } ops bytes words =
      r.pc + BitVec.ofNat 16 (length (decide (r.idx ≠ .hl)) op (ops.headD 0)) := by
  unfold straight at h
  have key : ∀ n : Nat, r.pc + 1#16 + BitVec.ofNat 16 n = r.pc + BitVec.ofNat 16 (1 + n) := fun n => by
    rw [BitVec.ofNat_add, BitVec.add_assoc]
  have e : ∀ k : I0, k.jumps = false → pc0 r.idx k { r with pc := r.pc + 1 } bytes words =
      r.pc + 1#16 + BitVec.ofNat 16 (k.operands + if r.idx ≠ .hl ∧ k.memory then 1 else 0) := by
    intro k hk
    cases k <;> first | rfl | exact absurd hk.symm Bool.false_ne_true
  have e' : ∀ k : I0, 1 + k.operands + 0 + (if (decide (r.idx ≠ .hl) && k.memory) = true then 1 else 0) =
      1 + (k.operands + if r.idx ≠ .hl ∧ k.memory = true then 1 else 0) := by
    intro k
    rw [Nat.add_zero, Nat.add_assoc]
    simp only [Bool.and_eq_true, decide_eq_true_eq]
  unfold pcAfter length
  cases hd : decode op with
  | ed =>
    rw [hd] at h
    dsimp only
    generalize decodeEd (ops.headD 0) = k at h ⊢
    have e : pcEd k { r with pc := r.pc + 1 } bytes words = r.pc + 1#16 + BitVec.ofNat 16 (1 + k.operands) := by
      cases k with
      | retn | reti => exact absurd h (by decide)
      | blk b d rep => cases rep with
        | true => exact absurd h Bool.false_ne_true
        | false => cases b <;> rfl
      | _ => rfl
    rw [e, key]
    rw [if_pos rfl, show I0.memory .ed = false from rfl, Bool.and_false]
    show _ = r.pc + BitVec.ofNat 16 (1 + 1 + k.operands + 0)
    rw [Nat.add_zero, Nat.add_assoc]
  | cb =>
    dsimp only
    split
    · next hx => rw [hx]; exact key 1
    · next hx => rw [decide_eq_true hx]; exact key 2
  | _ =>
    rw [hd] at h
    dsimp only
    rw [if_neg (by intro h; cases h), e', ← key]
    refine e _ ?_
    first | rfl | exact absurd h Bool.false_ne_true
end Z80
