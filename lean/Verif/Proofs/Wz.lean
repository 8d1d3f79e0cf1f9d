import Verif.Spec.Wz
import Verif.Proofs.Writes

/-! # MEMPTR and flag history of the specified cycles -/

set_option linter.constructorNameAsVariable false

namespace Z80
open Spec
variable {O R : Type}

theorem ends_end' {f : Bool} {c : Cycles O R} {P : List Cyc → Res' O R → Prop} :
    (endCycles f c).Ends P ↔ c.Ends fun l e =>
      P l ({ e.1 with idx := .hl, q := e.1.q.map fun _ => f }, e.2) := by
  unfold endCycles
  rw [ends_bind]
  simp only [Tree.Ends, List.append_nil]

theorem wz_setXhl (r : Regs) (x : Ix) (v : U16) : (r.setXhl x v).wz = r.wz := by cases x <;> rfl
theorem wz_set (r : Regs) (x : Ix) (g : Spec.R) (v : U8) : (r.set x g v).wz = r.wz := by
  cases g <;> cases x <;> rfl
theorem wz_setRp (r : Regs) (x : Ix) (p : RP) (v : U16) : (r.setRp x p v).wz = r.wz := by
  cases p <;> cases x <;> rfl
theorem wz_setSp2 (r : Regs) (x : Ix) (p : SP) (v : U16) : (r.setSp2 x p v).wz = r.wz := by
  cases p <;> cases x <;> rfl

macro "wz_tac" : tactic => `(tactic|
  ((simp only [cycles0, relCycles, operand, pushCycles, popCycles, modifyCycles, fin, Tree.Ends,
    Regs.skip, Regs.setAF, Regs.goto, wz_setXhl, wz_set, wz_setRp, wz_setSp2]; try intros) <;> rfl))

theorem wzOk0 (o : Opt) (x : Ix) (k : I0) (r : Regs) :
    (cycles0 (O := O) (R := R) o x k r).Ends fun l e =>
      e.1.wz = wz0 o x k r (bytesRead l) (wordsRead l) := by
  cases k with
  | djnz =>
    by_cases h : r.b = 1#8
    · simp [cycles0, h, relCycles, fin, Tree.Ends, wz0, Regs.skip]
    · have := (sub_one_ne r.b).2 h
      simp [cycles0, h, this, relCycles, fin, Tree.Ends, wz0, Regs.goto, bytesRead]
  | jrCc c | retCc c | jpCc c | callCc c =>
    cases h : r.holds c <;>
      simp [cycles0, h, relCycles, popCycles, pushCycles, fin, Tree.Ends, wz0, Regs.goto, Regs.skip, bytesRead, wordsRead]
  | incR g | decR g | ldRN g | aluR _ g => cases x <;> cases g <;> wz_tac
  | ldRR d g => cases x <;> cases d <;> cases g <;> wz_tac
  | _ => wz_tac

theorem wzOkCb (k : ICb) (r : Regs) :
    (cbCycles (O := O) (R := R) k r).Ends fun _ e => e.1.wz = r.wz := by
  rcases k with ⟨k, g⟩ | ⟨n, g⟩ | ⟨n, g⟩ | ⟨n, g⟩ <;> cases g <;>
    (simp only [cbCycles, modifyCycles, fin, Tree.Ends]; try intros) <;> first | trivial | rfl

theorem wzOkXCb (k : ICb) (a : U16) (r : Regs) :
    (xcbCycles (O := O) (R := R) k a r).Ends fun _ e => e.1.wz = r.wz := by
  rcases k with ⟨k, g⟩ | ⟨n, g⟩ | ⟨n, g⟩ | ⟨n, g⟩ <;> cases g <;>
    (simp only [xcbCycles, modifyCycles, fin, Tree.Ends]; try intros) <;> first | trivial | rfl

theorem wzOkEd (o : Opt) (k : IEd) (r : Regs) :
    (edCycles (O := O) (R := R) o k (r.bumpR.skip 1)).Ends fun l e =>
      e.1.wz = wzEd k r (bytesRead l) (wordsRead l) := by
  have hp : ∀ n : U16, n + 1#16 - 1#16 = n := fun n => by bv_omega
  have hbc : (r.bumpR.skip 1).bc = r.bc := rfl
  have hpc : (r.bumpR.skip 1).pc = r.pc + 1#16 := rfl
  have hwz : (r.bumpR.skip 1).wz = r.wz := rfl
  have ha : (r.bumpR.skip 1).a = r.a := rfl
  cases k with
  | blk b d rep =>
    cases b with
    | ld =>
      intro v
      by_cases h : r.bc = 1#16
      · cases rep <;> simp [h, hbc, hwz, repeatCycles, Tree.Ends, wzEd, again]
      · have := (sub_one_ne16 r.bc).2 h
        cases rep <;>
          simp [h, this, hbc, hwz, hpc, hp, repeatCycles, Tree.Ends, wzEd, again]
    | cp =>
      intro v
      by_cases h : r.bc = 1#16
      · cases rep <;> cases d <;> simp [h, hbc, hwz, repeatCycles, Tree.Ends, wzEd, again, stepPtr]
      · have h2 := (sub_one_ne16 r.bc).2 h
        by_cases hv : r.a = v
        · cases rep <;> cases d <;>
            simp [h, h2, ha, hv, hbc, hwz, hpc, hp, repeatCycles, Tree.Ends, wzEd, again, stepPtr, bytesRead]
        · cases rep <;> cases d <;>
            simp [h, h2, ha, hv, hbc, hwz, hpc, hp, repeatCycles, Tree.Ends, wzEd, again, stepPtr, bytesRead]
    | inp | out =>
      simp only [edCycles, blkCycles, repeatCycles, Tree.Ends]
      intros
      split <;> rfl
  | ldAI | ldAR =>
    simp only [edCycles, ldAIrCycles, Tree.Ends]
    split
    · exact fun _ => rfl
    · rfl
  | inC g => exact fun v w => rfl
  | ldRpNn p => exact fun v w => rfl
  | sbcHl p | adcHl p | nop | neg | im n | ldIA | ldRA => exact rfl
  | rld | rrd | retn => exact fun v => rfl
  | outC g | reti => exact fun v w => rfl
  | ldNnRp p => exact fun v => rfl

theorem wzOkOp (o : Opt) (op : U8) (r : Regs) :
    (opCycles (O := O) (R := R) o op r).Ends fun l e =>
      e.1.wz = wzAfter o op r (opcodes l) (bytesRead l) (wordsRead l) := by
  have h0 : ∀ k, decode op = k → notPrefix k → (opCycles (O := O) (R := R) o op r).Ends fun l e =>
      e.1.wz = wz0 o r.idx k r (bytesRead l) (wordsRead l) := by
    intro k hd hk
    have e : opCycles (O := O) (R := R) o op r = endCycles (f0 k) (cycles0 o r.idx k
        { r with ei := false, halted := false }) := by
      unfold opCycles
      simp only [hd]
      cases k <;> first | exact absurd hk Bool.false_ne_true | rfl
    rw [e]
    refine ends_end'.2 ?_
    refine ends_mono (wzOk0 o r.idx k _) fun l _ h => ?_
    refine h.trans ?_
    cases k <;> rfl
  unfold wzAfter
  cases hd : decode op with
  | dd | fd =>
    unfold opCycles
    simp only [hd]
    rfl
  | ed =>
    unfold opCycles
    simp only [hd]
    intro v
    refine ends_end'.2 ?_
    refine ends_mono (wzOkEd o _ _) fun l _ h => ?_
    refine h.trans ?_
    show wzEd (decodeEd v) _ _ _ = wzEd (decodeEd v) r (bytesRead l) (wordsRead l)
    cases decodeEd v <;> rfl
  | cb =>
    unfold opCycles
    simp only [hd]
    cases hx : r.idx with
    | hl =>
      intro v
      refine ends_end'.2 ?_
      refine ends_mono (wzOkCb _ _) fun l _ h => ?_
      exact h
    | ix | iy =>
      intro d v
      simp only [Tree.Ends]
      refine ends_end'.2 ?_
      refine ends_mono (wzOkXCb _ _ _) fun l _ h => ?_
      exact h
  | _ => exact h0 _ hd rfl


/-! ### Flag history -/

theorem q_setXhl (r : Regs) (x : Ix) (v : U16) : (r.setXhl x v).q = r.q := by cases x <;> rfl
theorem q_set (r : Regs) (x : Ix) (g : Spec.R) (v : U8) : (r.set x g v).q = r.q := by
  cases g <;> cases x <;> rfl
theorem q_setRp (r : Regs) (x : Ix) (p : RP) (v : U16) : (r.setRp x p v).q = r.q := by
  cases p <;> cases x <;> rfl
theorem q_setSp2 (r : Regs) (x : Ix) (p : SP) (v : U16) : (r.setSp2 x p v).q = r.q := by
  cases p <;> cases x <;> rfl

macro "q_tac" : tactic => `(tactic|
  ((simp only [cycles0, relCycles, operand, pushCycles, popCycles, modifyCycles, fin, Tree.Ends,
    Regs.skip, Regs.setAF, Regs.goto, Regs.wzStore, q_setXhl, q_set, q_setRp, q_setSp2]; try intros) <;>
      first | rfl | trivial))

theorem qOk0 (o : Opt) (x : Ix) (k : I0) (r : Regs) :
    (cycles0 (O := O) (R := R) o x k r).Ends fun _ e => e.1.q = r.q := by
  cases k with
  | djnz | jrCc _ =>
    simp only [cycles0, Tree.Ends]
    split <;> q_tac
  | retCc _ | callCc _ =>
    simp only [cycles0, Tree.Ends]
    try intros
    split <;> q_tac
  | jpCc c =>
    intro v
    show (if r.holds c then r.goto v else { r.skip 2 with wz := v }).q = r.q
    split <;> rfl
  | incR g | decR g | ldRN g | aluR _ g => cases x <;> cases g <;> q_tac
  | ldRR d g => cases x <;> cases d <;> cases g <;> q_tac
  | _ => q_tac

theorem qOkCb (k : ICb) (r : Regs) :
    (cbCycles (O := O) (R := R) k r).Ends fun _ e => e.1.q = r.q := by
  rcases k with ⟨k, g⟩ | ⟨n, g⟩ | ⟨n, g⟩ | ⟨n, g⟩ <;> cases g <;>
    (simp only [cbCycles, modifyCycles, fin, Tree.Ends]; try intros) <;> first | trivial | rfl

theorem qOkXCb (k : ICb) (a : U16) (r : Regs) :
    (xcbCycles (O := O) (R := R) k a r).Ends fun _ e => e.1.q = r.q := by
  rcases k with ⟨k, g⟩ | ⟨n, g⟩ | ⟨n, g⟩ | ⟨n, g⟩ <;> cases g <;>
    (simp only [xcbCycles, modifyCycles, fin, Tree.Ends]; try intros) <;> first | trivial | rfl

theorem qOkEd (o : Opt) (k : IEd) (r : Regs) :
    (edCycles (O := O) (R := R) o k r).Ends fun _ e => e.1.q = r.q := by
  cases k with
  | blk b d rep =>
    cases b <;> simp only [edCycles, blkCycles, repeatCycles, Tree.Ends] <;> intros <;> split <;> rfl
  | ldAI | ldAR =>
    simp only [edCycles, ldAIrCycles, Tree.Ends]
    split
    · exact fun _ => rfl
    · rfl
  | inC g =>
    intro v w
    show (r.set .hl g v).q = r.q
    exact q_set ..
  | ldRpNn p =>
    intro v w
    show (r.setRp .hl p w).q = r.q
    exact q_setRp ..
  | sbcHl p | adcHl p | nop | neg | im n | ldIA | ldRA => exact rfl
  | rld | rrd | retn => exact fun v => rfl
  | outC g | reti => exact fun v w => rfl
  | ldNnRp p => exact fun v => rfl

theorem qOkOp (o : Opt) (op : U8) (r : Regs) :
    (opCycles (O := O) (R := R) o op r).Ends fun l e =>
      e.1.q = r.q.map fun _ => affects op r (opcodes l) (bytesRead l) := by
  have h0 : ∀ k, decode op = k → notPrefix k → (opCycles (O := O) (R := R) o op r).Ends fun _ e =>
      e.1.q = r.q.map fun _ => f0 k := by
    intro k hd hk
    have e : opCycles (O := O) (R := R) o op r = endCycles (f0 k) (cycles0 o r.idx k
        { r with ei := false, halted := false }) := by
      unfold opCycles
      simp only [hd]
      cases k <;> first | exact absurd hk Bool.false_ne_true | rfl
    rw [e]
    refine ends_end'.2 ?_
    refine ends_mono (qOk0 o r.idx k _) fun l e h => ?_
    show e.1.q.map _ = _
    rw [h]
  unfold affects
  cases hd : decode op with
  | dd | fd =>
    unfold opCycles
    simp only [hd]
    rfl
  | ed =>
    unfold opCycles
    simp only [hd]
    intro v
    refine ends_end'.2 ?_
    refine ends_mono (qOkEd o _ _) fun l e h => ?_
    show e.1.q.map _ = _
    rw [h]; rfl
  | cb =>
    unfold opCycles
    simp only [hd]
    cases hx : r.idx with
    | hl =>
      intro v
      refine ends_end'.2 ?_
      refine ends_mono (qOkCb _ _) fun l e h => ?_
      show e.1.q.map _ = _
      rw [h]; rfl
    | ix | iy =>
      intro d v
      simp only [Tree.Ends]
      refine ends_end'.2 ?_
      refine ends_mono (qOkXCb _ _ _) fun l e h => ?_
      show e.1.q.map _ = _
      rw [h]; rfl
  | _ => exact h0 _ hd rfl

/-! ### Steps -/

theorem wzAfter_congr (o : Opt) (op : U8) {r r' : Regs} (h : r' = { r with
      iff1 := r'.iff1, iff2 := r'.iff2, ei := r'.ei, r := r'.r }) (ops bytes : List U8)
    (words : List U16) : wzAfter o op r' ops bytes words = wzAfter o op r ops bytes words := by
  rw [h]; rfl

theorem wakeBump (r : Regs) : wake { r with iff1 := false, iff2 := false, ei := false }.bumpR =
    { wake r with iff1 := false, iff2 := false, ei := false }.bumpR := by
  by_cases h : r.halted = true
  · have h1 : wake r = { r with halted := false, pc := r.pc + 1 } := if_pos h
    rw [h1]
    exact if_pos h
  · have h1 : wake r = r := if_neg h
    rw [h1]
    exact if_neg h

theorem wzOkIrq (o : Opt) (r : Regs) {l : List Cyc} {e : Res' O R} (h : (irqCycles o r).Path l e) :
    e.1.wz = wzStep o r (acks l) (opcodes l) (bytesRead l) (wordsRead l) ∧
    e.1.q = r.q.map (affectedStep r (acks l) (opcodes l) (bytesRead l)) := by
  have hi : (wake r).im = r.im := by unfold wake; split <;> rfl
  have hq : (wake r).q = r.q := by unfold wake; split <;> rfl
  have hx : ∀ op ops bytes, affects op (wake r) ops bytes = affects op r ops bytes := by
    unfold wake; split <;> (intros; rfl)
  unfold irqCycles at h
  rw [wakeBump] at h
  dsimp only at h
  cases h with
  | @ack _ _ v x l _ h =>
    show e.1.wz = (match r.im with
      | 0 => wzAfter o v (wake r) (opcodes l) (bytesRead l) (wordsRead l)
      | 1 => 0x38
      | _ => (wordsRead l).headD 0) ∧
      e.1.q = r.q.map fun _ => if r.im = 0 then affects v r (opcodes l) (bytesRead l) else false
    generalize hw : ({ wake r with iff1 := false, iff2 := false, ei := false }.bumpR : Regs) = w at h
    have hwi : w.im = r.im := by rw [← hw]; exact hi
    have hwq : w.q = r.q := by rw [← hw]; exact hq
    have hwz : ∀ ops bytes words, wzAfter o v w ops bytes words = wzAfter o v (wake r) ops bytes words := by
      rw [← hw]; intros; rfl
    have hwx : ∀ ops bytes, affects v w ops bytes = affects v r ops bytes := by
      rw [← hw]; exact hx v
    rw [hwi] at h
    rcases hm : r.im with _ | _ | n
    · rw [hm] at h
      exact ⟨(ends_path (wzOkOp o v _) h).trans (hwz _ _ _),
        (ends_path (qOkOp o v _) h).trans (by rw [hwq, hwx]; rfl)⟩
    · rw [hm] at h
      refine ends_path (P := fun _ e => e.1.wz = 0x38#16 ∧ e.1.q = r.q.map fun _ => false) ?_ h
      simp only [endCycles, Tree.bind, pushCycles, fin, Tree.Ends]
      exact ⟨rfl, congrArg _ hwq⟩
    · rw [hm] at h
      refine ends_path (P := fun l e => e.1.wz = (wordsRead l).headD 0 ∧
        e.1.q = r.q.map fun _ => false) ?_ h
      simp only [endCycles, Tree.bind, pushCycles, fin, Tree.Ends]
      exact fun _ => ⟨rfl, congrArg _ hwq⟩

theorem wzOkStep (o : Opt) (r : Regs) {l : List Cyc} {e : Res' O R}
    (h : (stepCycles o r).Path l e) :
    e.1.wz = wzStep o r (acks l) (opcodes l) (bytesRead l) (wordsRead l) ∧
    e.1.q = r.q.map (affectedStep r (acks l) (opcodes l) (bytesRead l)) := by
  have go : ∀ {l : List Cyc}, (if r.halted then .idleM1 r.pc (fin r.bumpR) else fetchCycles o r :
      Cycles O R).Path l e →
      e.1.wz = wzStep o r (acks l) (opcodes l) (bytesRead l) (wordsRead l) ∧
      e.1.q = r.q.map (affectedStep r (acks l) (opcodes l) (bytesRead l)) := by
    intro l h
    cases hh : r.halted with
    | true =>
      rw [hh] at h
      cases h with
      | idleM1 h =>
        cases h
        refine ⟨rfl, ?_⟩
        show r.q = r.q.map fun q => q
        cases r.q <;> rfl
    | false =>
      rw [hh] at h
      cases h with
      | @m1 _ _ _ op l _ h =>
        have h1 := ends_path (wzOkOp o op _) h
        have h3 := ends_path (qOkOp o op _) h
        have h2 : acks l = [] := ends_path (noAck o op _) h
        show _ = wzStep o r (acks l) (op :: opcodes l) (bytesRead l) (wordsRead l) ∧
          _ = r.q.map (affectedStep r (acks l) (op :: opcodes l) (bytesRead l))
        rw [h2]
        exact ⟨h1, h3⟩
  unfold stepCycles at h
  dsimp only at h
  split at h
  · cases h with
    | @irq _ b l _ h =>
      cases b with
      | true => exact wzOkIrq o r (l := l) h
      | false => exact go (l := l) h
  · exact go h

/-- X and Y of SCF and CCF. -/
theorem xyOk (o : Opt) {op : U8} (hop : op = 0x37#8 ∨ op = 0x3F#8) (r : Regs) :
    (opCycles (O := O) (R := R) o op r).Ends fun _ e =>
      e.1.f.y = (xySource r).toNat.testBit 5 ∧ e.1.f.x = (xySource r).toNat.testBit 3 := by
  rcases hop with rfl | rfl <;> exact ⟨rfl, rfl⟩

/-- X and Y of BIT with a memory operand. -/
theorem bitOk (o : Opt) (r : Regs) (hx : r.idx = .hl) :
    (opCycles (O := O) (R := R) o 0xCB#8 r).Ends fun l e =>
      ∀ n, decodeCb ((opcodes l).headD 0) = .bit n .m →
        e.1.f.y = r.wz.toNat.testBit 13 ∧ e.1.f.x = r.wz.toNat.testBit 11 := by
  unfold opCycles
  have hd : decode 0xCB#8 = .cb := by decide
  simp only [hd, hx]
  intro v
  refine ends_end'.2 ?_
  have hh : ∀ i, (hi8 r.wz).toNat.testBit i = r.wz.toNat.testBit (i + 8) ∨ 8 ≤ i := by
    intro i
    by_cases hi : i < 8
    · left
      rw [BitVec.testBit_toNat, BitVec.testBit_toNat, hi8, BitVec.getLsbD_extractLsb', Nat.add_comm]
      simp [hi]
    · exact Or.inr (by omega)
  cases hk : decodeCb v with
  | bit n g =>
    cases g with
    | m =>
      intro x m _
      exact ⟨(hh 5).resolve_right (by omega), (hh 3).resolve_right (by omega)⟩
    | _ =>
      intro m hm
      rw [show (opcodes _).headD 0 = v from rfl, hk] at hm
      cases hm
  | rot k g =>
    cases g <;> (simp only [cbCycles, modifyCycles, fin, Tree.Ends]; intros; rename_i hm
                 rw [show (opcodes _).headD 0 = v from rfl, hk] at hm; cases hm)
  | res n g | set n g =>
    cases g <;> (simp only [cbCycles, modifyCycles, fin, Tree.Ends]; intros; rename_i hm
                 rw [show (opcodes _).headD 0 = v from rfl, hk] at hm; cases hm)

theorem xyStep (o : Opt) (r : Regs) {l : List Cyc} {e : Res' O R} (h : (stepCycles o r).Path l e)
    {op : U8} {ops : List U8} (hop : op = 0x37#8 ∨ op = 0x3F#8) (ha : acks l = [])
    (hl : opcodes l = op :: ops) :
    e.1.f.y = (xySource r).toNat.testBit 5 ∧ e.1.f.x = (xySource r).toNat.testBit 3 := by
  have go : ∀ {l : List Cyc}, (if r.halted then .idleM1 r.pc (fin r.bumpR) else fetchCycles o r :
      Cycles O R).Path l e → opcodes l = op :: ops →
      e.1.f.y = (xySource r).toNat.testBit 5 ∧ e.1.f.x = (xySource r).toNat.testBit 3 := by
    intro l h hl
    cases hh : r.halted with
    | true =>
      rw [hh] at h
      cases h with
      | idleM1 h => cases h; cases hl
    | false =>
      rw [hh] at h
      cases h with
      | @m1 _ _ _ op' l _ h =>
        obtain rfl : op' = op := (List.cons.inj (show op' :: opcodes l = op :: ops from hl)).1
        exact ends_path (xyOk o hop (r.bumpR.skip 1)) h
  unfold stepCycles at h
  dsimp only at h
  split at h
  · cases h with
    | @irq _ b l _ h =>
      cases b with
      | true => cases h with | ack h => cases ha
      | false => exact go (l := l) h hl
  · exact go h hl

/-! ### Instructions that do not affect the flags -/

/-- The instruction loads F as a register: `POP AF` and `EX AF,AF'`. -/
def Spec.loadsF (op : U8) : Bool := op == 0xF1 || op == 0x08

theorem f_setXhl (r : Regs) (x : Ix) (v : U16) : (r.setXhl x v).f = r.f := by cases x <;> rfl
theorem f_set (r : Regs) (x : Ix) (g : Spec.R) (v : U8) : (r.set x g v).f = r.f := by
  cases g <;> cases x <;> rfl
theorem f_setRp (r : Regs) (x : Ix) (p : RP) (v : U16) : (r.setRp x p v).f = r.f := by
  cases p <;> cases x <;> rfl

macro "f_tac" : tactic => `(tactic|
  ((simp only [cycles0, relCycles, operand, pushCycles, popCycles, modifyCycles, fin, Tree.Ends,
    Regs.skip, Regs.setAF, Regs.goto, Regs.wzStore, f_setXhl, f_set, f_setRp]; try intros) <;>
      first | rfl | trivial))

theorem fOk0 (o : Opt) (x : Ix) (k : I0) (hk : f0 k = false) (h1 : k ≠ .exAf) (h2 : k ≠ .pop .af)
    (r : Regs) : (cycles0 (O := O) (R := R) o x k r).Ends fun _ e => e.1.f = r.f := by
  cases k with
  | djnz | jrCc _ =>
    simp only [cycles0, Tree.Ends]
    split <;> f_tac
  | retCc _ | callCc _ =>
    simp only [cycles0, Tree.Ends]
    try intros
    split <;> f_tac
  | jpCc c =>
    intro v
    show (if r.holds c then r.goto v else { r.skip 2 with wz := v }).f = r.f
    split <;> rfl
  | incR g | decR g | aluR _ g => cases hk
  | ldRN g => cases x <;> cases g <;> f_tac
  | ldRR d g => cases x <;> cases d <;> cases g <;> f_tac
  | exAf => exact absurd rfl h1
  | pop p => cases p <;> first | exact absurd rfl h2 | (cases x <;> exact fun v => rfl)
  | accRot _ | daa | cpl | scf | ccf | aluN _ | addHl _ => cases hk
  | _ => f_tac

theorem fOkCb (k : ICb) (hk : fCb k = false) (r : Regs) :
    (cbCycles (O := O) (R := R) k r).Ends fun _ e => e.1.f = r.f := by
  rcases k with ⟨k, g⟩ | ⟨n, g⟩ | ⟨n, g⟩ | ⟨n, g⟩ <;> first
    | cases hk; done
    | cases g <;>
      (simp only [cbCycles, modifyCycles, fin, Tree.Ends]; try intros) <;> first | trivial | rfl

theorem fOkXCb (k : ICb) (hk : fCb k = false) (a : U16) (r : Regs) :
    (xcbCycles (O := O) (R := R) k a r).Ends fun _ e => e.1.f = r.f := by
  rcases k with ⟨k, g⟩ | ⟨n, g⟩ | ⟨n, g⟩ | ⟨n, g⟩ <;> first
    | cases hk; done
    | cases g <;>
      (simp only [xcbCycles, modifyCycles, fin, Tree.Ends]; try intros) <;> first | trivial | rfl

theorem fOkEd (o : Opt) (k : IEd) (hk : fEd k = false) (r : Regs) :
    (edCycles (O := O) (R := R) o k r).Ends fun _ e => e.1.f = r.f := by
  cases k with
  | ldRpNn p =>
    intro v w
    show (r.setRp .hl p w).f = r.f
    exact f_setRp ..
  | nop | im n | ldIA | ldRA => exact rfl
  | retn => exact fun v => rfl
  | outC g | reti => exact fun v w => rfl
  | ldNnRp p => exact fun v => rfl
  | _ => cases hk

theorem fOkOp (o : Opt) (op : U8) (hl : loadsF op = false) (r : Regs) :
    (opCycles (O := O) (R := R) o op r).Ends fun l e =>
      affects op r (opcodes l) (bytesRead l) = false → e.1.f = r.f := by
  have h0 : ∀ k, decode op = k → notPrefix k → f0 k = false →
      (opCycles (O := O) (R := R) o op r).Ends fun _ e => e.1.f = r.f := by
    intro k hd hk hf
    have e : opCycles (O := O) (R := R) o op r = endCycles (f0 k) (cycles0 o r.idx k
        { r with ei := false, halted := false }) := by
      unfold opCycles
      simp only [hd]
      cases k <;> first | exact absurd hk Bool.false_ne_true | rfl
    have hn : decode op ≠ .exAf ∧ decode op ≠ .pop .af := by
      have := all8_spec (p := fun op => loadsF op || (decide (decode op ≠ .exAf) &&
        decide (decode op ≠ .pop .af))) (by decide +kernel) op
      simp only [hl, Bool.false_or, Bool.and_eq_true, decide_eq_true_eq] at this
      exact this
    rw [hd] at hn
    rw [e]
    exact ends_end'.2 (fOk0 o r.idx k hf hn.1 hn.2 _)
  unfold affects
  cases hd : decode op with
  | dd | fd =>
    unfold opCycles
    simp only [hd]
    exact fun _ => rfl
  | ed =>
    unfold opCycles
    simp only [hd]
    intro v
    refine ends_end'.2 ?_
    cases hf : fEd (decodeEd v) with
    | true => exact ends_iff.2 fun l e _ h => absurd (hf.symm.trans h) (by decide)
    | false => exact ends_mono (fOkEd o _ hf _) fun l e h _ => h
  | cb =>
    unfold opCycles
    simp only [hd]
    cases hx : r.idx with
    | hl =>
      intro v
      refine ends_end'.2 ?_
      cases hf : fCb (decodeCb v) with
      | true => exact ends_iff.2 fun l e _ h => absurd (hf.symm.trans h) (by decide)
      | false => exact ends_mono (fOkCb _ hf _) fun l e h _ => h
    | ix | iy =>
      intro d v
      simp only [Tree.Ends]
      refine ends_end'.2 ?_
      cases hf : fCb (decodeCb v) with
      | true => exact ends_iff.2 fun l e _ h => absurd (hf.symm.trans h) (by decide)
      | false => exact ends_mono (fOkXCb _ hf _ _) fun l e h _ => h
  | _ =>
    refine ends_iff.2 fun l e hp hf => ?_
    exact ends_path (h0 _ hd rfl hf) hp

end Z80
