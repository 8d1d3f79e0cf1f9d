import Verif.Spec.Timing
import Verif.Proofs.Path
import Verif.Proofs.Drive

/-! # T-states of the specified cycles -/

set_option linter.constructorNameAsVariable false

namespace Z80
open Spec
variable {O R : Type}

theorem base_nil : base [] = 0 := rfl
theorem base_cons (c : Cyc) (l : List Cyc) : base (c :: l) = c.base + base l := rfl
theorem base_append (l l' : List Cyc) : base (l ++ l') = base l + base l' := by
  simp [base]

theorem sub_one_ne (b : U8) : b - 1#8 ≠ 0#8 ↔ b ≠ 1#8 := by
  constructor <;> intro h h' <;> apply h <;> bv_omega
theorem sub_one_ne16 (b : U16) : b - 1#16 ≠ 0#16 ↔ b ≠ 1#16 := by
  constructor <;> intro h h' <;> apply h <;> bv_omega

/-- Unfold a tree and add up. -/
macro "cost_tac" : tactic => `(tactic|
  simp [cycles0, relCycles, operand, pushCycles, popCycles, modifyCycles, fin, Tree.Ends, base_nil,
    base_cons, Cyc.base, t0, tX, taken])

theorem cost0 (o : Opt) (k : I0) (hk : notPrefix k) (r : Regs) :
    (cycles0 (O := O) (R := R) o .hl k r).Ends fun l _ => base l + 4 = t0 k (taken k r) := by
  cases k with
  | cb | dd | ed | fd => exact absurd hk Bool.false_ne_true
  | djnz =>
    by_cases h : r.b = 1#8
    · cost_tac
      simp [h, Tree.Ends, base_nil, base_cons, Cyc.base]
    · have := (sub_one_ne r.b).2 h
      cost_tac
      simp [h, this, Tree.Ends, base_nil, base_cons, Cyc.base]
  | jrCc c | retCc c | callCc c =>
    cases h : r.holds c <;> simp [h, cycles0, relCycles, pushCycles, popCycles, fin, Tree.Ends, base_nil,
      base_cons, Cyc.base, t0, taken]
  | incR g | decR g | ldRN g | aluR _ g => cases g <;> cost_tac
  | ldRR d g => cases d <;> cases g <;> cost_tac
  | _ => cost_tac

theorem costX (o : Opt) (x : Ix) (hx : x ≠ .hl) (k : I0) (hk : notPrefix k) (r : Regs) :
    (cycles0 (O := O) (R := R) o x k r).Ends fun l _ => base l + 8 = tX k (taken k r) := by
  cases hu : usesHl k with
  | false =>
    rw [cycles0_plain _ _ _ hu]
    refine ends_mono (cost0 o k hk r) fun l _ h => ?_
    have : tX k (taken k r) = 4 + t0 k (taken k r) := by
      cases k with
      | incR r | decR r | ldRN r | aluR _ r => cases r <;> first | rfl | cases hu
      | ldRR d r => cases d <;> cases r <;> first | rfl | cases hu
      | _ => first | rfl | cases hu
    omega
  | true =>
    cases x with
    | hl => exact absurd rfl hx
    | ix | iy =>
      cases k with
      | cb | dd | ed | fd => exact absurd hk Bool.false_ne_true
      | incR g | decR g | ldRN g | aluR _ g => cases g <;> cost_tac
      | ldRR d g => cases d <;> cases g <;> cost_tac
      | djnz | jrCc c | retCc c | callCc c => cases hu
      | _ => cost_tac

theorem ends_fin (r : Regs) (P : List Cyc → Res' O R → Prop) :
    (fin r).Ends P ↔ P [] (r, false, .ok) := Iff.rfl

theorem costCb (k : ICb) (r : Regs) :
    (cbCycles (O := O) (R := R) k r).Ends fun l _ => base l + 8 = tCb k ∧ opcodes l = [] := by
  rcases k with ⟨k, g⟩ | ⟨n, g⟩ | ⟨n, g⟩ | ⟨n, g⟩ <;> cases g <;>
  simp [cbCycles, modifyCycles, fin, Tree.Ends, base_nil, base_cons, Cyc.base, tCb, opcodes]

theorem costXCb (k : ICb) (a : U16) (r : Regs) :
    (xcbCycles (O := O) (R := R) k a r).Ends fun l _ => base l + 16 = tXCb k := by
  rcases k with ⟨k, g⟩ | ⟨n, g⟩ | ⟨n, g⟩ | ⟨n, g⟩ <;>
  simp [xcbCycles, modifyCycles, fin, Tree.Ends, base_nil, base_cons, Cyc.base, tXCb]

theorem costEd (o : Opt) (k : IEd) (r : Regs) :
    (edCycles (O := O) (R := R) o k r).Ends fun l _ =>
      base l + 8 = tEd k (again k r (bytesRead l)) ∧ opcodes l = [] := by
  cases k with
  | blk b d rep =>
    cases b with
    | ld =>
      by_cases h : r.bc = 1#16
      · cases rep <;> simp [h, edCycles, blkCycles, repeatCycles, Tree.Ends, base_nil, base_cons,
          Cyc.base, tEd, again, opcodes, bytesRead]
      · have := (sub_one_ne16 r.bc).2 h
        cases rep <;> simp [h, this, edCycles, blkCycles, repeatCycles, Tree.Ends, base_nil, base_cons,
          Cyc.base, tEd, again, opcodes, bytesRead]
    | cp =>
      by_cases h : r.bc = 1#16
      · cases rep <;> simp [h, edCycles, blkCycles, repeatCycles, Tree.Ends, base_nil, base_cons,
          Cyc.base, tEd, again, opcodes, bytesRead]
      · have h2 := (sub_one_ne16 r.bc).2 h
        cases rep
        · simp [edCycles, blkCycles, repeatCycles, Tree.Ends, base_nil, base_cons,
            Cyc.base, tEd, again, opcodes, bytesRead]
        · intro v
          by_cases hv : r.a = v <;>
          simp [h, h2, hv, edCycles, blkCycles, repeatCycles, Tree.Ends, base_nil, base_cons,
            Cyc.base, tEd, again, opcodes, bytesRead]
    | inp | out =>
      by_cases h : r.b = 1#8
      · cases rep <;> simp [h, edCycles, blkCycles, repeatCycles, Tree.Ends, base_nil, base_cons,
          Cyc.base, tEd, again, opcodes, bytesRead]
      · have := (sub_one_ne r.b).2 h
        cases rep <;> simp [h, this, edCycles, blkCycles, repeatCycles, Tree.Ends, base_nil, base_cons,
          Cyc.base, tEd, again, opcodes, bytesRead]
  | ldAI | ldAR =>
    simp only [edCycles, ldAIrCycles]
    split <;> simp [fin, Tree.Ends, base_nil, base_cons, Cyc.base, tEd, again, opcodes, bytesRead]
  | _ => simp [edCycles, popCycles, fin, Tree.Ends, base_nil, base_cons, Cyc.base, tEd, again, opcodes, bytesRead]

theorem ends_end {f : Bool} {c : Cycles O R} {P : List Cyc → Prop} :
    (endCycles f c).Ends (fun l _ => P l) ↔ c.Ends fun l _ => P l := by
  unfold endCycles
  rw [ends_bind]
  simp only [Tree.Ends, List.append_nil]

/-- Unconditional table: the T-states of every path through an instruction. -/
theorem costOp (o : Opt) (op : U8) (r : Regs) :
    (opCycles (O := O) (R := R) o op r).Ends fun l _ =>
      base l + 4 + (if r.idx = .hl then 0 else 4) = published op r (opcodes l) (bytesRead l) := by
  have h0 : ∀ k, decode op = k → notPrefix k → (opCycles (O := O) (R := R) o op r).Ends fun l _ =>
      base l + 4 + (if r.idx = .hl then 0 else 4) =
        if r.idx = .hl then t0 k (taken k r) else tX k (taken k r) := by
    intro k hd hk
    have e : opCycles (O := O) (R := R) o op r = endCycles (f0 k) (cycles0 o r.idx k
        { r with ei := false, halted := false }) := by
      unfold opCycles
      simp only [hd]
      cases k <;> first | exact absurd hk Bool.false_ne_true | rfl
    have ht : taken k { r with ei := false, halted := false } = taken k r := by
      cases k <;> rfl
    rw [e]
    refine ends_end.2 ?_
    by_cases hx : r.idx = .hl
    · generalize hr : ({ r with ei := false, halted := false } : Regs) = r' at ht ⊢
      rw [hx]
      refine ends_mono (cost0 o k hk _) fun l _ h => ?_
      rw [ht] at h
      simpa using h
    · refine ends_mono (costX o _ hx k hk _) fun l _ h => ?_
      rw [ht] at h
      rw [if_neg hx, if_neg hx]
      omega
  unfold published
  cases hd : decode op with
  | dd => simp [opCycles, hd, fin, Tree.Ends, base_nil]
  | fd => simp [opCycles, hd, fin, Tree.Ends, base_nil]
  | ed =>
    unfold opCycles
    simp only [hd]
    intro v
    refine ends_end.2 ?_
    refine ends_mono (costEd o _ _) fun l _ h => ?_
    have h1 := h.1
    have h2 : again (decodeEd v) ({ r with ei := false, halted := false }.bumpR.skip 1) (bytesRead l) =
      again (decodeEd v) r (bytesRead l) := by
      cases decodeEd v <;> rfl
    rw [h2] at h1
    simp only [opcodes, bytesRead, List.filterMap_cons, List.headD_cons, base_cons, Cyc.base]
    simp only [bytesRead] at h1
    omega
  | cb =>
    unfold opCycles
    simp only [hd]
    cases hx : r.idx with
    | hl =>
      intro v
      refine ends_end.2 ?_
      refine ends_mono (costCb _ _) fun l _ h => ?_
      have h1 := h.1
      simp only [opcodes, List.filterMap_cons, List.headD_cons, base_cons, Cyc.base, if_true]
      omega
    | ix | iy =>
      intro d v
      simp only [Tree.Ends]
      refine ends_end.2 ?_
      refine ends_mono (costXCb _ _ _) fun l _ h => ?_
      simp only [bytesRead, List.filterMap_cons, List.headD_cons, List.tail_cons, base_cons, Cyc.base, reduceCtorEq,
        if_false]
      show 3 + (3 + (2 + base l)) + 4 + 4 = _
      omega
  | _ => exact h0 _ hd rfl

/-- Acceptance of an interrupt in modes 1 and 2. -/
theorem costIrq (o : Opt) (r : Regs) (h : r.im ≠ 0) :
    (irqCycles (O := O) (R := R) o r).Ends fun l _ => base l = if r.im = 1 then 13 else 19 := by
  have hi : (wake { r with iff1 := false, iff2 := false, ei := false }.bumpR).im = r.im := by
    unfold wake Regs.bumpR; split <;> rfl
  unfold irqCycles
  intro v w
  simp only [hi]
  rcases hm : r.im with _ | _ | n
  · exact absurd hm h
  · simp [endCycles, Tree.bind, pushCycles, fin, Tree.Ends, base_nil, base_cons, Cyc.base]
  · simp [endCycles, Tree.bind, pushCycles, fin, Tree.Ends, base_nil, base_cons, Cyc.base]

theorem costNmi (r : Regs) : (nmiCycles (O := O) (R := R) r).Ends fun l _ => base l = 11 := by
  simp [nmiCycles, pushCycles, fin, Tree.Ends, base_nil, base_cons, Cyc.base]

variable {σ : Sig}

theorem opcodes_filter (t : List (Ev σ)) :
    opcodesOf (t.filter fun e => !e.req.isDebug) = opcodesOf t := by
  induction t with
  | nil => rfl
  | cons e t ih =>
    obtain ⟨r, x⟩ := e
    cases r <;> first
      | exact congrArg (_ :: ·) ih
      | exact ih
theorem bytes_filter (t : List (Ev σ)) :
    bytesOf (t.filter fun e => !e.req.isDebug) = bytesOf t := by
  induction t with
  | nil => rfl
  | cons e t ih =>
    obtain ⟨r, x⟩ := e
    cases r <;> first
      | exact congrArg (_ :: ·) ih
      | exact ih

theorem performs_opcodes {l : List Cyc} {t : List (Ev σ)} (h : Performs l t) :
    opcodesOf t = opcodes l := by
  induction h with
  | nil => rfl
  | @cons c l t u hc _ ih =>
    unfold opcodesOf opcodes at ih ⊢
    rw [List.filterMap_append, ih]
    cases hc with
    | @inp p v w ts => cases w <;> rfl
    | @out p v w ts x => cases w <;> rfl
    | @ack p v w ts => cases w <;> rfl
    | _ => rfl

theorem performs_bytes {l : List Cyc} {t : List (Ev σ)} (h : Performs l t) :
    bytesOf t = bytesRead l := by
  induction h with
  | nil => rfl
  | @cons c l t u hc _ ih =>
    unfold bytesOf bytesRead at ih ⊢
    rw [List.filterMap_append, ih]
    cases hc with
    | @inp p v w ts => cases w <;> rfl
    | @out p v w ts x => cases w <;> rfl
    | @ack p v w ts => cases w <;> rfl
    | _ => rfl

theorem ack_filter (t : List (Ev σ)) :
    ackOf (t.filter fun e => !e.req.isDebug) = ackOf t := by
  induction t with
  | nil => rfl
  | cons e t ih =>
    obtain ⟨r, x⟩ := e
    cases r <;> first
      | exact congrArg (_ :: ·) ih
      | exact ih

theorem performs_acks {l : List Cyc} {t : List (Ev σ)} (h : Performs l t) :
    ackOf t = acks l := by
  induction h with
  | nil => rfl
  | @cons c l t u hc _ ih =>
    unfold ackOf acks at ih ⊢
    rw [List.filterMap_append, ih]
    cases hc with
    | @inp p v w ts => cases w <;> rfl
    | @out p v w ts x => cases w <;> rfl
    | @ack p v w ts => cases w <;> rfl
    | _ => rfl

theorem performs_ack {l : List Cyc} {t : List (Ev σ)} (h : Performs l t) {pc v w}
    (hm : Cyc.ack pc v w ∈ l) : ∃ ts, (⟨.irqData pc ts, (v, w)⟩ : Ev σ) ∈ t := by
  induction h with
  | nil => cases hm
  | @cons c l t u hc _ ih =>
    rcases List.mem_cons.1 hm with rfl | hm
    · cases hc with
      | ack ts => exact ⟨ts, by simp⟩
    · obtain ⟨ts, h⟩ := ih hm
      exact ⟨ts, List.mem_append_right _ h⟩

/-- Published times do not depend on PC, R and the interrupt state. -/
theorem published_congr {op : U8} {r r' : Regs} (h1 : r.a = r'.a) (h2 : r.f = r'.f)
    (h3 : r.b = r'.b) (h4 : r.c = r'.c) (h5 : r.idx = r'.idx) (ops data : List U8) :
    published op r ops data = published op r' ops data := by
  have ht : ∀ k, taken k r = taken k r' := by
    intro k; cases k <;> simp only [taken, Regs.holds, h2, h3]
  have ha : ∀ k, again k r data = again k r' data := by
    intro k
    cases k with
    | blk b d rep =>
      have hbc : r.bc = r'.bc := by rw [Regs.bc, Regs.bc, h3, h4]
      cases b <;> cases rep <;> unfold again <;> first | rfl | rw [hbc, h1, h3]
    | _ => rfl
  unfold published
  simp only [h5, ht, ha]

theorem noAck0 (o : Opt) (x : Ix) (k : I0) (r : Regs) :
    (cycles0 (O := O) (R := R) o x k r).Ends fun l _ => acks l = [] := by
  cases k with
  | djnz | jrCc _ =>
    simp only [cycles0, Tree.Ends]
    intros
    split <;> (simp only [relCycles, fin, Tree.Ends]; try intros) <;> rfl
  | retCc _ | callCc _ =>
    simp only [cycles0, Tree.Ends]
    try intros
    split <;> (simp only [pushCycles, popCycles, fin, Tree.Ends]; try intros) <;> rfl
  | incR g | decR g | ldRN g | aluR _ g =>
    cases x <;> cases g <;>
      (simp only [cycles0, operand, modifyCycles, fin, Tree.Ends]; try intros) <;> rfl
  | ldRR d g =>
    cases x <;> cases d <;> cases g <;>
      (simp only [cycles0, operand, fin, Tree.Ends]; try intros) <;> rfl
  | _ =>
    (simp only [cycles0, relCycles, pushCycles, popCycles, fin, Tree.Ends]; try intros) <;> rfl

theorem noAckCb (k : ICb) (r : Regs) :
    (cbCycles (O := O) (R := R) k r).Ends fun l _ => acks l = [] := by
  rcases k with ⟨k, g⟩ | ⟨n, g⟩ | ⟨n, g⟩ | ⟨n, g⟩ <;> cases g <;>
    (simp only [cbCycles, modifyCycles, fin, Tree.Ends]; try intros) <;> rfl

theorem noAckXCb (k : ICb) (a : U16) (r : Regs) :
    (xcbCycles (O := O) (R := R) k a r).Ends fun l _ => acks l = [] := by
  rcases k with ⟨k, g⟩ | ⟨n, g⟩ | ⟨n, g⟩ | ⟨n, g⟩ <;>
    (simp only [xcbCycles, modifyCycles, fin, Tree.Ends]; try intros) <;> rfl

theorem noAckEd (o : Opt) (k : IEd) (r : Regs) :
    (edCycles (O := O) (R := R) o k r).Ends fun l _ => acks l = [] := by
  cases k with
  | blk b d rep =>
    cases b <;> simp only [edCycles, blkCycles, repeatCycles, Tree.Ends] <;> intros <;> split <;> rfl
  | ldAI | ldAR =>
    simp only [edCycles, ldAIrCycles, Tree.Ends]
    split
    · exact fun _ => rfl
    · rfl
  | _ => (simp only [edCycles, popCycles, fin, Tree.Ends]; try intros) <;> rfl

theorem noAck (o : Opt) (op : U8) (r : Regs) :
    (opCycles (O := O) (R := R) o op r).Ends fun l _ => acks l = [] := by
  unfold opCycles
  dsimp only
  split
  · rfl
  · rfl
  · exact fun v => ends_end.2 (noAckEd _ _ _)
  · split
    · exact fun v => ends_end.2 (noAckCb _ _)
    · exact fun d v => ends_end.2 (noAckXCb _ _ _)
  · exact ends_end.2 (noAck0 _ _ _ _)

theorem costStep (o : Opt) (r : Regs) {l : List Cyc} {e : Res' O R}
    (h : (stepCycles o r).Path l e) (hl : ∀ pc v w, Cyc.ack pc v w ∉ l) :
    if r.halted then base l = 4 ∧ opcodes l = []
    else ∃ op ops, opcodes l = op :: ops ∧
      base l + (if r.idx = .hl then 0 else 4) = published op r ops (bytesRead l) := by
  have go : ∀ {l : List Cyc}, (if r.halted then .idleM1 r.pc (fin r.bumpR) else fetchCycles o r :
      Cycles O R).Path l e → if r.halted then base l = 4 ∧ opcodes l = []
    else ∃ op ops, opcodes l = op :: ops ∧
      base l + (if r.idx = .hl then 0 else 4) = published op r ops (bytesRead l) := by
    intro l h
    cases hh : r.halted with
    | true =>
      rw [hh] at h
      cases h with
      | idleM1 h => cases h; exact ⟨rfl, rfl⟩
    | false =>
      rw [hh] at h
      cases h with
      | @m1 _ _ _ op l _ h =>
        have := ends_path (costOp o op _) h
        rw [published_congr (r := r.bumpR.skip 1) (r' := r) rfl rfl rfl rfl rfl] at this
        refine ⟨op, opcodes l, rfl, ?_⟩
        rw [base_cons]
        have e : (r.bumpR.skip 1).idx = r.idx := rfl
        rw [e] at this
        simp only [Cyc.base]
        show 4 + base l + _ = published op r (opcodes l) (bytesRead l)
        omega
  unfold stepCycles at h
  dsimp only at h
  split at h
  · cases h with
    | @irq _ b l _ h =>
      cases b with
      | true =>
        cases h with
        | ack h => exact absurd (List.mem_cons_of_mem _ (List.mem_cons_self ..)) (hl _ _ _)
      | false =>
        have := go h
        split
        · rename_i hh
          rw [if_pos hh] at this
          exact ⟨(by rw [base_cons]; simpa [Cyc.base] using this.1), this.2⟩
        · rename_i hh
          rw [if_neg hh] at this
          obtain ⟨op, ops, h1, h2⟩ := this
          refine ⟨op, ops, h1, ?_⟩
          rw [base_cons]
          show 0 + base l + _ = published op r ops (bytesRead l)
          omega
  · exact go h

theorem costIrq0 (o : Opt) (r : Regs) (hm : r.im = 0) (hx : r.idx = .hl) {l : List Cyc}
    {e : Res' O R} (h : (irqCycles o r).Path l e) :
    ∃ v, acks l = [v] ∧ base l = published v r (opcodes l) (bytesRead l) + 2 := by
  have hi : (wake { r with iff1 := false, iff2 := false, ei := false }.bumpR).im = r.im := by
    unfold wake Regs.bumpR; split <;> rfl
  have hw : ∀ r : Regs, (wake r).a = r.a ∧ (wake r).f = r.f ∧ (wake r).b = r.b ∧
      (wake r).c = r.c ∧ (wake r).idx = r.idx := by
    intro r; unfold wake; split <;> exact ⟨rfl, rfl, rfl, rfl, rfl⟩
  obtain ⟨w1, w2, w3, w4, w5⟩ :=
    hw { r with iff1 := false, iff2 := false, im := 0, ei := false }.bumpR
  unfold irqCycles at h
  dsimp only at h
  rw [hi, hm] at h
  cases h with
  | @ack _ _ v _ l _ h =>
    have h1 := ends_path (costOp o v _) h
    have e1 := h1.trans (published_congr w1 w2 w3 w4 w5 (opcodes l) (bytesRead l) :
      _ = published v r (opcodes l) (bytesRead l))
    rw [w5] at e1
    have e2 : base l + 4 + (if r.idx = .hl then 0 else 4) =
      published v r (opcodes l) (bytesRead l) := e1
    rw [hx] at e2
    refine ⟨v, congrArg (v :: ·) (ends_path (noAck o v _) h), ?_⟩
    rw [base_cons]
    show 6 + base l = published v r (opcodes l) (bytesRead l) + 2
    simp only [if_true] at e2
    omega

/-- A `TsCounter` advances by what it is told. -/
theorem counter_advance {w : Nat} {O R B α : Type} (bus : Bus (tsSig w O R) B)
    (p : Prog (tsSig w O R) α) (t : BitVec w) (b : B) :
    (p.run (tsHost bus) (t, b)).2.1 = t + BitVec.ofNat w (clocked (p.trace (tsHost bus) (t, b)) +
      Spec.waited (p.trace (tsHost bus) (t, b))) := by
  have h1 : ∀ (r : Req (tsSig w O R)) (t : BitVec w) (b : B), (tsHost bus r (t, b)).2.1 =
      t + BitVec.ofNat w (Ev.base ⟨r, (tsHost bus r (t, b)).1⟩ +
        Ev.waited ⟨r, (tsHost bus r (t, b)).1⟩) := by
    intro r t b
    cases r with
    | addNoMreq a n =>
      show t + n.setWidth w = t + BitVec.ofNat w (n.toNat + 0)
      rw [Nat.add_zero, BitVec.ofNat_toNat]
    | addWait a n =>
      show t + n.setWidth w = t + BitVec.ofNat w (0 + n.toNat)
      rw [Nat.zero_add, BitVec.ofNat_toNat]
    | _ => first | rfl | exact (BitVec.add_zero t).symm
  induction p generalizing t b with
  | ret a => exact (BitVec.add_zero t).symm
  | call r k ih =>
    show ((k _).run (tsHost bus) (tsHost bus r (t, b)).2).2.1 = _
    have h2 := ih (tsHost bus r (t, b)).1 (tsHost bus r (t, b)).2.1 (tsHost bus r (t, b)).2.2
    refine h2.trans ?_
    have h3 : ∀ n, (tsHost bus r (t, b)).2.1 + BitVec.ofNat w n =
        t + BitVec.ofNat w (Ev.base ⟨r, (tsHost bus r (t, b)).1⟩ +
          Ev.waited ⟨r, (tsHost bus r (t, b)).1⟩ + n) := by
      intro n
      rw [h1, BitVec.add_assoc, ← BitVec.ofNat_add]
    rw [h3]
    refine congrArg (fun n => t + BitVec.ofNat w n) ?_
    exact Nat.add_add_add_comm _ _ _ _

variable {Q : Type} [FlavourSpec Q]

/-- Every run of a program that makes specified cycles follows a path. -/
theorem drives_path {p : Prog σ (Res σ × Cpu Q)} {b : Cycles σ.O σ.R} (h : DrivesP p b)
    {t : List (Ev σ)} {r : Res σ × Cpu Q} (hr : p.Runs t r) :
    ∃ l e, b.Path l e ∧ Performs l (t.filter fun e => !e.req.isDebug) ∧ abs r.2 = e.1 ∧
      outS r.1 = some e.2.2 := by
  have h1 : (p.erase.map seenR).Runs (t.filter fun e => !e.req.isDebug) (seenR r) :=
    Prog.runs_map.2 ⟨r, Prog.runs_erase hr, rfl⟩
  rw [h] at h1
  obtain ⟨e, h2, h3⟩ := Prog.runs_map.1 h1
  obtain ⟨l, h4, h5⟩ := runs_path h2
  exact ⟨l, e, h4, h5, congrArg Prod.fst h3, congrArg Prod.snd h3⟩

theorem nmi_path (c : Cpu Q) {t : List (Ev σ)} {r : Cpu Q} (hr : (nmiNoCheck c).Runs t r) :
    ∃ l e, (nmiCycles (O := σ.O) (R := σ.R) (abs c)).Path l e ∧ Performs l (t.filter fun e => !e.req.isDebug) ∧
      abs r = e.1 := by
  have h1 : ((nmiNoCheck c).erase.map abs).Runs (t.filter fun e => !e.req.isDebug) (abs r) :=
    Prog.runs_map.2 ⟨r, Prog.runs_erase hr, rfl⟩
  rw [drive_nmi] at h1
  obtain ⟨e, h2, h3⟩ := Prog.runs_map.1 h1
  obtain ⟨l, h4, h5⟩ := runs_path h2
  exact ⟨l, e, h4, h5, h3⟩

end Z80
