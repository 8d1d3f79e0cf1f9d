import Verif.Spec.Writes
import Verif.Proofs.Timing

/-! # Memory writes of the specified cycles -/

set_option linter.constructorNameAsVariable false

namespace Z80
open Spec
variable {O R : Type} {σ : Sig} {β : Type}

/-! ### From calls to cycles -/

theorem filterMap_filter (f : Ev σ → Option β) (hf : ∀ e : Ev σ, e.req.isDebug = true → f e = none)
    (t : List (Ev σ)) : (t.filter fun e => !e.req.isDebug).filterMap f = t.filterMap f := by
  induction t with
  | nil => rfl
  | cons e t ih =>
    cases he : e.req.isDebug with
    | true =>
      rw [List.filter_cons_of_neg (by simp [he]), List.filterMap_cons, hf e he]
      exact ih
    | false =>
      rw [List.filter_cons_of_pos (by simp [he]), List.filterMap_cons, List.filterMap_cons, ih]

theorem performs_filterMap {f : Ev σ → Option β} {g : Cyc → Option β}
    (hc : ∀ {c : Cyc} {t : List (Ev σ)}, c.Calls t → t.filterMap f = (g c).toList)
    {l : List Cyc} {t : List (Ev σ)} (h : Performs l t) : t.filterMap f = l.filterMap g := by
  induction h with
  | nil => rfl
  | @cons c l t u h1 _ ih =>
    rw [List.filterMap_append, ih, hc h1, List.filterMap_cons]
    cases g c <;> rfl

theorem words_filter (t : List (Ev σ)) :
    wordsOf (t.filter fun e => !e.req.isDebug) = wordsOf t :=
  filterMap_filter _ (fun ⟨r, _⟩ h => by cases r <;> first | rfl | cases h) t

theorem stores_filter (t : List (Ev σ)) :
    storesOf (t.filter fun e => !e.req.isDebug) = storesOf t :=
  filterMap_filter _ (fun ⟨r, _⟩ h => by cases r <;> first | rfl | cases h) t

theorem performs_words {l : List Cyc} {t : List (Ev σ)} (h : Performs l t) :
    wordsOf t = wordsRead l := by
  refine performs_filterMap (fun hc => ?_) h
  cases hc with
  | @inp p v w ts => cases w <;> rfl
  | @out p v w ts x => cases w <;> rfl
  | @ack p v w ts => cases w <;> rfl
  | _ => rfl

/-- Address and byte of a writing cycle. -/
def Spec.Cyc.store? : Cyc → Option (U16 × U8) | .wr a v => some (a, v) | _ => none

theorem performs_stores {l : List Cyc} {t : List (Ev σ)} (h : Performs l t) :
    storesOf t = l.filterMap Cyc.store? := by
  refine performs_filterMap (fun hc => ?_) h
  cases hc with
  | @inp p v w ts => cases w <;> rfl
  | @out p v w ts x => cases w <;> rfl
  | @ack p v w ts => cases w <;> rfl
  | _ => rfl

theorem written_eq (l : List Cyc) : written l = (l.filterMap Cyc.store?).map Prod.fst := by
  induction l with
  | nil => rfl
  | cons c l ih => cases c <;> first | exact ih | exact congrArg (_ :: ·) ih

/-! ### Cycles -/

macro "wr_tac" : tactic => `(tactic|
  ((simp only [cycles0, relCycles, operand, pushCycles, popCycles, modifyCycles, fin, Tree.Ends]; try intros) <;> rfl))

theorem wr0 (o : Opt) (x : Ix) (k : I0) (r : Regs) :
    (cycles0 (O := O) (R := R) o x k r).Ends fun l _ =>
      written l = dest0 x k r (bytesRead l) (wordsRead l) := by
  cases k with
  | djnz | jrCc _ =>
    simp only [cycles0, Tree.Ends]
    intros
    split <;> (simp only [relCycles, fin, Tree.Ends]; try intros) <;> rfl
  | retCc _ =>
    simp only [cycles0, Tree.Ends]
    try intros
    split <;> (simp only [popCycles, fin, Tree.Ends]; try intros) <;> rfl
  | callCc c =>
    intro v
    cases h : r.holds c
    · show [] = (if r.holds c then pushed r else [])
      rw [h]; rfl
    · show pushed r = (if r.holds c then pushed r else [])
      rw [h]; rfl
  | incR g | decR g | ldRN g | aluR _ g => cases x <;> cases g <;> wr_tac
  | ldRR d g => cases x <;> cases d <;> cases g <;> wr_tac
  | _ => wr_tac

theorem wrCb (k : ICb) (r : Regs) :
    (cbCycles (O := O) (R := R) k r).Ends fun l _ => written l = destCb k (· == .m) r.hl := by
  rcases k with ⟨k, g⟩ | ⟨n, g⟩ | ⟨n, g⟩ | ⟨n, g⟩ <;> cases g <;>
    (simp only [cbCycles, modifyCycles, fin, Tree.Ends]; try intros) <;> rfl

theorem wrXCb (k : ICb) (a : U16) (r : Regs) :
    (xcbCycles (O := O) (R := R) k a r).Ends fun l _ => written l = destCb k (fun _ => true) a := by
  rcases k with ⟨k, g⟩ | ⟨n, g⟩ | ⟨n, g⟩ | ⟨n, g⟩ <;>
    (simp only [xcbCycles, modifyCycles, fin, Tree.Ends]; try intros) <;> rfl

theorem wrEd (o : Opt) (k : IEd) (r : Regs) :
    (edCycles (O := O) (R := R) o k r).Ends fun l _ => written l = destEd k r (wordsRead l) := by
  cases k with
  | blk b d rep =>
    cases b <;> simp only [edCycles, blkCycles, repeatCycles, Tree.Ends] <;> intros <;> split <;> rfl
  | ldAI | ldAR =>
    simp only [edCycles, ldAIrCycles, Tree.Ends]
    split
    · exact fun _ => rfl
    · rfl
  | _ => (simp only [edCycles, popCycles, fin, Tree.Ends]; try intros) <;> rfl

theorem wrOp (o : Opt) (op : U8) (r : Regs) :
    (opCycles (O := O) (R := R) o op r).Ends fun l _ =>
      written l = dests op r (opcodes l) (bytesRead l) (wordsRead l) := by
  have h0 : ∀ k, decode op = k → notPrefix k → (opCycles (O := O) (R := R) o op r).Ends fun l _ =>
      written l = dest0 r.idx k r (bytesRead l) (wordsRead l) := by
    intro k hd hk
    have e : opCycles (O := O) (R := R) o op r = endCycles (f0 k) (cycles0 o r.idx k
        { r with ei := false, halted := false }) := by
      unfold opCycles
      simp only [hd]
      cases k <;> first | exact absurd hk Bool.false_ne_true | rfl
    rw [e]
    refine ends_end.2 ?_
    refine ends_mono (wr0 o r.idx k _) fun l _ h => ?_
    rw [h]
    cases k <;> rfl
  unfold dests
  cases hd : decode op with
  | dd | fd =>
    unfold opCycles
    simp only [hd]
    rfl
  | ed =>
    unfold opCycles
    simp only [hd]
    intro v
    refine ends_end.2 ?_
    refine ends_mono (wrEd o _ _) fun l _ h => ?_
    exact h
  | cb =>
    unfold opCycles
    simp only [hd]
    cases hx : r.idx with
    | hl =>
      intro v
      refine ends_end.2 ?_
      refine ends_mono (wrCb _ _) fun l _ h => ?_
      exact h
    | ix | iy =>
      intro d v
      simp only [Tree.Ends]
      refine ends_end.2 ?_
      refine ends_mono (wrXCb _ _ _) fun l _ h => ?_
      exact h
  | _ => exact h0 _ hd rfl

theorem dests_wake (op : U8) (r : Regs) (ops bytes : List U8) (words : List U16) :
    dests op (wake { r with iff1 := false, iff2 := false, ei := false }.bumpR) ops bytes words =
      dests op r ops bytes words := by
  unfold wake
  split <;> rfl

theorem wrIrq (o : Opt) (r : Regs) {l : List Cyc} {e : Res' O R} (h : (irqCycles o r).Path l e) :
    ∃ v, acks l = [v] ∧
      written l = stepDests r (acks l) (opcodes l) (bytesRead l) (wordsRead l) := by
  have hi : (wake { r with iff1 := false, iff2 := false, ei := false }.bumpR).im = r.im := by
    unfold wake Regs.bumpR; split <;> rfl
  have hs : (wake { r with iff1 := false, iff2 := false, ei := false }.bumpR).sp = r.sp := by
    unfold wake Regs.bumpR; split <;> rfl
  have hd := fun op => dests_wake op r
  unfold irqCycles at h
  generalize hw : wake { r with iff1 := false, iff2 := false, ei := false }.bumpR = w at hi hs hd h
  dsimp only at h
  cases h with
  | @ack _ _ v x l _ h =>
    rcases hm : r.im with _ | _ | n
    · rw [hi, hm] at h
      refine ⟨v, congrArg (v :: ·) (ends_path (noAck o v _) h), ?_⟩
      have h1 := ends_path (wrOp o v _) h
      rw [hd] at h1
      show written l = if r.im = 0 then dests v r (opcodes l) (bytesRead l) (wordsRead l)
        else pushed r
      rw [hm]
      exact h1
    · rw [hi, hm] at h
      have h1 : acks l = [] ∧ written l = pushed w :=
        ends_path (P := fun l _ => acks l = [] ∧ written l = pushed w)
          (by simp only [endCycles, Tree.bind, pushCycles, fin, Tree.Ends]; exact ⟨rfl, rfl⟩) h
      refine ⟨v, congrArg (v :: ·) h1.1, ?_⟩
      show written l = if r.im = 0 then _ else pushed r
      rw [hm, h1.2]
      exact congrArg (fun s : U16 => [s - 1, s - 2]) hs
    · rw [hi, hm] at h
      have h1 : acks l = [] ∧ written l = pushed w :=
        ends_path (P := fun l _ => acks l = [] ∧ written l = pushed w)
          (by simp only [endCycles, Tree.bind, pushCycles, fin, Tree.Ends]; exact fun _ => ⟨rfl, rfl⟩) h
      refine ⟨v, congrArg (v :: ·) h1.1, ?_⟩
      show written l = if r.im = 0 then _ else pushed r
      rw [hm, h1.2]
      exact congrArg (fun s : U16 => [s - 1, s - 2]) hs

theorem wrStep (o : Opt) (r : Regs) {l : List Cyc} {e : Res' O R} (h : (stepCycles o r).Path l e) :
    written l = stepDests r (acks l) (opcodes l) (bytesRead l) (wordsRead l) := by
  have go : ∀ {l : List Cyc}, (if r.halted then .idleM1 r.pc (fin r.bumpR) else fetchCycles o r :
      Cycles O R).Path l e →
      written l = stepDests r (acks l) (opcodes l) (bytesRead l) (wordsRead l) := by
    intro l h
    cases hh : r.halted with
    | true =>
      rw [hh] at h
      cases h with
      | idleM1 h => cases h; rfl
    | false =>
      rw [hh] at h
      cases h with
      | @m1 _ _ _ op l _ h =>
        have h1 := ends_path (wrOp o op _) h
        have h2 : acks l = [] := ends_path (noAck o op _) h
        show written l = stepDests r (acks l) (op :: opcodes l) (bytesRead l) (wordsRead l)
        rw [h2, h1]
        rfl
  unfold stepCycles at h
  dsimp only at h
  split at h
  · cases h with
    | @irq _ b l _ h =>
      cases b with
      | true =>
        obtain ⟨_, _, h1⟩ := wrIrq o r h
        exact h1
      | false => exact go (l := l) h
  · exact go h

theorem wrNmi (r : Regs) {l : List Cyc} {e : Res' O R} (h : (nmiCycles r).Path l e) :
    written l = pushed r := by
  have hs : (wake { r with iff1 := false, ei := false }.bumpR).sp = r.sp := by
    unfold wake Regs.bumpR; split <;> rfl
  unfold nmiCycles at h
  generalize wake { r with iff1 := false, ei := false }.bumpR = w at hs h
  have h1 : written l = pushed w := ends_path (P := fun l _ => written l = pushed w)
    (by simp only [pushCycles, fin, Tree.Ends]; rfl) h
  rw [h1]
  exact congrArg (fun s : U16 => [s - 1, s - 2]) hs

/-! ### RAM -/

/-- RAM holds what was written to it. -/
theorem ram_stores {w : Nat} {I α : Type} (io : Handler (tsSig w O R) I)
    (p : Prog (tsSig w O R) α) (s : BitVec w × Mem × I) :
    (p.run (ramHost io) s).2.2.1 = applyStores s.2.1 (storesOf (p.trace (ramHost io) s)) := by
  induction p generalizing s with
  | ret a => rfl
  | call r k ih =>
    refine (ih (ramHost io r s).1 (ramHost io r s).2).trans ?_
    obtain ⟨t, m, i⟩ := s
    cases r <;> rfl

theorem applyStores_other {m : U16 → U8} {l : List (U16 × U8)} {a : U16} (h : a ∉ l.map Prod.fst) :
    applyStores m l a = m a := by
  induction l generalizing m with
  | nil => rfl
  | cons p l ih =>
    rw [List.map_cons, List.mem_cons, not_or] at h
    exact (ih h.2).trans (if_neg h.1)

end Z80
