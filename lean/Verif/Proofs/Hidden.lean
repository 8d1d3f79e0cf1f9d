import Verif.Spec.Hidden
import Verif.Proofs.Variant

/-! # Trees of cycles of CPUs which differ in undocumented state only -/

set_option linter.constructorNameAsVariable false

namespace Z80
open Spec
variable {O R α β γ : Type} {σ : Sig}

/-- Forget what is not documented. -/
def hideD (e : Res' O R) : Res' O R := (e.1.doc, e.2)

/-- Flags with other undocumented bits. -/
abbrev dimF (f : Fl) (x y : Bool) : Fl := { f with x := x, y := y }

/-- Registers with other undocumented parts. -/
abbrev dim (r : Regs) (W : U16) (H : Option Bool) (x y x' y' : Bool) : Regs :=
  { r with wz := W, q := H, f := dimF r.f x y, f' := dimF r.f' x' y' }

theorem doc_eq {r s : Regs} (h : r.doc = s.doc) : s = dim r s.wz s.q s.f.x s.f.y s.f'.x s.f'.y := by
  rcases r with ⟨ra, ⟨⟩, _, _, _, _, _, _, ra', ⟨⟩⟩
  rcases s with ⟨sa, ⟨⟩, _, _, _, _, _, _, sa', ⟨⟩⟩
  simp only [Regs.doc, Fl.doc, Regs.mk.injEq, Fl.mk.injEq] at h
  simp_all

theorem map_endDoc {f : Bool} {c c' : Cycles O R} (h : c.map hideD = c'.map hideD) :
    (endCycles f c).map hideD = (endCycles f c').map hideD := by
  have hb : ∀ c : Cycles O R, (endCycles f c).map hideD =
      (c.map hideD).map fun e => ({ e.1 with idx := .hl, q := none }, e.2) := by
    intro c
    induction c with
    | done a => rfl
    | m1 a ir k ih => exact congrArg (Tree.m1 a ir) (funext ih)
    | idleM1 a k ih => exact congrArg (Tree.idleM1 a) ih
    | rd a k ih => exact congrArg (Tree.rd a) (funext ih)
    | rd16 a k ih => exact congrArg (Tree.rd16 a) (funext ih)
    | skip a k ih => exact congrArg (Tree.skip a) ih
    | wr a v k ih => exact congrArg (Tree.wr a v) ih
    | idle a v k ih => exact congrArg (Tree.idle a v) ih
    | inp a k ih => exact congrArg (Tree.inp a) (funext ih)
    | out a v k ih => exact congrArg (Tree.out a v) (funext ih)
    | reti a k ih => exact congrArg (Tree.reti a) (funext ih)
    | irq k ih => exact congrArg Tree.irq (funext ih)
    | ack a k ih => exact congrArg (Tree.ack a) (funext ih)
  rw [hb, hb, h]

section
variable (r : Regs) (W : U16) (H : Option Bool) (x1 y1 x2 y2 : Bool)

theorem doc0 (o o' : Opt) (x : Ix) (k : I0) (hk : k ≠ .push .af) :
    (cycles0 (O := O) (R := R) o x k r).map hideD =
      (cycles0 o' x k (dim r W H x1 y1 x2 y2)).map hideD := by
  cases k with
  | djnz =>
    unfold cycles0
    refine congrArg (Tree.idle r.ir 1) ?_
    show Tree.map hideD (if r.b - 1 ≠ 0 then _ else _) = Tree.map hideD (if r.b - 1 ≠ 0 then _ else _)
    split <;> rfl
  | jrCc c =>
    unfold cycles0
    show Tree.map hideD (if r.holds c then _ else _) =
      Tree.map hideD (if (dim r W H x1 y1 x2 y2).holds c then _ else _)
    rw [show (dim r W H x1 y1 x2 y2).holds c = r.holds c by cases c <;> rfl]
    split <;> rfl
  | retCc c =>
    unfold cycles0
    refine congrArg (Tree.idle r.ir 1) ?_
    show Tree.map hideD (if r.holds c then _ else _) =
      Tree.map hideD (if (dim r W H x1 y1 x2 y2).holds c then _ else _)
    rw [show (dim r W H x1 y1 x2 y2).holds c = r.holds c by cases c <;> rfl]
    split <;> rfl
  | callCc c =>
    unfold cycles0
    refine congrArg (Tree.rd16 r.pc) (funext fun v => ?_)
    show Tree.map hideD (if r.holds c then _ else _) =
      Tree.map hideD (if (dim r W H x1 y1 x2 y2).holds c then _ else _)
    rw [show (dim r W H x1 y1 x2 y2).holds c = r.holds c by cases c <;> rfl]
    split <;> rfl
  | jpCc c =>
    unfold cycles0
    refine congrArg (Tree.rd16 r.pc) (funext fun v => congrArg Tree.done ?_)
    show hideD (if r.holds c then _ else _, _) = hideD (if (dim r W H x1 y1 x2 y2).holds c then _ else _, _)
    rw [show (dim r W H x1 y1 x2 y2).holds c = r.holds c by cases c <;> rfl]
    split <;> rfl
  | incR g | decR g | ldRN g => cases x <;> cases g <;> rfl
  | aluR k g => cases k <;> cases x <;> cases g <;> rfl
  | aluN k => cases k <;> rfl
  | ldRR d g => cases x <;> cases d <;> cases g <;> rfl
  | ldRpNn p | incRp p | decRp p | pop p => cases x <;> cases p <;> rfl
  | addHl p | ldHlNn | exSpHl => cases x <;> rfl
  | push p =>
    cases p
    case af => exact absurd rfl hk
    all_goals cases x <;> rfl
  | _ => rfl

theorem docCb (k : ICb) :
    (cbCycles (O := O) (R := R) k r).map hideD = (cbCycles k (dim r W H x1 y1 x2 y2)).map hideD := by
  rcases k with ⟨k, g⟩ | ⟨n, g⟩ | ⟨n, g⟩ | ⟨n, g⟩ <;> cases g <;> rfl

theorem docXCb (k : ICb) (a : U16) :
    (xcbCycles (O := O) (R := R) k a r).map hideD = (xcbCycles k a (dim r W H x1 y1 x2 y2)).map hideD := by
  rcases k with ⟨k, g⟩ | ⟨n, g⟩ | ⟨n, g⟩ | ⟨n, g⟩ <;> cases g <;> rfl

theorem docEd (o o' : Opt) (k : IEd) (h1 : k = .outC .m → o.outC0 = o'.outC0)
    (h2 : k = .ldAI ∨ k = .ldAR → o.early = o'.early) :
    (edCycles (O := O) (R := R) o k r).map hideD = (edCycles o' k (dim r W H x1 y1 x2 y2)).map hideD := by
  have key : o.early = o'.early → ∀ v : U8, (ldAIrCycles (O := O) (R := R) o v r).map hideD =
      (ldAIrCycles o' v (dim r W H x1 y1 x2 y2)).map hideD := by
    intro ho v
    unfold ldAIrCycles
    rw [ho]
    refine congrArg (Tree.idle r.ir 1) ?_
    show Tree.map hideD (if (o'.early && r.iff1 && r.iff2) = true then _ else _) =
      Tree.map hideD (if (o'.early && r.iff1 && r.iff2) = true then _ else _)
    split <;> rfl
  cases k with
  | ldAI => exact key (h2 (.inl rfl)) _
  | ldAR => exact key (h2 (.inr rfl)) _
  | inC g => cases g <;> rfl
  | outC g =>
    cases g
    case m =>
      have := h1 rfl
      cases o; cases o'; cases this; rfl
    all_goals rfl
  | ldRpNn p => cases p <;> rfl
  | blk b d rep =>
    have hrep : ∀ (again : Bool) (a : U16) (r r' : Regs) (y : Out O R), r.doc = r'.doc →
        (repeatCycles again a r y).map hideD = (repeatCycles again a r' y).map hideD := by
      intro again a r r' y h
      rw [doc_eq h]
      cases again <;> rfl
    cases b with
    | ld =>
      exact congrArg (Tree.rd r.hl) (funext fun v => congrArg (Tree.wr r.de v)
        (congrArg (Tree.idle r.de 2) (hrep _ _ _ _ _ rfl)))
    | cp =>
      exact congrArg (Tree.rd r.hl) (funext fun v => congrArg (Tree.idle r.hl 5)
        (hrep _ _ _ _ _ rfl))
    | inp =>
      exact congrArg (Tree.idle r.ir 1) (congrArg (Tree.inp r.bc) (funext fun v =>
        congrArg (Tree.wr r.hl v) (hrep _ _ _ _ _ rfl)))
    | out =>
      exact congrArg (Tree.idle r.ir 1) (congrArg (Tree.rd r.hl) (funext fun v =>
        congrArg (Tree.out _ v) (funext fun x => hrep _ _ _ _ _ rfl)))
  | _ => rfl

end

theorem reveals_append {a b : Bool} {l l' : List U8} (h : reveals a b l = true) : reveals a b (l ++ l') = true := by
  match l with
  | [] => cases h
  | [op] =>
    cases l' with
    | nil => exact h
    | cons c l' => exact (congrArg (· || _) h).trans (Bool.true_or _)
  | op :: op2 :: l => exact h

/-- Executing the same opcode. -/
theorem docOp {o o' : Opt} {A B : Bool} (hA : A = false → o.outC0 = o'.outC0) (hB : B = false → o.early = o'.early)
    (op : U8) {r r' : Regs} (h : r.doc = r'.doc) (im : Nat) :
    (opCycles (O := O) (R := R) o op r).Agree (fun e e' => hideD e = hideD e')
      (fun l => reveals A B (op :: codes im l) = true) (opCycles o' op r') := by
  rw [doc_eq h]
  generalize r'.wz = W
  generalize r'.q = H
  generalize r'.f.x = x1
  generalize r'.f.y = y1
  generalize r'.f'.x = x2
  generalize r'.f'.y = y2
  by_cases hv : op = 0xF5#8
  · subst hv
    exact agree_bad rfl
  have hd := imp8 (p := fun op => op != 0xF5#8) (q := fun op => decide (decode op ≠ .push .af)) (c := op)
    (by decide +kernel) (bne_iff_ne.2 hv)
  have hd := of_decide_eq_true hd
  unfold opCycles
  generalize hk : decode op = k at *
  cases k with
  | dd | fd => exact .inr ⟨_, rfl, rfl⟩
  | ed =>
    refine .inr ⟨_, rfl, fun c => ?_⟩
    have he := all8_spec (p := fun op => !(decode op == I0.ed) || op == 0xED#8) (by decide +kernel) op
    rw [hk] at he
    have he : (op == 0xED#8) = true := he
    by_cases hc : (A && c == 0x71#8 || B && (c == 0x57#8 || c == 0x5F#8)) = true
    · refine agree_bad ?_
      show (op == 0xF5#8 || op == 0xED#8 && (A && c == 0x71#8 || B && (c == 0x57#8 || c == 0x5F#8))) = true
      rw [he, hc]; exact Bool.or_true _
    · have h1 := of_decide_eq_true (all8_spec (p := fun c => decide ((decodeEd c = .outC .m → c = 0x71#8) ∧
        (decodeEd c = .ldAI → c = 0x57#8) ∧ (decodeEd c = .ldAR → c = 0x5F#8))) (by decide +kernel) c)
      refine agree_of_map _ (map_endDoc (docEd _ W H x1 y1 x2 y2 o o' _ (fun e => hA ?_) fun e => hB ?_))
      · have := h1.1 e
        subst this
        cases A
        · rfl
        · exact absurd rfl hc
      · cases B
        · rfl
        · exfalso
          rcases e with e | e
          · have := h1.2.1 e
            subst this
            exact hc (by rw [Bool.or_eq_true]; exact .inr rfl)
          · have := h1.2.2 e
            subst this
            exact hc (by rw [Bool.or_eq_true]; exact .inr rfl)
  | cb =>
    dsimp only
    generalize r.idx = x
    cases x with
    | hl => exact .inr ⟨_, rfl, fun c => agree_of_map _ (map_endDoc (docCb _ W H x1 y1 x2 y2 _))⟩
    | ix => exact .inr ⟨_, rfl, fun d => .inr ⟨_, rfl, fun c => .inr ⟨_, rfl,
        agree_of_map _ (map_endDoc (docXCb _ _ H x1 y1 x2 y2 _ _))⟩⟩⟩
    | iy => exact .inr ⟨_, rfl, fun d => .inr ⟨_, rfl, fun c => .inr ⟨_, rfl,
        agree_of_map _ (map_endDoc (docXCb _ _ H x1 y1 x2 y2 _ _))⟩⟩⟩
  | _ => exact agree_of_map _ (map_endDoc (doc0 _ W H x1 y1 x2 y2 o o' _ _ hd))

theorem docIrq {o o' : Opt} {A B : Bool} (hA : A = false → o.outC0 = o'.outC0) (hB : B = false → o.early = o'.early)
    {r r' : Regs} (h : r.doc = r'.doc) :
    (irqCycles (O := O) (R := R) o r).Agree (fun e e' => hideD e = hideD e')
      (fun l => reveals A B (codes r.im l) = true) (irqCycles o' r') := by
  unfold irqCycles
  have hw : (wake { r with iff1 := false, iff2 := false, ei := false }.bumpR).doc =
      (wake { r' with iff1 := false, iff2 := false, ei := false }.bumpR).doc := by
    rw [doc_eq h]; unfold wake Regs.bumpR; dsimp only; split <;> rfl
  have hi : (wake { r with iff1 := false, iff2 := false, ei := false }.bumpR).im = r.im := by
    unfold wake Regs.bumpR; split <;> rfl
  generalize wake { r with iff1 := false, iff2 := false, ei := false }.bumpR = w at *
  generalize wake { r' with iff1 := false, iff2 := false, ei := false }.bumpR = w' at *
  rw [← hi]
  have h2 : w'.im = w.im := by rw [doc_eq hw]
  have h3 : w'.pc = w.pc := by rw [doc_eq hw]
  dsimp only
  rw [h2, h3]
  refine .inr ⟨_, rfl, fun v _ => ?_⟩
  cases hm : w.im with
  | zero => exact docOp hA hB v hw 0
  | succ n =>
    rw [doc_eq hw]
    cases n with
    | zero => exact agree_of_map _ rfl
    | succ n => exact agree_of_map _ rfl

theorem docStep {o o' : Opt} {A B : Bool} (hA : A = false → o.outC0 = o'.outC0) (hB : B = false → o.early = o'.early)
    {r r' : Regs} (h : r.doc = r'.doc) :
    (stepCycles (O := O) (R := R) o r).Agree (fun e e' => hideD e = hideD e')
      (fun l => reveals A B (codes r.im l) = true) (stepCycles o' r') := by
  have hirq := docIrq (O := O) (R := R) hA hB h
  have hgo : (if r.halted then Tree.idleM1 r.pc (fin r.bumpR) else fetchCycles o r : Cycles O R).Agree
      (fun e e' => hideD e = hideD e') (fun l => reveals A B (codes r.im l) = true)
      (if r'.halted then Tree.idleM1 r'.pc (fin r'.bumpR) else fetchCycles o' r') := by
    have h1 : r'.halted = r.halted := by rw [doc_eq h]
    have h2 : r'.pc = r.pc := by rw [doc_eq h]
    have h3 : r'.bumpR.ir = r.bumpR.ir := by rw [doc_eq h]; rfl
    rw [h1]
    split
    · rw [doc_eq h]; exact .inr ⟨_, rfl, .inr ⟨_, rfl, rfl⟩⟩
    · unfold fetchCycles
      rw [h2, h3]
      exact .inr ⟨_, rfl, fun op => docOp hA hB op (by rw [doc_eq h]; rfl) r.im⟩
  unfold stepCycles
  have h4 : irqOk r' = irqOk r := by rw [doc_eq h]; rfl
  dsimp only
  rw [h4]
  split
  · refine .inr ⟨_, rfl, fun b => ?_⟩
    cases b
    · exact hgo
    · exact hirq
  · exact hgo

theorem hideD_eq : (fun e e' : Res' O R => hideD e = hideD e') =
    fun e e' => e.1.doc = e'.1.doc ∧ e.2 = e'.2 := by
  funext e e'
  exact propext (Prod.mk.injEq ..).to_iff

/-! ### PUSH AF and POP AF -/

/-- Neither a memory write nor the read of a word. -/
def Ev.still (e : Ev σ) : Prop := (∀ a v, Ev.storing a v e = e) ∧ (∀ a v, Ev.loading a v e = e) ∧ e.store? = none

/-- A step that fetches an opcode begins with cycles which do not depend on undocumented state. -/
theorem fetched {o : Opt} {r : Regs} {t : List (Ev σ)} {e : Res' σ.O σ.R} (hr : (stepCycles o r).calls.Runs t e)
    (ha : Spec.ackOf t = []) {op : U8} {l : List U8} (hop : opcodesOf t = op :: l) :
    ∃ p u, t = p ++ u ∧ (∀ e ∈ p, e.still) ∧ (opCycles o op (r.bumpR.skip 1)).calls.Runs u e ∧
      ∀ (o' : Opt) (r' : Regs), r.doc = r'.doc → ∀ u' e', (opCycles o' op (r'.bumpR.skip 1)).calls.Runs u' e' →
        (stepCycles o' r').calls.Runs (p ++ u') e' := by
  have go : ∀ {t : List (Ev σ)}, (if r.halted then Tree.idleM1 r.pc (fin r.bumpR) else fetchCycles o r :
      Cycles σ.O σ.R).calls.Runs t e → opcodesOf t = op :: l →
      ∃ p u, t = p ++ u ∧ (∀ e ∈ p, e.still) ∧ (opCycles o op (r.bumpR.skip 1)).calls.Runs u e ∧
      ∀ (o' : Opt) (r' : Regs), r.doc = r'.doc → ∀ u' e', (opCycles o' op (r'.bumpR.skip 1)).calls.Runs u' e' →
        (if r'.halted then Tree.idleM1 r'.pc (fin r'.bumpR) else fetchCycles o' r' :
          Cycles σ.O σ.R).calls.Runs (p ++ u') e' := by
    intro t hr hop
    cases hh : r.halted with
    | true =>
      rw [hh] at hr
      obtain ⟨ts, u, rfl, g1⟩ := Prog.runs_call hr
      obtain ⟨rfl, -⟩ := Prog.runs_ret g1
      cases hop
    | false =>
      rw [hh] at hr
      obtain ⟨ts, u, rfl, g1⟩ := Prog.runs_call hr
      obtain ⟨v, u, rfl, g2⟩ := Prog.runs_call g1
      have hv : v :: opcodesOf u = op :: l := hop
      injection hv with hv _
      subst hv
      refine ⟨[⟨.addM1 r.pc, ts⟩, ⟨.readOpcode r.pc r.bumpR.ir ts, v⟩], u, rfl, fun e he => ?_, g2,
        fun o' r' hd u' e' hu => ?_⟩
      · rcases List.mem_cons.1 he with rfl | he
        · exact ⟨fun _ _ => rfl, fun _ _ => rfl, rfl⟩
        · rcases List.mem_cons.1 he with rfl | he
          · exact ⟨fun _ _ => rfl, fun _ _ => rfl, rfl⟩
          · cases he
      · have h1 : r'.halted = false := by rw [doc_eq hd]; exact hh
        have h2 : r'.pc = r.pc := by rw [doc_eq hd]
        have h3 : r'.bumpR.ir = r.bumpR.ir := by rw [doc_eq hd]; rfl
        rw [h1]
        have := runs_m1 (σ := σ) (a := r'.pc) (ir := r'.bumpR.ir)
          (k := fun op => opCycles o' op (r'.bumpR.skip 1)) ts v hu
        rw [h2, h3] at this
        unfold fetchCycles
        rw [h2, h3]
        exact this
  have hq : ∀ r' : Regs, r.doc = r'.doc → irqOk r' = irqOk r := fun r' hd => by rw [doc_eq hd]; rfl
  unfold stepCycles at hr
  dsimp only at hr
  cases hi : irqOk r with
  | false =>
    rw [hi] at hr
    obtain ⟨p, u, h1, h2, h3, h4⟩ := go hr hop
    refine ⟨p, u, h1, h2, h3, fun o' r' hd u' e' hu => ?_⟩
    unfold stepCycles
    dsimp only
    rw [hq r' hd, hi]
    exact h4 o' r' hd u' e' hu
  | true =>
    rw [hi] at hr
    obtain ⟨ts, t, rfl, g1⟩ := Prog.runs_call hr
    obtain ⟨b, t, rfl, g2⟩ := Prog.runs_call g1
    cases b with
    | true =>
      obtain ⟨ts', t, rfl, g3⟩ := Prog.runs_call (show Prog.Runs (irqCycles o r).calls _ _ from g2)
      obtain ⟨v, t, rfl, g4⟩ := Prog.runs_call g3
      exact absurd ha (List.cons_ne_nil _ _)
    | false =>
      obtain ⟨p, u, rfl, h2, h3, h4⟩ := go (t := t) g2 hop
      refine ⟨⟨.asTimestamp, ts⟩ :: ⟨.isIrq ts, false⟩ :: p, u, rfl, fun e he => ?_, h3, fun o' r' hd u' e' hu => ?_⟩
      · rcases List.mem_cons.1 he with rfl | he
        · exact ⟨fun _ _ => rfl, fun _ _ => rfl, rfl⟩
        · rcases List.mem_cons.1 he with rfl | he
          · exact ⟨fun _ _ => rfl, fun _ _ => rfl, rfl⟩
          · exact h2 e he
      · unfold stepCycles
        dsimp only
        rw [hq r' hd, hi]
        exact .call .asTimestamp _ ts _ _ (.call (.isIrq ts) _ false _ _ (h4 o' r' hd u' e' hu))

theorem still_storing {p : List (Ev σ)} (h : ∀ e ∈ p, e.still) (a : U16) (v : U8) : p.map (Ev.storing a v) = p :=
  (List.map_congr_left fun e he => (h e he).1 a v).trans (List.map_id _)

theorem still_loading {p : List (Ev σ)} (h : ∀ e ∈ p, e.still) (a v : U16) : p.map (Ev.loading a v) = p :=
  (List.map_congr_left fun e he => (h e he).2.1 a v).trans (List.map_id _)

/-- The calls of `PUSH AF` after the opcode. -/
def pushCalls (r : Regs) (f : U8) (t1 t2 : σ.Ts) : List (Ev σ) :=
  [⟨.addNoMreq r.ir 1#8, ()⟩, ⟨.addMreq (r.sp - 1), t1⟩, ⟨.writeMem (r.sp - 1) r.a t1, ()⟩,
    ⟨.addMreq (r.sp - 2), t2⟩, ⟨.writeMem (r.sp - 2) f t2, ()⟩]

/-- The calls of `POP AF` after the opcode. -/
def popCalls (r : Regs) (v : U16) (t1 t2 : σ.Ts) : List (Ev σ) :=
  [⟨.addMreq r.sp, t1⟩, ⟨.readMem16 r.sp t1, v⟩, ⟨.addMreq (r.sp + 1), t2⟩]

theorem push_runs {o : Opt} {r : Regs} {t : List (Ev σ)} {e : Res' σ.O σ.R} :
    (opCycles o 0xF5#8 r).calls.Runs t e ↔ (∃ t1 t2, t = pushCalls r r.f.byte t1 t2) ∧
      e = ({ r with sp := r.sp - 2, ei := false, halted := false, idx := .hl, q := r.q.map fun _ => false },
        false, .ok) := by
  have he : (opCycles o 0xF5#8 r).calls = Prog.call (σ := σ) (.addNoMreq r.ir 1#8) fun _ =>
      .call (.addMreq (r.sp - 1)) fun t1 => .call (.writeMem (r.sp - 1) (hi8 (word r.a r.f.byte)) t1) fun _ =>
      .call (.addMreq (r.sp - 2)) fun t2 => .call (.writeMem (r.sp - 2) (lo8 (word r.a r.f.byte)) t2) fun _ =>
      .ret (({ r with sp := r.sp - 2, ei := false, halted := false, idx := .hl, q := r.q.map fun _ => false },
        false, .ok) : Res' σ.O σ.R) := rfl
  rw [hi8_word, lo8_word] at he
  rw [he]
  constructor
  · intro h
    obtain ⟨x, u1, rfl, h1⟩ := Prog.runs_call h
    obtain ⟨t1, u2, rfl, h2⟩ := Prog.runs_call h1
    obtain ⟨y, u3, rfl, h3⟩ := Prog.runs_call h2
    obtain ⟨t2, u4, rfl, h4⟩ := Prog.runs_call h3
    obtain ⟨z, u5, rfl, h5⟩ := Prog.runs_call h4
    obtain ⟨rfl, rfl⟩ := Prog.runs_ret h5
    exact ⟨⟨t1, t2, rfl⟩, rfl⟩
  · rintro ⟨⟨t1, t2, rfl⟩, rfl⟩
    refine .call _ _ _ _ _ ?_
    refine .call _ _ _ _ _ ?_
    refine .call _ _ _ _ _ ?_
    refine .call _ _ _ _ _ ?_
    refine .call _ _ _ _ _ ?_
    exact .ret _

/-- The registers after `POP AF`. -/
def popped (r : Regs) (v : U16) : Regs :=
  { r with
    a := hi8 v
    f := Fl.of (lo8 v)
    sp := r.sp + 2
    ei := false
    halted := false
    idx := .hl
    q := r.q.map fun _ => false }

theorem pop_runs {o : Opt} {r : Regs} {t : List (Ev σ)} {e : Res' σ.O σ.R} :
    (opCycles o 0xF1#8 r).calls.Runs t e ↔ ∃ t1 t2 v, t = popCalls r v t1 t2 ∧
      e = (popped r v, false, .ok) := by
  have he : (opCycles o 0xF1#8 r).calls = Prog.call (σ := σ) (.addMreq r.sp) fun t1 =>
      .call (.readMem16 r.sp t1) fun v => .call (.addMreq (r.sp + 1)) fun _ =>
      .ret ((popped r v, false, .ok) : Res' σ.O σ.R) := rfl
  rw [he]
  constructor
  · intro h
    obtain ⟨t1, u1, rfl, h1⟩ := Prog.runs_call h
    obtain ⟨v, u2, rfl, h2⟩ := Prog.runs_call h1
    obtain ⟨t2, u3, rfl, h3⟩ := Prog.runs_call h2
    obtain ⟨rfl, rfl⟩ := Prog.runs_ret h3
    exact ⟨t1, t2, v, rfl, rfl⟩
  · rintro ⟨t1, t2, v, rfl, rfl⟩
    refine .call _ _ _ _ _ ?_
    refine .call _ _ _ _ _ ?_
    refine .call _ _ _ _ _ ?_
    exact .ret _

/-! ### Runs with given answers -/

variable {S : Type}

/-- The host gives these answers, one after the other, and ends in a state. -/
def Answered (h : Handler σ S) : S → List (Ev σ) → S → Prop
  | s, [], s' => s' = s
  | s, e :: t, s' => (h e.req s).1 = e.ans ∧ Answered h (h e.req s).2 t s'

theorem run_answered (h : Handler σ S) (p : Prog σ α) (s : S) : Answered h s (p.trace h s) (p.run h s).2 := by
  induction p generalizing s with
  | ret a => exact rfl
  | call r k ih => exact ⟨rfl, ih _ _⟩

theorem answered_run {h : Handler σ S} {p : Prog σ α} {t : List (Ev σ)} {a : α} (hr : p.Runs t a) {s s' : S}
    (ha : Answered h s t s') : p.run h s = (a, s') ∧ p.trace h s = t := by
  induction hr generalizing s with
  | ret a => exact ⟨by rw [show s' = s from ha]; rfl, rfl⟩
  | call r k x u a _ ih =>
    obtain ⟨h1, h2⟩ := ha
    have h1 : (h r s).1 = x := h1
    have := ih h2
    rw [← h1] at this
    refine ⟨this.1, ?_⟩
    have h3 := this.2
    show (⟨r, (h r s).1⟩ : Ev σ) :: (k (h r s).1).trace h (h r s).2 = ⟨r, x⟩ :: u
    rw [h3, show (h r s).1 = x from h1]

theorem answered_append {h : Handler σ S} {s s' : S} {t u : List (Ev σ)} :
    Answered h s (t ++ u) s' ↔ ∃ s1, Answered h s t s1 ∧ Answered h s1 u s' := by
  induction t generalizing s with
  | nil => exact ⟨fun h => ⟨s, rfl, h⟩, fun ⟨s1, h, h'⟩ => by rw [show s1 = s from h] at h'; exact h'⟩
  | cons e t ih =>
    constructor
    · rintro ⟨h1, h2⟩
      obtain ⟨s1, h3, h4⟩ := ih.1 h2
      exact ⟨s1, ⟨h1, h3⟩, h4⟩
    · rintro ⟨s1, ⟨h1, h2⟩, h3⟩
      exact ⟨h1, ih.2 ⟨s1, h2, h3⟩⟩

end Z80
