import Verif.Proofs.Hidden
import Verif.Proofs.Executed
import Verif.Props.Block
import Verif.Props.Bus
import Verif.Proofs.Demo

/-!
# C67: undocumented state never decides what a program does

Two CPUs, of the same or of different variants, show the same registers apart from MEMPTR and bits 3 and 5 of F and
F', and may differ in the memory of whether the last instruction affected the flags. They make the same calls to the
host, at the same time and with the same data, and stay alike. The only instruction of one variant through which the
difference becomes visible is `PUSH AF`, which shows bits 3 and 5 of F; and memory that holds these bits does not
spread them if it is only read by `POP AF`.
-/

set_option linter.constructorNameAsVariable false

namespace Z80
open Spec
variable {Q Q' : Type} [FlavourSpec Q] [FlavourSpec Q'] {σ : Sig}

/-- Everything the getters show is the same, apart from MEMPTR and bits 3 and 5 of F and F'. -/
def Obs.Doc (o p : Obs) : Prop :=
  p = { o with memptr := p.memptr, f := p.f, f' := p.f' } ∧ docByte o.f = docByte p.f ∧ docByte o.f' = docByte p.f'

/-- The instructions (by opcode bytes) which show more than that, or on which the variants differ in more. -/
def shows (Q Q' : Type) [FlavourSpec Q] [FlavourSpec Q'] (l : List U8) : Bool :=
  reveals (decide ((FlavourSpec.opt Q).outC0 ≠ (FlavourSpec.opt Q').outC0))
    (decide ((FlavourSpec.opt Q).early ≠ (FlavourSpec.opt Q').early)) l

/-! ### Lemmas -/

theorem docByte_byte (f : Fl) : docByte f.byte = f.doc.byte := by
  rcases f with ⟨s, z, y, h, x, p, n, c⟩
  cases s <;> cases z <;> cases y <;> cases h <;> cases x <;> cases p <;> cases n <;> cases c <;> decide +kernel

theorem doc_byte {f g : Fl} : f.doc = g.doc ↔ docByte f.byte = docByte g.byte := by
  rw [docByte_byte, docByte_byte]
  exact ⟨fun h => by rw [h], fun h => by rw [← of_byte f.doc, h, of_byte]⟩

theorem doc_of {v v' : U8} (h : docByte v = docByte v') : (Fl.of v).doc = (Fl.of v').doc := by
  rw [doc_byte, byte_of, byte_of]
  exact h

theorem shown_doc {c : Cpu Q} {d : Cpu Q'} : (abs c).doc = (abs d).doc ↔ c.obs.Doc d.obs := by
  rw [obs_shown, obs_shown]
  have hi' : imOfNat (abs d).im = imOfNat (abs c).im → (abs d).im = (abs c).im := by
    show imOfNat (imOf d.im) = imOfNat (imOf c.im) → imOf d.im = imOf c.im
    cases c.im <;> cases d.im <;> decide
  have hx : ∀ {x y : Ix}, pfxOfIx x = pfxOfIx y → x = y := by
    intro x y
    cases x <;> cases y <;> decide
  constructor
  · intro h
    refine ⟨?_, doc_byte.1 (congrArg Regs.f h), doc_byte.1 (congrArg Regs.f' h)⟩
    rw [doc_eq h]
    rfl
  · rintro ⟨h, e1, e2⟩
    have e1 := doc_byte.2 e1
    have e2 := doc_byte.2 e2
    generalize abs c = r at *
    generalize abs d = s at *
    obtain ⟨⟩ := r
    obtain ⟨⟩ := s
    have e3 := hx (congrArg Obs.pfx h)
    have e4 := hi' (congrArg Obs.im h)
    cases e3; cases e4
    cases congrArg Obs.a h; cases congrArg Obs.b h; cases congrArg Obs.c h; cases congrArg Obs.d h
    cases congrArg Obs.e h; cases congrArg Obs.h h; cases congrArg Obs.l h
    cases congrArg Obs.a' h; cases congrArg Obs.b' h; cases congrArg Obs.c' h; cases congrArg Obs.d' h
    cases congrArg Obs.e' h; cases congrArg Obs.h' h; cases congrArg Obs.l' h
    cases congrArg Obs.ixh h; cases congrArg Obs.ixl h; cases congrArg Obs.iyh h; cases congrArg Obs.iyl h
    cases congrArg Obs.pc h; cases congrArg Obs.sp h; cases congrArg Obs.i h; cases congrArg Obs.r h
    cases congrArg Obs.halt h; cases congrArg Obs.afterEi h
    cases congrArg (fun o => o.iffs.1) h; cases congrArg (fun o => o.iffs.2) h
    simp only at e1 e2
    simp only [Regs.doc, e1, e2]

theorem differ_false {α : Type} [DecidableEq α] {a b : α} (h : decide (a ≠ b) = false) : a = b := by
  simpa using h

/-! ### C67 -/

/-- C67: `execute_instruction` on CPUs that differ in undocumented state. -/
theorem C67_execute_instruction {op : U8} {c c1 : Cpu Q} {d : Cpu Q'} (hc : c.obs.Doc d.obs) {t : List (Ev σ)}
    {x : Res σ} (h : (executeInstruction false op c).Runs t (x, c1)) (hv : shows Q Q' (op :: opcodesOf t) = false) :
    ∃ d1, (executeInstruction false op d).Runs t (x, d1) ∧ c1.obs.Doc d1.obs := by
  have ha := docOp (O := σ.O) (R := σ.R) (o := FlavourSpec.opt Q) (o' := FlavourSpec.opt Q')
      differ_false differ_false op (shown_doc.2 hc) 1
  rw [hideD_eq] at ha
  refine (drives_agree (drive_instruction false op c) (drive_instruction false op d)
    (erase_quiet_instruction op c) (erase_quiet_instruction op d)
    (fun l l' hb => ?_) ha h fun l hl hb => ?_).imp fun d1 h => ⟨h.1, shown_doc.1 h.2⟩
  · have : op :: codes 1 (l ++ l') = (op :: codes 1 l) ++ codes 1 l' := congrArg _ List.filterMap_append
    rw [this]
    exact reveals_append hb
  · have h1 : codes 1 l = opcodesOf t := by
      rw [← performs_codes hl]
      unfold codesOf opcodesOf
      congr 1
      funext e
      obtain ⟨r, x⟩ := e
      cases r <;> rfl
    rw [h1] at hb
    exact absurd (hb.symm.trans hv) Bool.noConfusion

/-- C67: `execute_next` on CPUs that differ in undocumented state. -/
theorem C67_execute_next {c c1 : Cpu Q} {d : Cpu Q'} (hc : c.obs.Doc d.obs) {t : List (Ev σ)} {x : Res σ}
    (h : (executeNext false c).Runs t (x, c1)) (hv : shows Q Q' (codesOf (imOf c.getIm) t) = false) :
    ∃ d1, (executeNext false d).Runs t (x, d1) ∧ c1.obs.Doc d1.obs := by
  have ha := docStep (O := σ.O) (R := σ.R) (o := FlavourSpec.opt Q) (o' := FlavourSpec.opt Q')
      differ_false differ_false (shown_doc.2 hc)
  rw [hideD_eq] at ha
  refine (drives_agree (drive_step false c) (drive_step false d)
    (erase_quiet_next c) (erase_quiet_next d) (fun l l' hb => ?_) ha h fun l hl hb => ?_).imp fun d1 h =>
      ⟨h.1, shown_doc.1 h.2⟩
  · have : codes (abs c).im (l ++ l') = codes (abs c).im l ++ codes (abs c).im l' := List.filterMap_append
    rw [this]
    exact reveals_append hb
  · have h1 : codes (abs c).im l = codesOf (imOf c.getIm) t := (performs_codes hl).symm
    rw [h1] at hb
    exact absurd (hb.symm.trans hv) Bool.noConfusion

/-- C67: `irq`. -/
theorem C67_irq {c c1 : Cpu Q} {d : Cpu Q'} (hc : c.obs.Doc d.obs) {t : List (Ev σ)} {x : Option (Res σ)}
    (h : (irq false c).Runs t (x, c1)) (hv : shows Q Q' (codesOf (imOf c.getIm) t) = false) :
    ∃ d1, (irq false d).Runs t (x, d1) ∧ c1.obs.Doc d1.obs := by
  have hq : d.isIrqAllowed = c.isIrqAllowed := by
    rw [irqAllowed_eq, irqAllowed_eq, doc_eq (shown_doc.2 hc)]; rfl
  unfold irq at h ⊢
  rw [hq]
  split at h
  · rename_i hi
    have hi2 := hi
    rw [← hq] at hi2
    rw [irqAllowed_eq] at hi hi2
    rw [if_pos (by rw [irqAllowed_eq]; exact hi)]
    obtain ⟨u, v, a, rfl, h1, h2⟩ := Prog.runs_bind.1 h
    obtain ⟨rfl, h3⟩ := Prog.runs_ret h2
    cases h3
    rw [List.append_nil] at hv ⊢
    have ha := docIrq (O := σ.O) (R := σ.R) (o := FlavourSpec.opt Q) (o' := FlavourSpec.opt Q')
      differ_false differ_false (shown_doc.2 hc)
    rw [hideD_eq] at ha
    have he : ∀ {P : Type} [FlavourSpec P] (c : Cpu P),
        (irqNoCheck (σ := σ) false c).erase = irqNoCheck false c := fun c => by
      rw [← erase_irq, erase_erase]
    obtain ⟨d1, h4, h5⟩ := drives_agree (drive_interrupt false c (irq_pre hi).1 (irq_pre hi).2)
      (drive_interrupt false d (irq_pre hi2).1 (irq_pre hi2).2) (he c) (he d)
      (fun l l' hb => by
        have : codes (abs c).im (l ++ l') = codes (abs c).im l ++ codes (abs c).im l' := List.filterMap_append
        rw [this]
        exact reveals_append hb) ha h1 (fun l hl hb => by
        have h1 : codes (abs c).im l = codesOf (imOf c.getIm) u := (performs_codes hl).symm
        rw [h1] at hb
        exact absurd (hb.symm.trans hv) Bool.noConfusion)
    exact ⟨d1, Prog.runs_bind.2 ⟨u, [], _, (List.append_nil u).symm, h4, .ret _⟩, shown_doc.1 h5⟩
  · rename_i hi
    rw [if_neg hi]
    obtain ⟨rfl, h3⟩ := Prog.runs_ret h
    cases h3
    exact ⟨d, .ret _, hc⟩

/-- C67: `nmi`. -/
theorem C67_nmi {c c1 : Cpu Q} {d : Cpu Q'} (hc : c.obs.Doc d.obs) {t : List (Ev σ)} {b : Bool}
    (h : (nmi c).Runs t (b, c1)) : ∃ d1, (nmi d).Runs t (b, d1) ∧ c1.obs.Doc d1.obs := by
  have hd := shown_doc.2 hc
  have hs : isIntAllowed d.pfx d.lastEi = isIntAllowed c.pfx c.lastEi := by
    have e1 : d.pfx = c.pfx := congrArg Obs.pfx hc.1
    have e2 : d.lastEi = c.lastEi := congrArg Obs.afterEi hc.1
    rw [e1, e2]
  unfold nmi at h ⊢
  rw [hs]
  split at h
  · obtain ⟨u, v, a, rfl, h1, h2⟩ := Prog.runs_bind.1 h
    obtain ⟨rfl, h3⟩ := Prog.runs_ret h2
    injection h3 with h3 h3'
    subst h3; subst h3'
    rename_i hi
    rw [if_pos hi]
    have he : ∀ {P : Type} [FlavourSpec P] (c : Cpu P),
        (nmiNoCheck (σ := σ) c).erase = nmiNoCheck c := fun c => rfl
    have h4 : ((nmiNoCheck c).erase.map abs).Runs u (abs c1) :=
      Prog.runs_map.2 ⟨_, (he c).symm ▸ h1, rfl⟩
    rw [drive_nmi] at h4
    obtain ⟨e, h5, h6⟩ := Prog.runs_map.1 h4
    have ha : (nmiCycles (O := σ.O) (R := σ.R) (abs c)).Agree (fun e e' => hideD e = hideD e')
        (fun _ => False) (nmiCycles (abs d)) := by
      refine agree_of_map _ ?_
      have hw : (wake { abs c with iff1 := false, ei := false }.bumpR).doc =
          (wake { abs d with iff1 := false, ei := false }.bumpR).doc := by
        rw [doc_eq hd]; unfold wake Regs.bumpR; dsimp only; split <;> rfl
      unfold nmiCycles
      generalize wake { abs c with iff1 := false, ei := false }.bumpR = w at *
      generalize wake { abs d with iff1 := false, ei := false }.bumpR = w' at *
      rw [doc_eq hw]
      rfl
    rcases agree_runs (fun _ _ h => h) ha h5 with ⟨_, _, _, hf⟩ | ⟨e', h7, h8⟩
    · exact absurd hf id
    have h9 : ((nmiNoCheck d).erase.map abs).Runs u e'.1 := by
      rw [drive_nmi]; exact Prog.runs_map.2 ⟨_, h7, rfl⟩
    obtain ⟨d1, h10, h11⟩ := Prog.runs_map.1 h9
    rw [he] at h10
    refine ⟨d1, Prog.runs_bind.2 ⟨u, [], _, rfl, h10, .ret _⟩, shown_doc.1 ?_⟩
    rw [h6, ← h11]
    exact congrArg Prod.fst h8
  · obtain ⟨rfl, h3⟩ := Prog.runs_ret h
    cases h3
    rename_i hi
    rw [if_neg hi]
    exact ⟨d, .ret _, hc⟩

/-- Executing step after step without an instruction that shows undocumented state; the host calls and the result of
each step. -/
inductive Discreet (Q' : Type) [FlavourSpec Q'] : Cpu Q → List (List (Ev σ) × Res σ) → Cpu Q → Prop
  | nil (c) : Discreet Q' c [] c
  | cons {c c' c'' t x l} (h : (executeNext false c).Runs t (x, c'))
      (hv : shows Q Q' (codesOf (imOf c.getIm) t) = false) (hl : Discreet Q' c' l c'') :
      Discreet Q' c ((t, x) :: l) c''

/-- Executing step after step; the host calls and the result of each step. -/
inductive Steps : Cpu Q → List (List (Ev σ) × Res σ) → Cpu Q → Prop
  | nil (c) : Steps c [] c
  | cons {c c' c'' t x l} (h : (executeNext false c).Runs t (x, c')) (hl : Steps c' l c'') : Steps c ((t, x) :: l) c''

/-- C67: programs without these instructions cannot tell undocumented state, nor the variants, apart. -/
theorem C67_program {c c1 : Cpu Q} {l : List (List (Ev σ) × Res σ)} (h : Discreet Q' c l c1) {d : Cpu Q'}
    (hc : c.obs.Doc d.obs) : ∃ d1, Steps d l d1 ∧ c1.obs.Doc d1.obs := by
  induction h generalizing d with
  | nil c => exact ⟨d, .nil _, hc⟩
  | cons h hv _ ih =>
    obtain ⟨d1, h1, h2⟩ := C67_execute_next hc h hv
    obtain ⟨d2, h3, h4⟩ := ih h2
    exact ⟨d2, .cons h1 h3, h4⟩

/-- C67: the instructions, for one variant and for two. -/
theorem C67_shows (l : List U8) : shows Q Q l = reveals false false l ∧
    shows NMOS CMOS l = reveals true true l ∧ shows NMOS BM1 l = reveals false true l ∧
    shows CMOS BM1 l = reveals true false l := by
  refine ⟨?_, rfl, rfl, rfl⟩
  unfold shows
  rw [decide_eq_false (fun h => h rfl), decide_eq_false (fun h => h rfl)]

/-! ### PUSH AF and POP AF -/

/-- C67: `PUSH AF` makes the same calls, but for the flags it writes. -/
theorem C67_push_af {c c1 : Cpu Q} {d : Cpu Q'} (hc : c.obs.Doc d.obs) {t : List (Ev σ)} {x : Res σ}
    (h : (executeNext false c).Runs t (x, c1)) (ha : Spec.ackOf t = []) (hop : opcodesOf t = [0xF5#8]) :
    ∃ d1, (executeNext false d).Runs (t.map (Ev.storing (c.getSp - 2) d.getFlags)) (x, d1) ∧ c1.obs.Doc d1.obs := by
  have hd := shown_doc.2 hc
  obtain ⟨e, h1, h2, h3⟩ := drives_to (drive_step false c) (erase_quiet_next c) h
  obtain ⟨p, u, rfl, h4, h5, h6⟩ := fetched h1 ha hop
  obtain ⟨⟨t1, t2, rfl⟩, rfl⟩ := push_runs.1 h5
  have hn : c.getSp - 1 ≠ c.getSp - 2 := by
    generalize c.getSp = s
    bv_omega
  have hb : ∀ {r' : Regs}, (abs c).doc = r'.doc → (r'.bumpR.skip 1).f.byte = d.getFlags →
      List.map (Ev.storing (c.getSp - 2) d.getFlags) (pushCalls ((abs c).bumpR.skip 1) ((abs c).bumpR.skip 1).f.byte t1 t2) =
      pushCalls (σ := σ) (r'.bumpR.skip 1) (r'.bumpR.skip 1).f.byte t1 t2 := by
    intro r' hr hf
    have e1 : (r'.bumpR.skip 1).ir = ((abs c).bumpR.skip 1).ir := by rw [doc_eq hr]; rfl
    have e2 : (r'.bumpR.skip 1).sp = c.getSp := by rw [doc_eq hr]; rfl
    have e3 : (r'.bumpR.skip 1).a = ((abs c).bumpR.skip 1).a := by rw [doc_eq hr]; rfl
    have e4 : ((abs c).bumpR.skip 1).sp = c.getSp := rfl
    unfold pushCalls
    rw [e1, e2, e3, e4, hf]
    have s1 : ∀ w, Ev.storing (σ := σ) (c.getSp - 2) d.getFlags ⟨.writeMem (c.getSp - 1) w t1, ()⟩ =
        ⟨.writeMem (c.getSp - 1) w t1, ()⟩ := fun w => by
      show (⟨.writeMem _ (if _ then _ else _) _, _⟩ : Ev σ) = _
      rw [if_neg hn]
    have s2 : ∀ w, Ev.storing (σ := σ) (c.getSp - 2) d.getFlags ⟨.writeMem (c.getSp - 2) w t2, ()⟩ =
        ⟨.writeMem (c.getSp - 2) d.getFlags t2, ()⟩ := fun w => by
      show (⟨.writeMem _ (if _ then _ else _) _, _⟩ : Ev σ) = _
      rw [if_pos rfl]
    rw [List.map_cons, List.map_cons, List.map_cons, List.map_cons, List.map_cons, List.map_nil, s1, s2]
    rfl
  have hf : ((abs d).bumpR.skip 1).f.byte = d.getFlags := byte_of _
  have h7 := h6 (FlavourSpec.opt Q') (abs d) hd _ _ (push_runs.2 ⟨⟨t1, t2, rfl⟩, rfl⟩)
  rw [← hb hd hf] at h7
  obtain ⟨d1, h8, h9⟩ := drives_from (drive_step false d) (erase_quiet_next d) h7 (x := x) h3
  refine ⟨d1, ?_, shown_doc.1 ?_⟩
  · rw [List.map_append, still_storing h4]
    exact h8
  · rw [h2, h9, doc_eq hd]
    rfl

/-- C67: `POP AF` makes the same calls and leaves the same, even if it is given other bits 3 and 5 of the flags. -/
theorem C67_pop_af {c c1 : Cpu Q} {d : Cpu Q'} (hc : c.obs.Doc d.obs) {t : List (Ev σ)} {x : Res σ}
    (h : (executeNext false c).Runs t (x, c1)) (ha : Spec.ackOf t = []) (hop : opcodesOf t = [0xF1#8]) {v v' : U16}
    (hv : wordsOf t = [v]) (hv' : hi8 v = hi8 v' ∧ docByte (lo8 v) = docByte (lo8 v')) :
    ∃ d1, (executeNext false d).Runs (t.map (Ev.loading c.getSp v')) (x, d1) ∧ c1.obs.Doc d1.obs := by
  have hd := shown_doc.2 hc
  obtain ⟨e, h1, h2, h3⟩ := drives_to (drive_step false c) (erase_quiet_next c) h
  obtain ⟨p, u, rfl, h4, h5, h6⟩ := fetched h1 ha hop
  obtain ⟨t1, t2, w, rfl, rfl⟩ := pop_runs.1 h5
  have hw : w = v := by
    unfold wordsOf at hv
    rw [List.filterMap_append] at hv
    have hlen := congrArg List.length hv
    rw [List.length_append] at hlen
    have hl2 : (List.filterMap Ev.word? (popCalls (σ := σ) ((abs c).bumpR.skip 1) w t1 t2)) = [w] := rfl
    rw [hl2] at hlen hv
    have h0 : List.filterMap Ev.word? p = [] := List.length_eq_zero_iff.1 (by
      simp only [List.length_cons, List.length_nil] at hlen
      omega)
    rw [h0] at hv
    injection hv
  subst hw
  have hb : List.map (Ev.loading c.getSp v') (popCalls ((abs c).bumpR.skip 1) w t1 t2) =
      popCalls (σ := σ) ((abs d).bumpR.skip 1) v' t1 t2 := by
    have e2 : ((abs d).bumpR.skip 1).sp = c.getSp := by rw [doc_eq hd]; rfl
    have e4 : ((abs c).bumpR.skip 1).sp = c.getSp := rfl
    unfold popCalls
    rw [e2, e4]
    simp only [List.map_cons, List.map_nil, Ev.loading, if_true]
  have h7 := h6 (FlavourSpec.opt Q') (abs d) hd _ _ (pop_runs.2 ⟨t1, t2, v', rfl, rfl⟩)
  rw [← hb] at h7
  obtain ⟨d1, h8, h9⟩ := drives_from (drive_step false d) (erase_quiet_next d) h7 (x := x) h3
  refine ⟨d1, ?_, shown_doc.1 ?_⟩
  · rw [List.map_append, still_loading h4]
    exact h8
  · rw [h2, h9, doc_eq hd]
    have h10 := doc_of hv'.2
    simp only [Regs.doc, popped, hv'.1, h10]
    rfl

/-! ### Programs that save the flags in memory -/

variable {w : Nat} {O R I : Type}

/-- Memories that differ in stained bytes only give the same answers if no stained byte is asked for. -/
theorem blurred_answered (io : Handler (tsSig w O R) I) {D : U16 → Prop} {t : List (Ev (tsSig w O R))}
    (hn : ∀ e ∈ t, match e.req with
      | .readOpcode a _ _ | .readMem a _ | .readDebug a => ¬D a
      | .readMem16 a _ => ¬D (a + 1) ∧ ¬D a
      | _ => True) {m m' : Mem} (hm : Blurred D m m') {τ : BitVec w} {i : I} {s : BitVec w × Mem × I}
    (h : Answered (ramHost io) (τ, m, i) t s) :
    ∃ m1, Answered (ramHost io) (τ, m', i) t (s.1, m1, s.2.2) ∧
      Blurred (fun a => D a ∧ a ∉ (storesOf t).map Prod.fst) s.2.1 m1 := by
  induction t generalizing τ m m' i D with
  | nil =>
    obtain rfl : s = (τ, m, i) := h
    exact ⟨m', rfl, fun a => ⟨(hm a).1, fun h => (hm a).2 fun hd => h ⟨hd, List.not_mem_nil⟩⟩⟩
  | cons e t ih =>
    have same : ∀ {τ1 : BitVec w} {i1 : I}, e.store? = none → (ramHost io e.req (τ, m, i)).2 = (τ1, m, i1) →
        ramHost io e.req (τ, m', i) = (e.ans, τ1, m', i1) → ∃ m1, Answered (ramHost io) (τ, m', i) (e :: t) (s.1, m1, s.2.2) ∧
        Blurred (fun a => D a ∧ a ∉ (storesOf (e :: t)).map Prod.fst) s.2.1 m1 := by
      intro τ1 i1 h0 h1 h2
      obtain ⟨-, h3⟩ := h
      rw [h1] at h3
      obtain ⟨m1, h4, h5⟩ := ih (fun e he => hn e (.tail _ he)) hm h3
      refine ⟨m1, ⟨by rw [h2], by rw [h2]; exact h4⟩, ?_⟩
      have : storesOf (e :: t) = storesOf t := List.filterMap_cons_none h0
      rw [this]
      exact h5
    have h1 := h.1
    have he := hn e (.head _)
    obtain ⟨r, x⟩ := e
    cases r with
    | writeMem a v ts =>
      obtain ⟨-, h3⟩ := h
      have hw : Blurred (fun b => D b ∧ b ≠ a) (fun b => if b = a then v else m b) (fun b => if b = a then v else m' b) := by
        intro b
        dsimp only
        by_cases hb : b = a
        · rw [if_pos hb, if_pos hb]
          exact ⟨rfl, fun _ => rfl⟩
        · rw [if_neg hb, if_neg hb]
          exact ⟨(hm b).1, fun h => (hm b).2 fun hd => h ⟨hd, hb⟩⟩
      obtain ⟨m1, h4, h5⟩ := ih (D := fun b => D b ∧ b ≠ a) (fun e he => by
        have := hn e (.tail _ he)
        obtain ⟨r, x⟩ := e
        cases r <;> first
          | exact fun h => this h.1
          | exact ⟨fun h => this.1 h.1, fun h => this.2 h.1⟩
          | trivial) hw h3
      refine ⟨m1, ⟨h1, h4⟩, fun b => ⟨(h5 b).1, fun hb => (h5 b).2 fun hd => hb ⟨hd.1.1, ?_⟩⟩⟩
      show b ∉ a :: (storesOf t).map Prod.fst
      intro hc
      rcases List.mem_cons.1 hc with hc | hc
      · exact hd.1.2 hc
      · exact hd.2 hc
    | readOpcode a b c =>
      have h1 : m a = x := h1
      exact same rfl rfl (by rw [← h1, (hm a).2 he]; rfl)
    | readMem a c =>
      have h1 : m a = x := h1
      exact same rfl rfl (by rw [← h1, (hm a).2 he]; rfl)
    | readDebug a =>
      have h1 : m a = x := h1
      exact same rfl rfl (by rw [← h1, (hm a).2 he]; rfl)
    | readMem16 a c =>
      have h1 : word (m (a + 1#16)) (m a) = x := h1
      have e1 : m (a + 1#16) = m' (a + 1#16) := (hm _).2 he.1
      have e2 : m a = m' a := (hm _).2 he.2
      exact same rfl rfl (by rw [← h1, e1, e2]; rfl)
    | _ => exact same rfl rfl (by rw [← h1]; rfl)

omit [FlavourSpec Q] [FlavourSpec Q'] in
theorem still_word {b ts} {x : U16} (h : Ev.still (⟨.readMem16 b ts, x⟩ : Ev σ)) : False := by
  have h1 := h.2.1 b (x + 1)
  have h2 : (⟨.readMem16 b ts, if b = b then x + 1 else x⟩ : Ev σ) = ⟨.readMem16 b ts, x⟩ := h1
  rw [if_pos rfl] at h2
  injection h2 with _ h2
  have h3 : x + 1 = x := h2
  bv_omega

omit [FlavourSpec Q] [FlavourSpec Q'] in
theorem still_none {p : List (Ev σ)} (h : ∀ e ∈ p, e.still) : wordsOf p = [] ∧ storesOf p = [] := by
  refine ⟨List.filterMap_eq_nil_iff.2 fun e he => ?_, List.filterMap_eq_nil_iff.2 fun e he => (h e he).2.2⟩
  have := h e he
  obtain ⟨r, x⟩ := e
  cases r <;> first
    | rfl
    | exact absurd this still_word

/-- C67: a step of CPUs that differ in undocumented state, on hosts whose memories differ in bits 3 and 5 of flags saved
by `PUSH AF`. -/
theorem C67_ram_step (io : Handler (tsSig w O R) I) {c : Cpu Q} {d : Cpu Q'} (hc : c.obs.Doc d.obs) {D : U16 → Prop}
    {m m' : Mem} (hm : Blurred D m m') (τ : BitVec w) (i : I)
    (hd : Minds D ((executeNext false c).trace (ramHost io) (τ, m, i)))
    (hv : let t := (executeNext false c).trace (ramHost io) (τ, m, i)
      shows Q Q' (codesOf (imOf c.getIm) t) = true → Spec.ackOf t = [] ∧ opcodesOf t = [0xF5#8]) :
    let x := (executeNext false c).run (ramHost io) (τ, m, i)
    let y := (executeNext false d).run (ramHost io) (τ, m', i)
    x.1.1 = y.1.1 ∧ x.1.2.obs.Doc y.1.2.obs ∧ x.2.1 = y.2.1 ∧ x.2.2.2 = y.2.2.2 ∧
      Blurred (stain D c.getSp ((executeNext false c).trace (ramHost io) (τ, m, i))) x.2.2.1 y.2.2.1 := by
  have hr := Prog.runs_run (ramHost io) (executeNext false c) (τ, m, i)
  have hw := run_answered (ramHost io) (executeNext false c) (τ, m, i)
  revert hr hw hd hv
  generalize (executeNext false c).trace (ramHost io) (τ, m, i) = t
  generalize (executeNext false c).run (ramHost io) (τ, m, i) = x
  obtain ⟨⟨x, c1⟩, s⟩ := x
  intro hd hv hr hw
  have done : ∀ {t' d1 m1}, (executeNext false d).Runs t' (x, d1) → c1.obs.Doc d1.obs →
      Answered (ramHost io) (τ, m', i) t' (s.1, m1, s.2.2) → Blurred (stain D c.getSp t) s.2.1 m1 →
      let y := (executeNext false d).run (ramHost io) (τ, m', i)
      x = y.1.1 ∧ c1.obs.Doc y.1.2.obs ∧ s.1 = y.2.1 ∧ s.2.2 = y.2.2.2 ∧
      Blurred (stain D c.getSp t) s.2.1 y.2.2.1 := by
    intro t' d1 m1 h1 h2 h3 h4
    rw [(answered_run h1 h3).1]
    exact ⟨rfl, h2, rfl, rfl, h4⟩
  have start : ∀ {p u : List (Ev (tsSig w O R))}, (∀ e ∈ p, e.still) → t = p ++ u → ∀ {s1},
      Answered (ramHost io) (τ, m, i) p s1 → ∃ m1, Answered (ramHost io) (τ, m', i) p (s1.1, m1, s1.2.2) ∧
        Blurred D s1.2.1 m1 := by
    rintro p u h4 rfl s1 a1
    obtain ⟨m1, b1, b2⟩ := blurred_answered io (D := D) (fun e he => by
      have h5 := hd e (List.mem_append_left _ he)
      have h6 := h4 e he
      obtain ⟨r, y⟩ := e
      cases r <;> first
        | exact h5
        | exact absurd h6 still_word) hm a1
    rw [(still_none h4).2] at b2
    exact ⟨m1, b1, fun a => ⟨(b2 a).1, fun h => (b2 a).2 fun h' => h h'.1⟩⟩
  by_cases hpop : Spec.ackOf t = [] ∧ opcodesOf t = [0xF1#8]
  · -- POP AF
    obtain ⟨e, h1, h2, h3⟩ := drives_to (drive_step false c) (erase_quiet_next c) hr
    obtain ⟨p, u, rfl, h4, h5, h6⟩ := fetched h1 hpop.1 hpop.2
    obtain ⟨t1, t2, v, rfl, rfl⟩ := pop_runs.1 h5
    obtain ⟨s1, a1, a2⟩ := answered_append.1 hw
    obtain ⟨m1, b1, b2⟩ := start h4 rfl a1
    obtain ⟨τ1, m0, i1⟩ := s1
    have hsp : ((abs c).bumpR.skip 1).sp = c.getSp := rfl
    have hw1 : wordsOf (p ++ popCalls (σ := tsSig w O R) ((abs c).bumpR.skip 1) v t1 t2) = [v] := by
      unfold wordsOf
      rw [List.filterMap_append, show List.filterMap Ev.word? p = [] from (still_none h4).1]
      rfl
    have hn : ¬D (c.getSp + 1) :=
      (hd ⟨.readMem16 c.getSp t1, v⟩ (List.mem_append_right _ (.tail _ (.head _)))).1
    obtain ⟨g1, g2, g3, g4⟩ := a2
    rw [hsp] at g1 g2 g3 g4
    have g2 : word (m0 (c.getSp + 1#16)) (m0 c.getSp) = v := g2
    obtain ⟨d1, k1, k2⟩ := C67_pop_af hc hr hpop.1 hpop.2 hw1 (v' := word (m1 (c.getSp + 1#16)) (m1 c.getSp))
      (by
        rw [← g2, hi8_word, hi8_word, lo8_word, lo8_word]
        exact ⟨(b2 _).2 hn, (b2 _).1⟩)
    rw [List.map_append, still_loading h4] at k1
    subst g4
    refine done (m1 := m1) k1 k2 (answered_append.2 ⟨_, b1, ?_⟩) fun a => ⟨(b2 a).1, fun ha => (b2 a).2 fun h => ha ?_⟩
    · refine ⟨g1, ?_, g3, rfl⟩
      show word _ _ = if c.getSp = c.getSp then _ else _
      rw [if_pos rfl]
      rfl
    · refine .inl ⟨h, ?_⟩
      unfold storesOf
      rw [List.filterMap_append, show List.filterMap Ev.store? p = [] from (still_none h4).2]
      exact List.not_mem_nil
  by_cases hpush : Spec.ackOf t = [] ∧ opcodesOf t = [0xF5#8]
  · -- PUSH AF
    obtain ⟨e, h1, h2, h3⟩ := drives_to (drive_step false c) (erase_quiet_next c) hr
    obtain ⟨p, u, rfl, h4, h5, h6⟩ := fetched h1 hpush.1 hpush.2
    obtain ⟨⟨t1, t2, rfl⟩, rfl⟩ := push_runs.1 h5
    obtain ⟨s1, a1, a2⟩ := answered_append.1 hw
    obtain ⟨m1, b1, b2⟩ := start h4 rfl a1
    obtain ⟨τ1, m0, i1⟩ := s1
    obtain ⟨d1, k1, k2⟩ := C67_push_af hc hr hpush.1 hpush.2
    rw [List.map_append, still_storing h4] at k1
    have hsp : ((abs c).bumpR.skip 1).sp = c.getSp := rfl
    have hn : c.getSp - 1 ≠ c.getSp - 2 := by
      generalize c.getSp = s
      bv_omega
    obtain ⟨g1, g2, g3, g4, g5, g6⟩ := a2
    subst g6
    refine done (m1 := fun b => if b = c.getSp - 2 then (if c.getSp - 2 = c.getSp - 2 then d.getFlags else _) else
        if b = c.getSp - 1 then (if c.getSp - 1 = c.getSp - 2 then d.getFlags else _) else m1 b)
      k1 k2 (answered_append.2 ⟨_, b1, ⟨rfl, g2, rfl, g4, rfl, rfl⟩⟩) fun a => ?_
    rw [if_pos rfl, if_neg hn]
    have hf : docByte ((abs c).bumpR.skip 1).f.byte = docByte d.getFlags := by
      rw [show ((abs c).bumpR.skip 1).f.byte = c.getFlags from byte_of _]
      exact hc.2.1
    show docByte (if a = c.getSp - 2 then _ else if a = c.getSp - 1 then _ else m0 a) =
        docByte (if a = c.getSp - 2 then _ else if a = c.getSp - 1 then _ else m1 a) ∧
      (_ → (if a = c.getSp - 2 then _ else if a = c.getSp - 1 then _ else m0 a) =
        (if a = c.getSp - 2 then _ else if a = c.getSp - 1 then _ else m1 a))
    by_cases e1 : a = c.getSp - 2
    · rw [if_pos e1, if_pos e1]
      exact ⟨hf, fun h => absurd (.inr ⟨hpush.1, hpush.2, e1⟩) h⟩
    · rw [if_neg e1, if_neg e1]
      by_cases e2 : a = c.getSp - 1
      · rw [if_pos e2, if_pos e2]
        exact ⟨rfl, fun _ => rfl⟩
      · rw [if_neg e2, if_neg e2]
        refine ⟨(b2 a).1, fun ha => (b2 a).2 fun h => ha (.inl ⟨h, ?_⟩)⟩
        unfold storesOf
        rw [List.filterMap_append, show List.filterMap Ev.store? p = [] from (still_none h4).2]
        show a ∉ [c.getSp - 1, c.getSp - 2]
        intro hm
        rcases List.mem_cons.1 hm with hm | hm
        · exact e2 hm
        · exact e1 (List.mem_singleton.1 hm)
  · obtain ⟨d1, k1, k2⟩ := C67_execute_next hc hr (by
      cases h : shows Q Q' (codesOf (imOf c.getIm) t)
      · rfl
      · exact absurd (hv h) hpush)
    obtain ⟨m1, b1, b2⟩ := blurred_answered io (D := D) (fun e he => by
      have h5 := hd e he
      obtain ⟨r, y⟩ := e
      cases r <;> first
        | exact h5
        | exact ⟨h5.1, fun h => hpop (h5.2 h)⟩) hm hw
    exact done k1 k2 b1 fun a => ⟨(b2 a).1, fun hn => (b2 a).2 fun hd => hn (.inl hd)⟩

/-- In each of `n` steps of a CPU on memory nothing but `POP AF` reads saved flags, and nothing but `PUSH AF` shows
undocumented state. -/
def Careful (Q' : Type) [FlavourSpec Q'] (io : Handler (tsSig w O R) I) :
    Nat → (U16 → Prop) → Cpu Q → BitVec w → Mem → I → Prop
  | 0, _, _, _, _, _ => True
  | n + 1, D, c, τ, m, i =>
    let t := (executeNext false c).trace (ramHost io) (τ, m, i)
    let x := (executeNext false c).run (ramHost io) (τ, m, i)
    Minds D t ∧ (shows Q Q' (codesOf (imOf c.getIm) t) = true → Spec.ackOf t = [] ∧ opcodesOf t = [0xF5#8]) ∧
      Careful Q' io n (stain D c.getSp t) x.1.2 x.2.1 x.2.2.1 x.2.2.2

/-- The addresses of saved flags after `n` steps. -/
def stains (io : Handler (tsSig w O R) I) : Nat → (U16 → Prop) → Cpu Q → BitVec w → Mem → I → U16 → Prop
  | 0, D, _, _, _, _ => D
  | n + 1, D, c, τ, m, i =>
    let x := (executeNext false c).run (ramHost io) (τ, m, i)
    stains io n (stain D c.getSp ((executeNext false c).trace (ramHost io) (τ, m, i))) x.1.2 x.2.1 x.2.2.1 x.2.2.2

/-- C67: programs that save the flags on the stack: the devices cannot tell undocumented state, nor the variants,
apart; memory differs in bits 3 and 5 of the saved flags at most. -/
theorem C67_ram (io : Handler (tsSig w O R) I) {c : Cpu Q} {d : Cpu Q'} (hc : c.obs.Doc d.obs) {D : U16 → Prop}
    {m m' : Mem} (hm : Blurred D m m') (τ : BitVec w) (i : I) (n : Nat) (hn : Careful Q' io n D c τ m i) :
    let x := nextN io false n c τ m i
    let y := nextN io false n d τ m' i
    x.1.obs.Doc y.1.obs ∧ x.2.1 = y.2.1 ∧ x.2.2.2 = y.2.2.2 ∧ Blurred (stains io n D c τ m i) x.2.2.1 y.2.2.1 := by
  induction n generalizing c d D m m' τ i with
  | zero => exact ⟨hc, rfl, rfl, hm⟩
  | succ n ih =>
    obtain ⟨h1, h2, h3⟩ := hn
    obtain ⟨-, k1, k2, k3, k4⟩ := C67_ram_step io hc hm τ i h1 h2
    have hs : ∀ {P : Type} [FlavourSpec P] (c : Cpu P) (m : Mem), nextN io false (n + 1) c τ m i =
        let x := (executeNext false c).run (ramHost io) (τ, m, i)
        nextN io false n x.1.2 x.2.1 x.2.2.1 x.2.2.2 := fun c m => rfl
    have := ih k1 k4 _ _ h3
    rw [hs, hs]
    simp only [← k2, ← k3]
    exact this

/-! ### Examples -/

instance {D : U16 → Prop} [DecidablePred D] {t : List (Ev σ)} : Decidable (Minds D t) := by
  unfold Minds
  exact @List.decidableBAll _ _ (fun e => by split <;> infer_instance) _

instance {D : U16 → Prop} [DecidablePred D] {sp : U16} {t : List (Ev σ)} : DecidablePred (stain D sp t) := fun a => by
  unfold stain
  infer_instance

instance decidableCareful (io : Handler (tsSig w O R) I) (n : Nat) (D : U16 → Prop) [DecidablePred D] (c : Cpu Q) (τ : BitVec w)
    (m : Mem) (i : I) : Decidable (Careful Q' io n D c τ m i) := by
  induction n generalizing D c τ m i with
  | zero => exact isTrue trivial
  | succ n ih =>
    have := ih (stain D c.getSp ((executeNext false c).trace (ramHost io) (τ, m, i)))
    unfold Careful
    infer_instance

/-- CPUs after a reset that differ in undocumented state. -/
def plainN : Cpu NMOS := { Cpu.new with af := ⟨0xFF, 0x00⟩ }
/-- See `plainN`. -/
def oddN : Cpu NMOS := { Cpu.new with af := ⟨0xFF, 0x28⟩, memptr := 0x1234 }
/-- See `plainN`. -/
def oddB : Cpu BM1 := { Cpu.new with af := ⟨0xFF, 0x28⟩, memptr := 0x1234 }

theorem plain_odd : plainN.obs.Doc oddN.obs ∧ plainN.obs.Doc oddB.obs ∧ plainN.obs ≠ oddN.obs := by
  refine ⟨⟨rfl, by decide +kernel, by decide +kernel⟩, ⟨rfl, by decide +kernel, by decide +kernel⟩, fun h => ?_⟩
  exact absurd (congrArg Obs.memptr h) (by decide +kernel)

/-- `LD SP,0x4000; SCF; LD (BC),A; BIT 0,(HL); PUSH AF; INC A; POP AF; OUT (5),A; LD A,I` meets the hypotheses of
`C67_ram`, and memory does differ. -/
def saving : Mem := program [0x31, 0x00, 0x40, 0x37, 0x02, 0xCB, 0x46, 0xF5, 0x3C, 0xF1, 0xD3, 0x05, 0xED, 0x57]

example : Careful NMOS (demoIo false 0 none none) 9 (fun _ => False) plainN 0 saving () ∧
    Careful BM1 (demoIo false 0 none none) 8 (fun _ => False) plainN 0 saving () ∧
    ¬Careful BM1 (demoIo false 0 none none) 9 (fun _ => False) plainN 0 saving () := by decide +kernel

example : (nextN (demoIo false 0 none none) false 8 plainN 0 saving ()).2.2.1 0x3FFE ≠
    (nextN (demoIo false 0 none none) false 8 oddB 0 saving ()).2.2.1 0x3FFE := by decide +kernel

/-- The first steps of it meet those of `C67_program`. -/
example : ∃ l c, Discreet (σ := tsSig 16 Unit Unit) BM1 plainN l c ∧ l.length = 4 := by
  let s1 := (executeNext false plainN).run demo (0, saving, ())
  let s2 := (executeNext false s1.1.2).run demo s1.2
  let s3 := (executeNext false s2.1.2).run demo s2.2
  exact ⟨_, _, .cons (runs_demo demo _ (0, saving, ()) rfl) (by decide +kernel)
    (.cons (runs_demo demo _ s1.2 rfl) (by decide +kernel)
    (.cons (runs_demo demo _ s2.2 rfl) (by decide +kernel)
    (.cons (runs_demo demo _ s3.2 rfl) (by decide +kernel) (.nil _)))), rfl⟩

/-- The exceptions are needed: `PUSH AF` shows the flags to the host; saved flags read by another instruction
(`LD HL,0x3FFE; LD A,(HL)`) reach a documented register; the variants differ in `OUT (C),0` and `LD A,I`. -/
example :
    storesOf ((executeNext false plainN).trace demo (0, program [0xF5], ())) ≠
      storesOf ((executeNext false oddN).trace demo (0, program [0xF5], ())) ∧
    (let go := fun (c : Cpu NMOS) => nextN (demoIo false 0 none none) false 4 c 0
        (program [0x31, 0x00, 0x40, 0xF5, 0x21, 0xFE, 0x3F, 0x7E]) ()
     (go plainN).1.getAcc ≠ (go oddN).1.getAcc) ∧
    (shows NMOS CMOS [0xED, 0x71] ∧ shows NMOS BM1 [0xED, 0x57] ∧ ¬shows NMOS NMOS [0xED, 0x57]) := by decide +kernel

end Z80
