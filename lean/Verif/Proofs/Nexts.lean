import Verif.Proofs.Hist

/-!
# `execute_with_limit` as repeated `execute_next`
-/

namespace Z80
open Ex

variable {σ : Sig} {Q α β γ : Type} [Flavour Q]

/-- `execute_next` called again and again, each call after the first preceded by a test of the
limit `l`, until one call breaks or the limit is reached. -/
inductive Go (l : σ.L) : Cpu Q → List (Ev σ) → Res σ → Cpu Q → Prop
  | stop {c u e c'} (h : (executeNext false c).Runs u (e, c')) (he : e ≠ .ok) : Go l c u e c'
  | last {c u c'} (h : (executeNext false c).Runs u (.ok, c')) :
    Go l c (u ++ [⟨.isPastLimit l, true⟩]) .ok c'
  | step {c u d t e c'} (h : (executeNext false c).Runs u (.ok, d)) (h' : Go l d t e c') :
    Go l c (u ++ ⟨.isPastLimit l, false⟩ :: t) e c'

/-- The plain loop: test the limit, call `execute_next`, and so on until a call breaks or the
limit is reached. -/
def Nexts (l : σ.L) (c : Cpu Q) (t : List (Ev σ)) (e : Res σ) (c' : Cpu Q) : Prop :=
  t = [⟨.isPastLimit l, true⟩] ∧ e = .ok ∧ c' = c ∨
  ∃ u, t = ⟨.isPastLimit l, false⟩ :: u ∧ Go l c u e c'

theorem Go.seq {l : σ.L} {c d c' : Cpu Q} {u v : List (Ev σ)} {e : Res σ}
    (h : (executeNext false c).Runs u (.ok, d)) (h' : Nexts l d v e c') : Go l c (u ++ v) e c' := by
  rcases h' with ⟨rfl, rfl, rfl⟩ | ⟨w, rfl, h'⟩
  · exact .last h
  · exact .step h h'

/-- No interrupting device put the opcode `EI` on the bus. -/
def NoEi (t : List (Ev σ)) : Prop := ∀ pc ts v, ⟨.irqData pc ts, v⟩ ∈ t → v.1 ≠ 0xFB

omit [Flavour Q] in
theorem NoEi.left {t u : List (Ev σ)} (h : NoEi (t ++ u)) : NoEi t :=
  fun pc ts v hv => h pc ts v (List.mem_append_left _ hv)
omit [Flavour Q] in
theorem NoEi.tail {e : Ev σ} {u : List (Ev σ)} (h : NoEi (e :: u)) : NoEi u :=
  fun pc ts v hv => h pc ts v (List.mem_cons_of_mem _ hv)
omit [Flavour Q] in
theorem NoEi.right {t u : List (Ev σ)} (h : NoEi (t ++ u)) : NoEi u :=
  fun pc ts v hv => h pc ts v (List.mem_append_right _ hv)

/-- An instruction fetched without test for interrupts, then `execute_next`. -/
def After (l : σ.L) (c : Cpu Q) (t : List (Ev σ)) (e : Res σ) (c' : Cpu Q) : Prop :=
  ∃ u v e1 d, (fetchExecute false c).Runs u (e1, d) ∧ t = u ++ v ∧
    (e1 = .ok ∧ Nexts l d v e c' ∨ e1 ≠ .ok ∧ v = [] ∧ e = e1 ∧ c' = d)

/-- The calls of the test for an interrupt when none is accepted. -/
def Query (c : Cpu Q) (q : List (Ev σ)) : Prop :=
  c.isIrqAllowed = false ∧ q = [] ∨
  c.isIrqAllowed = true ∧ ∃ ts, q = [⟨.asTimestamp, ts⟩, ⟨.isIrq ts, false⟩]

omit [Flavour Q] in
theorem runs_askIrq (ts : σ.Ts) (a : Bool) :
    (askIrq (σ := σ) true).Runs [⟨.asTimestamp, ts⟩, ⟨.isIrq ts, a⟩] a :=
  Prog.Runs.call .asTimestamp (fun ts => .call (.isIrq ts) .ret) ts [⟨.isIrq ts, a⟩] a
    (Prog.Runs.call (.isIrq ts) .ret a [] a (.ret a))

theorem next_query {c : Cpu Q} {q u : List (Ev σ)} {e d} (hh : c.halt = false) (hq : Query c q)
    (h : (fetchExecute false c).Runs u (e, d)) : (executeNext false c).Runs (q ++ u) (e, d) := by
  unfold executeNext
  refine Prog.runs_bind.2 ⟨q, u, false, rfl, ?_, ?_⟩
  · unfold askIrq
    rcases hq with ⟨h1, rfl⟩ | ⟨h1, ts, rfl⟩
    · rw [h1]; exact .ret _
    · rw [h1]; exact runs_askIrq ts false
  · rw [if_neg Bool.false_ne_true, hh, if_neg Bool.false_ne_true]
    exact h

theorem next_halted {c : Cpu Q} {q : List (Ev σ)} (hh : c.halt = true) (hq : Query c q) (ts : σ.Ts) :
    (executeNext false c).Runs (q ++ [⟨.addM1 c.pc, ts⟩]) (.ok, c.incR) := by
  unfold executeNext
  refine Prog.runs_bind.2 ⟨q, _, false, rfl, ?_, ?_⟩
  · unfold askIrq
    rcases hq with ⟨h1, rfl⟩ | ⟨h1, ts, rfl⟩
    · rw [h1]; exact .ret _
    · rw [h1]; exact runs_askIrq ts false
  · rw [if_neg Bool.false_ne_true, if_pos hh]
    exact Prog.Runs.call (.addM1 c.pc) (fun _ => .ret (Res.ok, c.incR)) ts [] _ (.ret _)

theorem next_irq {c : Cpu Q} {u : List (Ev σ)} {e d} (ha : c.isIrqAllowed = true) (ts : σ.Ts)
    (h : (irqNoCheck false c).Runs u (e, d)) :
    (executeNext false c).Runs (⟨.asTimestamp, ts⟩ :: ⟨.isIrq ts, true⟩ :: u) (e, d) := by
  unfold executeNext
  refine Prog.runs_bind.2 ⟨[_, _], u, true, rfl, ?_, h⟩
  unfold askIrq
  rw [ha]
  exact runs_askIrq ts true

theorem After.go {l : σ.L} {c c' : Cpu Q} {q t : List (Ev σ)} {e : Res σ} (hh : c.halt = false)
    (hq : Query c q) (h : After l c t e c') : Go l c (q ++ t) e c' := by
  obtain ⟨u, v, e1, d, h1, rfl, h2⟩ := h
  have h1 := next_query hh hq h1
  rcases h2 with ⟨rfl, h2⟩ | ⟨h2, rfl, rfl, rfl⟩
  · rw [← List.append_assoc]; exact .seq h1 h2
  · rw [List.append_nil]; exact .stop h1 h2

/-- The result of the loop in terms of `execute_next`. -/
def LoopRes (l : σ.L) (c : Cpu Q) (t : List (Ev σ)) : Reason σ → Cpu Q → Prop
  | .limitReached, c' => After l c t .ok c'
  | .enableInt, c' => After l c t .ok c'
  | .halt, c' => After l c t .halt c'
  | .writeIo o, c' => After l c t (.writeIo o) c'
  | .reti r, c' => After l c t (.reti r) c'
  | .irq, c' => ∃ t1 ts, t = t1 ++ [⟨.asTimestamp, ts⟩, ⟨.isIrq ts, true⟩] ∧
      c'.isIrqAllowed = true ∧ ∀ u e d, Go l c' u e d → After l c (t1 ++ u) e d
  | .ub, _ => False

theorem After.pre {l : σ.L} {c d c' : Cpu Q} {u q t : List (Ev σ)} {e : Res σ}
    (h1 : (fetchExecute false c).Runs u (.ok, d)) (hh : d.halt = false) (hq : Query d q)
    (h : After l d t e c') : After l c (u ++ ⟨.isPastLimit l, false⟩ :: (q ++ t)) e c' :=
  ⟨u, _, _, d, h1, rfl, .inl ⟨rfl, .inr ⟨_, rfl, h.go hh hq⟩⟩⟩

theorem LoopRes.pre {l : σ.L} {c d c' : Cpu Q} {u q t : List (Ev σ)} {r : Reason σ}
    (h1 : (fetchExecute false c).Runs u (.ok, d)) (hh : d.halt = false) (hq : Query d q)
    (h : LoopRes l d t r c') : LoopRes l c (u ++ ⟨.isPastLimit l, false⟩ :: (q ++ t)) r c' := by
  cases r with
  | irq =>
    obtain ⟨t1, ts, rfl, h2, h3⟩ := h
    refine ⟨u ++ ⟨.isPastLimit l, false⟩ :: (q ++ t1), ts, ?_, h2, fun v e c'' h => ?_⟩
    · simp only [List.append_assoc, List.cons_append]
    · have := (h3 v e c'' h).pre h1 hh hq
      simpa only [List.append_assoc, List.cons_append] using this
  | ub => exact h
  | _ => exact After.pre h1 hh hq h

omit [Flavour Q] in
theorem control_halted (code : U8) (ops : List U8) (a : U8) (k : Spec.Ctl) :
    (Spec.control code ops a k).halted = (k.halted || code == 0x76) := by
  by_cases h : code = 0x76
  · subst h; exact (Bool.or_true _).symm
  · rw [beq_eq_false_iff_ne.2 h, Bool.or_false]
    simp only [Spec.control, if_neg h]
    split_ifs <;> first | rfl | skip
    rw [controlEd_eq]
    split <;> rfl

omit [Flavour Q] in
theorem opKind_five {c : U8} (h : opKind c = 5) : c = 0xFB := by
  have := all8_spec (p := fun c => !(opKind c == 5) || c == 0xFB) (by decide +kernel) c
  simpa [h] using this

omit [Flavour Q] in
theorem control_ei (code : U8) (ops : List U8) (a : U8) (k : Spec.Ctl) :
    (Spec.control code ops a k).ei = (k.ei || code == 0xFB) := by
  by_cases h : code = 0xFB
  · subst h
    exact (Bool.or_true _).symm
  · rw [beq_eq_false_iff_ne.2 h, Bool.or_false, control_eq]
    dsimp only
    split <;> try rfl
    · next h' => exact absurd (opKind_five h') h
    · rw [controlEd_eq]
      split <;> rfl

theorem fetch_step {c : Cpu Q} (he : c.lastEi = false) (hh : c.halt = false) :
    fetchExecute (σ := σ) false c = (stepStored c).map fun r => (r.1.toRes, r.2) := by
  rw [fetchExecute_eq]
  congr 2
  cases c
  simp_all

theorem fetch_ei (c : Cpu Q) :
    fetchExecute (σ := σ) false { c with lastEi := false } = fetchExecute false c := by
  rw [fetchExecute_eq, fetchExecute_eq]

omit [Flavour Q] in
theorem query_false {c : Cpu Q} (h : c.isIrqAllowed = false) : Query c ([] : List (Ev σ)) :=
  .inl ⟨h, rfl⟩

omit [Flavour Q] in
theorem step_marks {c d : Cpu Q} {t : List (Ev σ)} {e : Exit σ} (h : StepOk c t e d) :
    (∀ v ∈ t, v.req.isInstr = true) ∧ d.lastEi = (c.lastEi || (match e with
      | .enableInt => true | _ => false)) ∧ d.halt = (c.halt || (match e with
      | .halt => true | _ => false)) := by
  obtain ⟨ts, code, u, rfl, h1, h2, h3, h4, h5, h6⟩ := h.ex
  refine ⟨?_, ?_, ?_⟩
  · intro v hv
    rcases List.mem_cons.1 hv with rfl | hv
    · rfl
    · rcases List.mem_cons.1 hv with rfl | hv
      · rfl
      · exact h1 v hv
  · refine (congrArg Spec.Ctl.ei h4 :).trans ?_
    rw [control_ei]
    show (c.lastEi || _) = _
    congr 1
    cases e with
    | enableInt => exact beq_iff_eq.2 (h5.1 rfl)
    | _ => exact beq_eq_false_iff_ne.2 fun h => nomatch h5.2 h
  · refine (congrArg Spec.Ctl.halted h4 :).trans ?_
    rw [control_halted]
    show (c.halt || _) = _
    congr 1
    cases e with
    | halt => exact beq_iff_eq.2 (h6.1 rfl)
    | _ => exact beq_eq_false_iff_ne.2 fun h => nomatch h6.2 h

theorem loop_next (n : Nat) (l : σ.L) (c : Cpu Q) (he : c.lastEi = false) (hh : c.halt = false) :
    (loopC (σ := σ) n l c).wp fun t r => ∀ e c', r = some (e, c') → LoopRes l c t e c' := by
  induction n generalizing c with
  | zero => exact fun e c' h => nomatch h
  | succ n ih =>
    refine (Prog.wp_bind _ _ _).2 ((Prog.wp_iff _ _).2 ?_)
    rintro t ⟨e, d⟩ hr
    have hs := Prog.runs_wp hr (ok_stepStored c)
    have hs : StepOk c t e d := hs
    obtain ⟨m1, m2, m3⟩ := step_marks hs
    rw [he] at m2
    rw [hh] at m3
    have hf : (fetchExecute (σ := σ) false c).Runs t (e.toRes, d) := by
      rw [fetch_step he hh]
      exact Prog.runs_map.2 ⟨_, hr, rfl⟩
    have stop : ∀ {e' : Res σ}, e.toRes = e' → e' ≠ .ok → After l c (t ++ []) e' d := by
      rintro e' rfl h
      exact ⟨t, [], _, d, hf, rfl, .inr ⟨h, rfl, rfl, rfl⟩⟩
    have last : e.toRes = .ok → After l c (t ++ [⟨.isPastLimit l, true⟩]) .ok d := by
      intro h
      exact ⟨t, _, _, d, hf, rfl, .inl ⟨h, .inl ⟨rfl, rfl, rfl⟩⟩⟩
    cases e with
    | cont =>
      have m2 : d.lastEi = false := m2
      have m3 : d.halt = false := m3
      have hall : (isIntAllowed d.pfx false && d.iff1) = d.isIrqAllowed := by
        rw [Cpu.isIrqAllowed, m2, Bool.and_comm]
      intro past
      cases past with
      | true => rintro e c' ⟨⟩; exact last rfl
      | false =>
        refine wp_askIrq (fun hb => ?_) fun ts a hb => ?_
        · refine Prog.wp_mono ?_ (ih d m2 m3)
          rintro u r h e c' rfl
          exact (h e c' rfl).pre hf m3 (query_false (hall ▸ hb))
        · rw [hall] at hb
          cases a with
          | true =>
            rintro e c' ⟨⟩
            refine ⟨t ++ [⟨.isPastLimit l, false⟩], ts, ?_, hb, fun u e c'' h => ?_⟩
            · rw [List.append_assoc]; rfl
            · rw [List.append_assoc]
              exact ⟨t, _, _, d, hf, rfl, .inl ⟨rfl, .inr ⟨u, rfl, h⟩⟩⟩
          | false =>
            refine Prog.wp_mono ?_ (ih d m2 m3)
            rintro u r h e c' rfl
            exact (h e c' rfl).pre hf m3 (.inr ⟨hb, ts, rfl⟩)
    | enableInt =>
      have m2 : d.lastEi = true := m2
      have m3 : d.halt = false := m3
      intro past
      cases past with
      | true => rintro e c' ⟨⟩; exact last rfl
      | false =>
        refine Prog.wp_mono ?_ (ih { d with lastEi := false } rfl m3)
        rintro u r h e c' rfl
        have hq : Query d ([] : List (Ev σ)) := query_false (by
          rw [Cpu.isIrqAllowed, isIntAllowed, m2]; simp)
        have hA : ∀ {t e c'}, After (σ := σ) l { d with lastEi := false } t e c' →
            After l d t e c' := by
          intro t e c' h
          unfold After at h ⊢
          rwa [fetch_ei] at h
        have h := h e c' rfl
        refine LoopRes.pre hf m3 hq (?_ : LoopRes l d u e c')
        cases e with
        | irq =>
          obtain ⟨t1, ts, g1, g2, g3⟩ := h
          exact ⟨t1, ts, g1, g2, fun v e c'' h => hA (g3 v e c'' h)⟩
        | ub => exact h
        | _ => exact hA h
    | halt => rintro e c' ⟨⟩; exact stop rfl nofun
    | writeIo o => rintro e c' ⟨⟩; exact stop rfl nofun
    | reti o => rintro e c' ⟨⟩; exact stop rfl nofun
    | ub => exact absurd rfl hs.noUb

/-- After an accepted interrupt the loop can go on: the marks are clear, no interrupt is allowed. -/
theorem irq_marks {c d : Cpu Q} {t : List (Ev σ)} {e} (h : (irqNoCheck false c).Runs t (e, d))
    (he : e = .ok) (hn : NoEi t) : d.lastEi = false ∧ d.halt = false ∧
      d.isIrqAllowed = false := by
  obtain ⟨v, ts, w, u, h, rfl⟩ := Prog.runs_wp h (ok_irqNoCheck false c)
  have hv : v ≠ 0xFB := hn c.wake.pc ts (v, w) (by simp)
  have hc : irqCode (imOf c.im) v ≠ 0xFB := by
    unfold irqCode
    split_ifs
    · exact hv
    · decide
    · decide
  have h7 : irqCode (imOf c.im) v ≠ 0x76 := fun h' => by
    have := h.halt.2 h'
    rw [show e = .ok from he] at this
    cases this
  have h1 : d.lastEi = false := by
    refine (congrArg Spec.Ctl.ei h.ctl :).trans ?_
    rw [control_ei, beq_eq_false_iff_ne.2 hc]; rfl
  have h2 : d.halt = false := by
    refine (congrArg Spec.Ctl.halted h.ctl :).trans ?_
    rw [control_halted, beq_eq_false_iff_ne.2 h7]; rfl
  have h3 : d.iff1 = false := by
    refine (congrArg Spec.Ctl.iff1 h.ctl :).trans ?_
    rw [control_eq]
    dsimp only
    split <;> try rfl
    · next h' => exact absurd (opKind_five h') hc
    · rw [controlEd_eq]
      split <;> rfl
  refine ⟨h1, h2, ?_⟩
  rw [Cpu.isIrqAllowed, h3]; rfl

/-- What is shown of the parts of `execute_with_limit`. -/
def LimitNext (F : List (Ev σ) → Res σ → Cpu Q → Prop) (t : List (Ev σ))
    (r : Option (Res σ × Cpu Q)) : Prop :=
  ∀ e c', r = some (e, c') → NoEi t → F t e c'

theorem irqThen_next (l : σ.L) (c : Cpu Q) (k : Cpu Q → Prog σ (Option (Res σ × Cpu Q)))
    (hk : ∀ d, d.lastEi = false → d.halt = false → (k d).wp (LimitNext (After l d)))
    (ha : c.isIrqAllowed = true) (ts : σ.Ts) :
    ((irqNoCheck (σ := σ) false c).bind fun r =>
      (match r.1 with
      | .ok => do
        let past ← ask (.isPastLimit l)
        if past then pure (some (.ok, r.2))
        else k r.2
      | e => pure (some (e, r.2)) : Prog σ _)).wp (LimitNext fun t =>
        Go l c (⟨.asTimestamp, ts⟩ :: ⟨.isIrq ts, true⟩ :: t)) := by
  refine (Prog.wp_bind _ _ _).2 ((Prog.wp_iff _ _).2 ?_)
  rintro t ⟨e, d⟩ hr
  have hs := next_irq ha ts hr
  have stop : e ≠ .ok → ∀ e' c', some (e, d) = some (e', c') → NoEi (t ++ []) →
      Go l c (⟨.asTimestamp, ts⟩ :: ⟨.isIrq ts, true⟩ :: (t ++ [])) e' c' := by
    rintro he e' c' ⟨⟩ _
    rw [List.append_nil]
    exact .stop hs he
  cases e with
  | ok =>
    intro past
    cases past with
    | true =>
      rintro e c' ⟨⟩ _
      exact .last (u := _ :: _ :: t) hs
    | false =>
      by_cases hn : NoEi t
      · obtain ⟨m1, m2, m3⟩ := irq_marks hr rfl hn
        refine Prog.wp_mono ?_ (hk d m1 m2)
        rintro u r h' e c' rfl hN
        exact .step (u := _ :: _ :: t) hs
          ((h' e c' rfl hN.right.tail).go m2 (query_false m3))
      · refine Prog.wp_mono ?_ (Prog.wp_self _)
        intro u r _ e c' _ hN
        exact absurd hN.left hn
  | _ => exact stop nofun

theorem outer_next (n : Nat) (l : σ.L) (k : Nat) (c : Cpu Q) (he : c.lastEi = false)
    (hh : c.halt = false) : (limitOuter (σ := σ) n l k c).wp (LimitNext (After l c)) := by
  induction k generalizing c with
  | zero => exact fun e c' h => nomatch h
  | succ k ih =>
    rw [limitOuter, loop_eq]
    refine (Prog.wp_bind _ _ _).2 (Prog.wp_mono ?_ (loop_next n l c he hh))
    intro t r h
    cases r with
    | none => exact fun e c' h => nomatch h
    | some x =>
      obtain ⟨e, d⟩ := x
      have h := h e d rfl
      cases e with
      | irq =>
        obtain ⟨t1, ts, h1, h2, h3⟩ := h
        refine Prog.wp_mono ?_ (irqThen_next l d (limitOuter n l k) ih h2 ts)
        rintro u r h' e c' rfl hN
        rw [h1, List.append_assoc]
        exact h3 _ _ _ (h' e c' rfl hN.right)
      | ub => exact h.elim
      | _ =>
        rintro e c' ⟨⟩ _
        rw [List.append_nil]
        exact h

theorem start_next (n : Nat) (l : σ.L) (c : Cpu Q) (hh : c.halt = false) :
    (limitStart (σ := σ) n l c).wp (LimitNext (Go l c)) := by
  unfold limitStart
  by_cases he : c.lastEi = true
  · rw [if_pos he]
    refine Prog.wp_mono ?_ (outer_next n l n { c with lastEi := false } rfl hh)
    rintro u r h e c' rfl hN
    have h := h e c' rfl hN
    unfold After at h
    rw [fetch_ei] at h
    exact After.go hh (query_false (by rw [Cpu.isIrqAllowed, isIntAllowed, he]; simp)) h
  · rw [if_neg he]
    have he := Bool.eq_false_iff.2 he
    have hall : (isIntAllowed c.pfx false && c.iff1) = c.isIrqAllowed := by
      rw [Cpu.isIrqAllowed, he, Bool.and_comm]
    rw [hall]
    refine wp_askIrq (fun hb => ?_) fun ts a hb => ?_
    · refine Prog.wp_mono ?_ (outer_next n l n c he hh)
      rintro u r h e c' rfl hN
      exact After.go hh (query_false hb) (h e c' rfl hN)
    · cases a with
      | true =>
        refine Prog.wp_mono ?_ (irqThen_next l c (limitOuter n l n) (outer_next n l n) hb ts)
        rintro u r h e c' rfl hN
        exact h e c' rfl hN.tail.tail
      | false =>
        refine Prog.wp_mono ?_ (outer_next n l n c he hh)
        rintro u r h e c' rfl hN
        exact After.go hh (.inr ⟨hb, ts, rfl⟩) (h e c' rfl hN.tail.tail)

/-- The second test for an interrupt after leaving the halted loop. -/
theorem start_halted (n : Nat) (l : σ.L) (c : Cpu Q) (ha : c.isIrqAllowed = true) :
    (limitStart (σ := σ) n l c).wp fun t r =>
      ∃ ts a u, t = ⟨.asTimestamp, ts⟩ :: ⟨.isIrq ts, a⟩ :: u ∧
        (a = true → LimitNext (Go l c) t r) := by
  have hb := ha
  simp only [Cpu.isIrqAllowed, isIntAllowed, Bool.and_eq_true, Bool.not_eq_true'] at hb
  have hall : (isIntAllowed c.pfx false && c.iff1) = true := by
    rw [hb.1, isIntAllowed, hb.2.1]; rfl
  unfold limitStart
  rw [hb.2.2, if_neg Bool.false_ne_true, hall]
  intro ts a
  cases a with
  | true =>
    refine Prog.wp_mono ?_ (irqThen_next l c (limitOuter n l n) (outer_next n l n) ha ts)
    rintro u r h
    refine ⟨ts, true, u, rfl, fun _ e c' hr hN => ?_⟩
    exact h e c' hr hN.tail.tail
  | false =>
    refine Prog.wp_mono ?_ (Prog.wp_self _)
    intro u r h
    exact ⟨ts, false, u, rfl, nofun⟩

/-- The host does not take back an interrupt request when asked a second time at once. -/
def NoTakeBack (t : List (Ev σ)) : Prop := ∀ ts ts',
  ¬ [⟨.isIrq ts, true⟩, ⟨.asTimestamp, ts'⟩, ⟨.isIrq ts', false⟩] <:+: t

omit [Flavour Q] in
theorem NoTakeBack.right {t u : List (Ev σ)} (h : NoTakeBack (t ++ u)) : NoTakeBack u :=
  fun ts ts' h' => h ts ts' (h'.trans (List.suffix_append t u).isInfix)
omit [Flavour Q] in
theorem NoTakeBack.left {t u : List (Ev σ)} (h : NoTakeBack (t ++ u)) : NoTakeBack t :=
  fun ts ts' h' => h ts ts' (h'.trans (List.prefix_append t u).isInfix)

/-- The calls of `execute_with_limit` on a halted CPU as those of the plain loop: the same, or the
same with one interrupt request asked for twice. -/
def HaltedNext (l : σ.L) (c : Cpu Q) (t : List (Ev σ)) (e : Res σ) (c' : Cpu Q) : Prop :=
  Nexts l c t e c' ∨ ∃ a ts ts' b,
    t = a ++ ([⟨.asTimestamp, ts⟩, ⟨.isIrq ts, true⟩] ++
      ([⟨.asTimestamp, ts'⟩, ⟨.isIrq ts', true⟩] ++ b)) ∧
    Nexts l c (a ++ ([⟨.asTimestamp, ts'⟩, ⟨.isIrq ts', true⟩] ++ b)) e c'

theorem HaltedNext.pre {l : σ.L} {c d c' : Cpu Q} {u t : List (Ev σ)} {e : Res σ}
    (h : (executeNext false c).Runs u (.ok, d)) (h' : HaltedNext l d t e c') :
    HaltedNext l c (⟨.isPastLimit l, false⟩ :: (u ++ t)) e c' := by
  rcases h' with h' | ⟨a, ts, ts', b, rfl, h'⟩
  · exact .inl (.inr ⟨_, rfl, .seq h h'⟩)
  · refine .inr ⟨⟨.isPastLimit l, false⟩ :: (u ++ a), ts, ts', b, ?_, .inr ⟨_, rfl, ?_⟩⟩
    · simp only [List.cons_append, List.append_assoc]
    · show Go l c ((u ++ a) ++ _) e c'
      rw [List.append_assoc]
      exact .seq h h'

theorem halted_next (n : Nat) (l : σ.L) (m : Nat) (c : Cpu Q) (hh : c.halt = true)
    (hp : c.pfx = none) (he : c.lastEi = false) : (limitHalted (σ := σ) n l m c).wp fun t r =>
      ∀ e c', r = some (e, c') → NoEi t → NoTakeBack t → HaltedNext l c t e c' := by
  induction m generalizing c with
  | zero => exact fun e c' h => nomatch h
  | succ m ih =>
    have hall : c.iff1 = c.isIrqAllowed := by
      rw [Cpu.isIrqAllowed, isIntAllowed, hp, he]; simp
    intro past
    cases past with
    | true =>
      rintro e c' ⟨⟩ _ _
      exact .inl (.inl ⟨rfl, rfl, rfl⟩)
    | false =>
      have more : ∀ q : List (Ev σ), Query c q →
          ((haltStep c).bind fun c => limitHalted n l m c).wp fun t r =>
            ∀ e c', r = some (e, c') → NoEi (q ++ t) → NoTakeBack (q ++ t) →
              HaltedNext l c (⟨.isPastLimit l, false⟩ :: (q ++ t)) e c' := by
        intro q hq ts
        refine Prog.wp_mono ?_ (ih c.incR hh hp he)
        rintro u r h e c' rfl hN hT
        have := (h e c' rfl hN.right.tail (hT.right.right (t := [_]))).pre (next_halted hh hq ts)
        rw [List.append_assoc] at this
        exact this
      refine wp_askIrq (fun hb => ?_) fun ts a hb => ?_
      · refine Prog.wp_mono ?_ (more [] (query_false (hall ▸ hb)))
        rintro u r h e c' rfl hN hT
        exact h e c' rfl hN.tail (hT.right (t := [_]))
      · cases a with
        | true =>
          refine Prog.wp_mono ?_ (start_halted n l c (hall ▸ hb))
          rintro t r ⟨ts', b, u, rfl, h⟩ e c' rfl hN hT
          cases b with
          | false =>
            exact absurd ⟨[_, _], u, rfl⟩ (hT ts ts')
          | true =>
            refine .inr ⟨[_], ts, ts', u, rfl, .inr ⟨_, rfl, ?_⟩⟩
            exact h rfl e c' rfl hN.tail.tail.tail
        | false =>
          refine Prog.wp_mono ?_ (more [_, _] (.inr ⟨hall ▸ hb, ts, rfl⟩))
          rintro u r h e c' rfl hN hT
          exact h e c' rfl hN.tail (hT.right (t := [_]))

/-- `execute_with_limit` on a running CPU. -/
theorem limit_next (n : Nat) (l : σ.L) (c : Cpu Q) (hh : c.halt = false) :
    (executeWithLimit (σ := σ) n l c).wp (LimitNext (Nexts l c)) := by
  unfold executeWithLimit
  rw [hh, if_neg Bool.false_ne_true]
  intro past
  cases past with
  | true =>
    rintro e c' ⟨⟩ _
    exact .inl ⟨rfl, rfl, rfl⟩
  | false =>
    refine Prog.wp_mono ?_ (start_next n l c hh)
    rintro u r h e c' rfl hN
    exact .inr ⟨u, rfl, h e c' rfl hN.tail⟩

/-- `execute_with_limit` on a halted CPU. -/
theorem limit_halted (n : Nat) (l : σ.L) (c : Cpu Q) (hh : c.halt = true) (hp : c.pfx = none)
    (he : c.lastEi = false) : (executeWithLimit (σ := σ) n l c).wp fun t r =>
      ∀ e c', r = some (e, c') → NoEi t → NoTakeBack t → HaltedNext l c t e c' := by
  unfold executeWithLimit
  rw [if_pos hh]
  exact halted_next n l n c hh hp he

end Z80
