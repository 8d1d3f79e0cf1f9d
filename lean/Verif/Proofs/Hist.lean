import Verif.Proofs.Limit

/-!
# Histories: any sequence of execution and interrupt methods with any answers of the host
-/

namespace Z80
open Ex

variable {σ : Sig} {Q α β γ : Type} [Flavour Q]

/-- `Hist P c t d`: calling execution and interrupt methods one after another from state `c`, with
some answers of the host, made the calls `t` and led to state `d`. The bytes passed to
`execute_instruction` satisfy `P`. -/
inductive Hist (P : U8 → Prop) : Cpu Q → List (Ev σ) → Cpu Q → Prop
  | start (c) : Hist P c [] c
  | next {c t d} (h : Hist P c t d) (deb) {u e d'} (r : (executeNext deb d).Runs u (e, d')) :
    Hist P c (t ++ u) d'
  | irq {c t d} (h : Hist P c t d) (deb) {u e d'} (r : (irq deb d).Runs u (e, d')) :
    Hist P c (t ++ u) d'
  | nmi {c t d} (h : Hist P c t d) {u e d'} (r : (nmi d).Runs u (e, d')) : Hist P c (t ++ u) d'
  | limit {c t d} (h : Hist P c t d) (n l) {u e d'}
    (r : (executeWithLimit n l d).Runs u (some (e, d'))) : Hist P c (t ++ u) d'
  | instr {c t d} (h : Hist P c t d) (deb code) (hp : P code) {u e d'}
    (r : (executeInstruction deb code d).Runs u (e, d')) : Hist P c (t ++ u) d'

/-- Calls without effect on the control state. -/
def Req.isQuiet : Req σ → Bool
  | .isPastLimit _ => true
  | r => r.isBody

/-- The small steps of control state all methods are made of. -/
inductive Mv (P : U8 → Prop) : Spec.Ctl → List (Ev σ) → Spec.Ctl → Prop
  | quiet (k t) (h : ∀ e ∈ t, e.req.isQuiet = true) : Mv P k t k
  | halted (k a ts) (h : k.halted = true) :
    Mv P k [⟨.addM1 a, ts⟩] { k with r := Spec.refresh k.r 1 }
  | clearEi (k) : Mv P k [] { k with ei := false }
  | fetch (k b a ir ts code u acc) (hu : ∀ v ∈ u, v.req.isInstr = true)
    (hl : (opcodes u).length = Spec.moreOpcodes k.idx code) (hm : m1s u = (opcodes u).length) :
    Mv P k (⟨.addM1 a, ts⟩ :: ⟨.readOpcode a ir ts, code⟩ :: u)
      (Spec.control code (opcodes u) acc
        { k with r := Spec.refresh k.r 1, ei := b && k.ei, halted := b && k.halted })
  | exec (k code u acc) (hp : P code) (hu : ∀ v ∈ u, v.req.isInstr = true)
    (hl : (opcodes u).length = Spec.moreOpcodes k.idx code) (hm : m1s u = (opcodes u).length) :
    Mv P k u (Spec.control code (opcodes u) acc { k with ei := false, halted := false })
  | irq (k a ts b ts' v w u acc) (hi : k.iff1 = true) (hu : ∀ v ∈ u, v.req.isInstr = true)
    (hl : (opcodes u).length = Spec.moreOpcodes k.idx (irqCode k.im v))
    (hm : m1s u = (opcodes u).length) :
    Mv P k (⟨.addIrq a, ts⟩ :: ⟨.irqData b ts', (v, w)⟩ :: u)
      (Spec.control (irqCode k.im v) (opcodes u) acc
        { k with iff1 := false, iff2 := false, ei := false, halted := false,
                 r := Spec.refresh k.r 1 })
  | nmi (k u) (hu : ∀ v ∈ u, v.req.isInstr = true) (ho : opcodes u = []) (hm : m1s u = 1) :
    Mv P k u { k with iff1 := false, ei := false, halted := false, r := Spec.refresh k.r 1 }
  | trans {k t l u m} (h : Mv P k t l) (h' : Mv P l u m) : Mv P k (t ++ u) m

variable {P : U8 → Prop}

omit [Flavour Q] in
theorem Mv.pre {k k' : Spec.Ctl} {t u : List (Ev σ)} (ht : ∀ e ∈ t, e.req.isQuiet = true)
    (h : Mv P k u k') : Mv P k (t ++ u) k' := .trans (.quiet k t ht) h

omit [Flavour Q] in
theorem quiet_body {t : List (Ev σ)} (h : ∀ e ∈ t, e.req.isBody = true) :
    ∀ e ∈ t, e.req.isQuiet = true := by
  rintro ⟨r, a⟩ he
  have := h _ he
  cases r <;> first | rfl | exact this

theorem mv_irq (deb : Bool) (c : Cpu Q) (hi : c.iff1 = true) :
    (irqNoCheck (σ := σ) deb c).wp fun t r => Mv P c.view t r.2.view ∧ r.1 ≠ .ub := by
  refine Prog.wp_mono ?_ (ok_irqNoCheck deb c)
  rintro t r ⟨v, ts, w, u, h, rfl⟩
  have ho : opcodes (⟨.addIrq c.wake.pc, ts⟩ :: ⟨.irqData c.wake.pc ts, (v, w)⟩ :: u) =
    opcodes u := rfl
  have hm : m1s (⟨.addIrq c.wake.pc, ts⟩ :: ⟨.irqData c.wake.pc ts, (v, w)⟩ :: u) = m1s u := by
    rw [m1s, List.countP_cons_of_neg (by exact Bool.false_ne_true),
      List.countP_cons_of_neg (by exact Bool.false_ne_true)]; rfl
  have h1 := h.ctl
  have h2 := h.fetched
  have h3 := h.m1
  rw [ho] at h1 h2 h3
  rw [hm] at h3
  refine ⟨?_, h.noUb⟩
  rw [h1]
  exact .irq c.view _ _ _ _ v w u _ hi h.calls h2 h3

theorem mv_next (deb : Bool) (c : Cpu Q) :
    (executeNext (σ := σ) deb c).wp fun t r => Mv P c.view t r.2.view ∧ r.1 ≠ .ub := by
  refine Prog.wp_mono ?_ (ok_next deb c)
  rintro t ⟨e, c'⟩ h
  cases h with
  | irq ts u ht ha hr =>
    subst ht
    have := (Prog.runs_wp hr (mv_irq (P := P) deb c ha.1))
    refine ⟨.trans (t := [_, _]) (.quiet _ _ ?_) this.1, this.2⟩
    intro e he
    simp only [List.mem_cons, List.not_mem_nil, or_false] at he
    rcases he with rfl | rfl <;> rfl
  | halted q hq ts ht hh he hc =>
    subst ht hc he
    refine ⟨.trans (.quiet _ _ (quiet_body hq)) ?_, nofun⟩
    have := refresh_rOf c.ir c.r 1
    rw [show c.incR.view = { c.view with r := Spec.refresh c.view.r 1 } from by
      simp only [Cpu.view, Spec.Ctl.mk.injEq]
      exact ⟨rfl, this, rfl, rfl, rfl, rfl, rfl, rfl⟩]
    exact .halted _ _ _ hh
  | instr q hq ts ir code u ht hh h =>
    subst ht
    refine ⟨.trans (.quiet _ _ (quiet_body hq)) ?_, h.noUb⟩
    rw [h.ctl]
    have := refresh_rOf c.ir c.r 1
    rw [show ({ c.incR with pc := c.pc + 1#16 } : Cpu Q).view =
        { c.view with r := Spec.refresh c.view.r 1 } from by
      simp only [Cpu.view, Spec.Ctl.mk.injEq]
      exact ⟨rfl, this, rfl, rfl, rfl, rfl, rfl, rfl⟩]
    exact .fetch c.view false _ _ _ code u _ h.calls h.fetched h.m1

theorem mv_instr (deb : Bool) (code : U8) (hp : P code) (c : Cpu Q) :
    (executeInstruction (σ := σ) deb code c).wp fun t r => Mv P c.view t r.2.view ∧ r.1 ≠ .ub := by
  refine Prog.wp_mono ?_ (ok_instruction deb code c)
  intro t r h
  refine ⟨?_, h.noUb⟩
  rw [h.ctl]
  exact .exec c.view code t _ hp h.calls h.fetched h.m1

theorem mv_step (c : Cpu Q) :
    (stepStored (σ := σ) c).wp fun t r => Mv P c.view t r.2.view ∧ r.1 ≠ .ub := by
  refine Prog.wp_mono ?_ (ok_stepStored c)
  rintro t r ⟨⟨ts, code, u, rfl, h1, h2, h3, h4, _⟩, h5⟩
  refine ⟨?_, h5⟩
  rw [h4]
  exact .fetch c.view true _ _ _ code u _ h1 h2 h3

theorem mv_loop (n : Nat) (l : σ.L) (c : Cpu Q) :
    (loopC (σ := σ) n l c).wp fun t r => ∀ e c', r = some (e, c') →
      Mv P c.view t c'.view ∧ e ≠ .ub ∧ (e = .irq → c'.iff1 = true ∧ c'.pfx = none) := by
  induction n generalizing c with
  | zero => exact fun e c' h => nomatch h
  | succ n ih =>
    refine (Prog.wp_bind _ _ _).2 (Prog.wp_mono ?_ (mv_step (P := P) c))
    rintro t ⟨e, d⟩ ⟨h, hu⟩
    have h : Mv P c.view t d.view := h
    cases e with
    | cont =>
      intro past
      cases past with
      | true =>
        rintro e c' ⟨⟩
        exact ⟨.trans h (.quiet _ _ (by simp [Req.isQuiet])), nofun, nofun⟩
      | false =>
        refine wp_askIrq (fun _ => ?_) fun ts a hb => ?_
        · refine Prog.wp_mono ?_ (ih d)
          rintro u r h' e c' rfl
          obtain ⟨g1, g2⟩ := h' e c' rfl
          exact ⟨.trans h (.pre (t := [_]) (by simp [Req.isQuiet]) g1), g2⟩
        · cases a with
          | true =>
            rintro e c' ⟨⟩
            refine ⟨.trans h (.quiet _ _ ?_), nofun, fun _ => ?_⟩
            · intro e he
              simp only [List.mem_cons, List.not_mem_nil, or_false] at he
              rcases he with rfl | rfl | rfl <;> rfl
            · simp only [isIntAllowed, Bool.and_eq_true, Option.isNone_iff_eq_none] at hb
              exact ⟨hb.2, hb.1.1⟩
          | false =>
            refine Prog.wp_mono ?_ (ih d)
            rintro u r h' e c' rfl
            obtain ⟨g1, g2⟩ := h' e c' rfl
            refine ⟨.trans h (.pre (t := [_, _, _]) ?_ g1), g2⟩
            intro e he
            simp only [List.mem_cons, List.not_mem_nil, or_false] at he
            rcases he with rfl | rfl | rfl <;> rfl
    | enableInt =>
      intro past
      cases past with
      | true =>
        rintro e c' ⟨⟩
        exact ⟨.trans h (.quiet _ _ (by simp [Req.isQuiet])), nofun, nofun⟩
      | false =>
        refine Prog.wp_mono ?_ (ih { d with lastEi := false })
        rintro u r h' e c' rfl
        obtain ⟨g1, g2⟩ := h' e c' rfl
        exact ⟨.trans h (.pre (t := [_]) (by simp [Req.isQuiet]) (.trans (t := []) (.clearEi _) g1)),
          g2⟩
    | halt =>
      rintro e c' ⟨⟩
      exact ⟨by simpa using h, nofun, nofun⟩
    | writeIo o =>
      rintro e c' ⟨⟩
      exact ⟨by simpa using h, nofun, nofun⟩
    | reti o =>
      rintro e c' ⟨⟩
      exact ⟨by simpa using h, nofun, nofun⟩
    | ub => exact absurd rfl hu

/-- What is shown of each part of `execute_with_limit`. -/
def LimitOk (P : U8 → Prop) (c : Cpu Q) (t : List (Ev σ)) (r : Option (Res σ × Cpu Q)) : Prop :=
  ∀ e c', r = some (e, c') → Mv P c.view t c'.view ∧ e ≠ .ub

/-- `irq_no_check` followed by the limit test, as it occurs twice in `execute_with_limit`. -/
theorem mv_irqThen (l : σ.L) (c : Cpu Q) (hi : c.iff1 = true)
    (k : Cpu Q → Prog σ (Option (Res σ × Cpu Q))) (hk : ∀ d, (k d).wp (LimitOk P d)) :
    ((irqNoCheck (σ := σ) false c).bind fun r =>
      (match r.1 with
      | .ok => do
        let past ← ask (.isPastLimit l)
        if past then pure (some (.ok, r.2))
        else k r.2
      | e => pure (some (e, r.2)) : Prog σ _)).wp (LimitOk P c) := by
  refine (Prog.wp_bind _ _ _).2 (Prog.wp_mono ?_ (mv_irq (P := P) false c hi))
  rintro t ⟨e, d⟩ ⟨h, hu⟩
  have h : Mv P c.view t d.view := h
  cases e with
  | ok =>
    intro past
    cases past with
    | true =>
      rintro e c' ⟨⟩
      exact ⟨.trans h (.quiet _ _ (by simp [Req.isQuiet])), nofun⟩
    | false =>
      refine Prog.wp_mono ?_ (hk d)
      rintro u r h' e c' rfl
      obtain ⟨g1, g2⟩ := h' e c' rfl
      exact ⟨.trans h (.pre (t := [_]) (by simp [Req.isQuiet]) g1), g2⟩
  | halt => rintro e c' ⟨⟩; exact ⟨by simpa using h, hu⟩
  | writeIo o => rintro e c' ⟨⟩; exact ⟨by simpa using h, hu⟩
  | reti o => rintro e c' ⟨⟩; exact ⟨by simpa using h, hu⟩
  | ub => exact absurd rfl hu

theorem mv_outer (n : Nat) (l : σ.L) (k : Nat) (c : Cpu Q) :
    (limitOuter (σ := σ) n l k c).wp (LimitOk P c) := by
  induction k generalizing c with
  | zero => exact fun e c' h => nomatch h
  | succ k ih =>
    rw [limitOuter, loop_eq]
    refine (Prog.wp_bind _ _ _).2 (Prog.wp_mono ?_ (mv_loop (P := P) n l c))
    intro t r h
    cases r with
    | none => exact fun e c' h => nomatch h
    | some x =>
      obtain ⟨e, d⟩ := x
      obtain ⟨g1, g2, g3⟩ := h e d rfl
      cases e with
      | irq =>
        refine Prog.wp_mono ?_ (mv_irqThen (P := P) l d (g3 rfl).1 (limitOuter n l k) ih)
        rintro u r h' e c' rfl
        obtain ⟨i1, i2⟩ := h' e c' rfl
        exact ⟨.trans g1 i1, i2⟩
      | ub => exact absurd rfl g2
      | _ => rintro e c' ⟨⟩; exact ⟨by simpa using g1, nofun⟩

theorem mv_start (n : Nat) (l : σ.L) (c : Cpu Q) :
    (limitStart (σ := σ) n l c).wp (LimitOk P c) := by
  unfold limitStart
  by_cases he : c.lastEi = true
  · rw [if_pos he]
    refine Prog.wp_mono ?_ (mv_outer (P := P) n l n { c with lastEi := false })
    rintro u r h e c' rfl
    obtain ⟨g1, g2⟩ := h e c' rfl
    exact ⟨.trans (t := []) (.clearEi _) g1, g2⟩
  · rw [if_neg he]
    refine wp_askIrq (fun _ => mv_outer n l n c) fun ts a hb => ?_
    have hq : ∀ e ∈ ([⟨.asTimestamp, ts⟩, ⟨.isIrq ts, a⟩] : List (Ev σ)), e.req.isQuiet = true := by
      intro e he
      simp only [List.mem_cons, List.not_mem_nil, or_false] at he
      rcases he with rfl | rfl <;> rfl
    cases a with
    | true =>
      simp only [Bool.and_eq_true] at hb
      refine Prog.wp_mono ?_ (mv_irqThen (P := P) l c hb.2 (limitOuter n l n) (mv_outer n l n))
      rintro u r h e c' rfl
      obtain ⟨g1, g2⟩ := h e c' rfl
      exact ⟨.pre (t := [_, _]) hq g1, g2⟩
    | false =>
      refine Prog.wp_mono ?_ (mv_outer (P := P) n l n c)
      rintro u r h e c' rfl
      obtain ⟨g1, g2⟩ := h e c' rfl
      exact ⟨.pre (t := [_, _]) hq g1, g2⟩

omit [Flavour Q] in
theorem incR_view (c : Cpu Q) : c.incR.view = { c.view with r := Spec.refresh c.view.r 1 } := by
  have := refresh_rOf c.ir c.r 1
  simp only [Cpu.view, Spec.Ctl.mk.injEq]
  exact ⟨rfl, this, rfl, rfl, rfl, rfl, rfl, rfl⟩

theorem mv_halted (n : Nat) (l : σ.L) (m : Nat) (c : Cpu Q) (hh : c.halt = true) :
    (limitHalted (σ := σ) n l m c).wp (LimitOk P c) := by
  induction m generalizing c with
  | zero => exact fun e c' h => nomatch h
  | succ m ih =>
    intro past
    cases past with
    | true =>
      rintro e c' ⟨⟩
      exact ⟨.quiet _ _ (by simp [Req.isQuiet]), nofun⟩
    | false =>
      have more : ∀ q : List (Ev σ), (∀ e ∈ q, e.req.isQuiet = true) →
          ((haltStep c).bind fun c => limitHalted n l m c).wp fun t r => LimitOk P c (q ++ t) r := by
        intro q hq ts
        refine Prog.wp_mono ?_ (ih c.incR hh)
        rintro u r h e c' rfl
        obtain ⟨g1, g2⟩ := h e c' rfl
        rw [incR_view] at g1
        exact ⟨.pre hq (.trans (t := [_]) (.halted _ _ _ hh) g1), g2⟩
      refine wp_askIrq (fun _ => ?_) fun ts a hb => ?_
      · exact more [_] (by simp [Req.isQuiet])
      · have hq : ∀ e ∈ ([⟨.isPastLimit l, false⟩, ⟨.asTimestamp, ts⟩, ⟨.isIrq ts, a⟩] :
            List (Ev σ)), e.req.isQuiet = true := by
          intro e he
          simp only [List.mem_cons, List.not_mem_nil, or_false] at he
          rcases he with rfl | rfl | rfl <;> rfl
        cases a with
        | true =>
          refine Prog.wp_mono ?_ (mv_start (P := P) n l c)
          rintro u r h e c' rfl
          obtain ⟨g1, g2⟩ := h e c' rfl
          exact ⟨.pre (t := [_, _, _]) hq g1, g2⟩
        | false => exact more [_, _, _] hq

theorem mv_limit (n : Nat) (l : σ.L) (c : Cpu Q) :
    (executeWithLimit (σ := σ) n l c).wp (LimitOk P c) := by
  unfold executeWithLimit
  by_cases hh : c.halt = true
  · rw [if_pos hh]; exact mv_halted n l n c hh
  · rw [if_neg hh]
    intro past
    cases past with
    | true =>
      rintro e c' ⟨⟩
      exact ⟨.quiet _ _ (by simp [Req.isQuiet]), nofun⟩
    | false =>
      refine Prog.wp_mono ?_ (mv_start (P := P) n l c)
      rintro u r h e c' rfl
      obtain ⟨g1, g2⟩ := h e c' rfl
      exact ⟨.pre (t := [_]) (by simp [Req.isQuiet]) g1, g2⟩

/-- Histories are made of the small steps. -/
theorem mv_hist {c c' : Cpu Q} {t : List (Ev σ)} (h : Hist P c t c') : Mv P c.view t c'.view := by
  induction h with
  | start => exact .quiet _ _ (fun _ h => absurd h List.not_mem_nil)
  | next _ deb r ih => exact .trans ih (Prog.runs_wp r (mv_next (P := P) deb _)).1
  | irq _ deb r ih =>
    refine .trans ih ?_
    unfold Z80.irq at r
    split at r
    · next ha =>
      obtain ⟨u, v, a, rfl, h1, h2⟩ := Prog.runs_bind.1 r
      obtain ⟨rfl, h2⟩ := Prog.runs_ret h2
      cases h2
      simp only [Cpu.isIrqAllowed, Bool.and_eq_true] at ha
      simpa using (Prog.runs_wp h1 (mv_irq (P := P) deb _ ha.1)).1
    · obtain ⟨rfl, h2⟩ := Prog.runs_ret r
      cases h2
      exact .quiet _ _ (fun _ h => absurd h List.not_mem_nil)
  | nmi _ r ih =>
    refine .trans ih ?_
    unfold Z80.nmi at r
    split at r
    · obtain ⟨u, v, a, rfl, h1, h2⟩ := Prog.runs_bind.1 r
      obtain ⟨rfl, h2⟩ := Prog.runs_ret h2
      cases h2
      have := Prog.runs_wp h1 (ok_nmiNoCheck _)
      rw [List.append_nil, this.ctl]
      exact .nmi _ _ this.calls this.opc this.m1
    · obtain ⟨rfl, h2⟩ := Prog.runs_ret r
      cases h2
      exact .quiet _ _ (fun _ h => absurd h List.not_mem_nil)
  | limit _ n l r ih => exact .trans ih (Prog.runs_wp r (mv_limit (P := P) n l _) _ _ rfl).1
  | instr _ deb code hp r ih => exact .trans ih (Prog.runs_wp r (mv_instr deb code hp _)).1

end Z80
