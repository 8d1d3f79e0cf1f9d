import Verif.Props.Limit
import Verif.Proofs.Lap

/-!
# `execute_with_limit` as a sequence of moves, halted or not
-/

namespace Z80
open Ex

variable {σ : Sig} {Q : Type}

section
variable [Flavour Q]

/-- One round of `execute_with_limit`: what `execute_next` does, except that the interrupt request
which wakes a halted CPU is asked for once more. -/
def Move (c : Cpu Q) (u : List (Ev σ)) (e : Res σ) (d : Cpu Q) : Prop :=
  (executeNext false c).Runs u (e, d) ∧
      (c.halt = true → ∀ ts v, u ≠ ⟨.asTimestamp, ts⟩ :: ⟨.isIrq ts, true⟩ :: v) ∨
    c.halt = true ∧ ∃ ts ts' v, u = ⟨.asTimestamp, ts⟩ :: ⟨.isIrq ts, true⟩ ::
        ⟨.asTimestamp, ts'⟩ :: ⟨.isIrq ts', true⟩ :: v ∧
      (executeNext false c).Runs (⟨.asTimestamp, ts'⟩ :: ⟨.isIrq ts', true⟩ :: v) (e, d)

/-- Rounds, each after a test of the limit, until the limit is reached or a round returns something
else than `Ok`. -/
inductive Trip (l : σ.L) : Cpu Q → List (Ev σ) → Res σ → Cpu Q → Prop
  | past (c) : Trip l c [⟨.isPastLimit l, true⟩] .ok c
  | stop {c u e d} (h : Move c u e d) (he : e ≠ .ok) : Trip l c (⟨.isPastLimit l, false⟩ :: u) e d
  | step {c u d t e c'} (h : Move c u .ok d) (h' : Trip l d t e c') :
    Trip l c (⟨.isPastLimit l, false⟩ :: (u ++ t)) e c'

/-- `execute_with_limit` returns. -/
def Ends (l : σ.L) (c : Cpu Q) (t : List (Ev σ)) (r : Res σ × Cpu Q) : Prop :=
  ∃ n, (executeWithLimit n l c).Runs t (some r)

omit [Flavour Q] in
theorem askIrq_inv {b i : Bool} {q : List (Ev σ)} (h : (askIrq (σ := σ) b).Runs q i) :
    b = false ∧ q = [] ∧ i = false ∨
      b = true ∧ ∃ ts, q = [⟨.asTimestamp, ts⟩, ⟨.isIrq ts, i⟩] := by
  cases b with
  | false =>
    obtain ⟨rfl, rfl⟩ := Prog.runs_ret h
    exact .inl ⟨rfl, rfl, rfl⟩
  | true =>
    obtain ⟨ts, u, rfl, h1⟩ := Prog.runs_call (r := .asTimestamp) h
    obtain ⟨a, u, rfl, h2⟩ := Prog.runs_call (r := .isIrq ts) h1
    obtain ⟨rfl, rfl⟩ := Prog.runs_ret h2
    exact .inr ⟨rfl, ts, rfl⟩

/-- The three kinds of `execute_next`. -/
theorem next_inv {c d : Cpu Q} {u : List (Ev σ)} {e} (h : (executeNext false c).Runs u (e, d)) :
    (∃ q v, Query c q ∧ u = q ++ v ∧ c.halt = false ∧ (fetchExecute false c).Runs v (e, d)) ∨
    (∃ q ts, Query c q ∧ u = q ++ [⟨.addM1 c.pc, ts⟩] ∧ c.halt = true ∧ e = .ok ∧ d = c.incR) ∨
    (∃ ts v, c.isIrqAllowed = true ∧ u = ⟨.asTimestamp, ts⟩ :: ⟨.isIrq ts, true⟩ :: v ∧
      (irqNoCheck false c).Runs v (e, d)) := by
  unfold executeNext at h
  have h : (Prog.bind (askIrq c.isIrqAllowed) fun i => if i then irqNoCheck false c
    else if c.halt then (haltStep c).bind fun c => Prog.ret (.ok, c)
    else fetchExecute false c).Runs u (e, d) := h
  obtain ⟨q, v, i, rfl, hq, h'⟩ := Prog.runs_bind.1 h
  have hQ : i = false → Query c q := by
    rintro rfl
    rcases askIrq_inv hq with ⟨h1, h2, -⟩ | ⟨h1, ts, h2⟩
    · exact .inl ⟨h1, h2⟩
    · exact .inr ⟨h1, ts, h2⟩
  cases i with
  | true =>
    rcases askIrq_inv hq with ⟨h1, h2, h3⟩ | ⟨h1, ts, rfl⟩
    · cases h3
    · exact .inr (.inr ⟨ts, v, h1, rfl, h'⟩)
  | false =>
    cases hh : c.halt with
    | false =>
      rw [hh] at h'
      exact .inl ⟨q, v, hQ rfl, rfl, rfl, h'⟩
    | true =>
      rw [hh] at h'
      obtain ⟨ts, v, rfl, h''⟩ := Prog.runs_call (r := .addM1 c.pc) h'
      obtain ⟨rfl, h3⟩ := Prog.runs_ret h''
      cases h3
      exact .inr (.inl ⟨q, ts, hQ rfl, rfl, rfl, rfl, rfl⟩)

theorem fetch_running {c d : Cpu Q} {u : List (Ev σ)}
    (h : (fetchExecute false c).Runs u (.ok, d)) : d.halt = false := by
  rw [fetchExecute_eq] at h
  obtain ⟨⟨e2, d2⟩, hx', h2⟩ := Prog.runs_map.1 h
  have hs := Prog.runs_wp hx' (ok_stepStored _)
  have hs : StepOk _ u e2 d2 := hs
  have m := (step_marks hs).2.2
  cases e2 <;> cases h2 <;> exact m

theorem next_running {c d : Cpu Q} {u : List (Ev σ)} (hN : NoEi u) (hc : c.halt = false)
    (h : (executeNext false c).Runs u (.ok, d)) : d.halt = false := by
  rcases next_inv h with ⟨q, v, -, rfl, -, h2⟩ | ⟨q, ts, -, -, hh, -⟩ | ⟨ts, v, -, rfl, h2⟩
  · exact fetch_running h2
  · rw [hc] at hh; cases hh
  · exact (irq_marks h2 rfl hN.tail.tail).2.1

theorem Move.running {c d : Cpu Q} {u : List (Ev σ)} {e} (hc : c.halt = false) :
    Move c u e d ↔ (executeNext false c).Runs u (e, d) := by
  constructor
  · rintro (h | ⟨h, -⟩)
    · exact h.1
    · rw [hc] at h; cases h
  · exact fun h => .inl ⟨h, fun hh => by rw [hc] at hh; cases hh⟩

theorem go_trip {l : σ.L} {c c' : Cpu Q} {u : List (Ev σ)} {e} (h : Go l c u e c')
    (hc : c.halt = false) (hN : NoEi u) : Trip l c (⟨.isPastLimit l, false⟩ :: u) e c' := by
  induction h with
  | stop h he => exact .stop ((Move.running hc).2 h) he
  | last h => exact .step ((Move.running hc).2 h) (.past _)
  | step h _ ih =>
    exact .step ((Move.running hc).2 h) (ih (next_running hN.left hc h) hN.right.tail)

theorem ends_running {l : σ.L} {c c' : Cpu Q} {t : List (Ev σ)} {e} (hc : c.halt = false)
    (hN : NoEi t) (h : Ends l c t (e, c')) : Trip l c t e c' := by
  obtain ⟨n, h⟩ := h
  rcases Prog.runs_wp h (limit_next n l c hc) _ _ rfl hN with ⟨rfl, rfl, rfl⟩ | ⟨u, rfl, h'⟩
  · exact .past _
  · exact go_trip h' hc hN.tail

omit [Flavour Q] in
theorem calm_allowed {c : Cpu Q} (hp : c.pfx = none) (he : c.lastEi = false) :
    c.iff1 = c.isIrqAllowed ∧ (isIntAllowed c.pfx false && c.iff1) = c.isIrqAllowed := by
  rw [Cpu.isIrqAllowed, isIntAllowed, isIntAllowed, hp, he]
  simp

/-- After an accepted interrupt the loops start without a test for another one. -/
theorem start_after {n : Nat} {l : σ.L} {d : Cpu Q} (h1 : d.lastEi = false)
    (h3 : d.isIrqAllowed = false) : limitStart n l d = limitOuter n l n d := by
  have hd : (isIntAllowed d.pfx false && d.iff1) = d.isIrqAllowed := by
    rw [Cpu.isIrqAllowed, h1, Bool.and_comm]
  rw [limitStart, if_neg (by rw [h1]; exact Bool.false_ne_true), hd, h3]
  rfl

theorem limit_running {n : Nat} {l : σ.L} {d : Cpu Q} (h : d.halt = false) :
    executeWithLimit n l d = .call (.isPastLimit l) fun past =>
      if past then .ret (some (.ok, d)) else limitStart n l d := by
  rw [executeWithLimit, h, if_neg Bool.false_ne_true]
  rfl

theorem Trip.step' {l : σ.L} {c d c' : Cpu Q} {u t w : List (Ev σ)} {e} (h : Move c u .ok d)
    (h' : Trip l d t e c') (hw : w = ⟨.isPastLimit l, false⟩ :: (u ++ t)) : Trip l c w e c' := by
  subst hw
  exact .step h h'

theorem halted_trip (n : Nat) {l : σ.L} (m : Nat) {c c' : Cpu Q} {t : List (Ev σ)} {e}
    (hh : c.halt = true) (hp : c.pfx = none) (he : c.lastEi = false) (hN : NoEi t)
    (hT : NoTakeBack t) (h : (limitHalted n l m c).Runs t (some (e, c'))) : Trip l c t e c' := by
  induction m generalizing c t with
  | zero => cases (Prog.runs_ret h).2
  | succ m ih =>
    obtain ⟨a1, a2⟩ := calm_allowed hp he
    obtain ⟨past, u, rfl, h'⟩ := Prog.runs_call (r := .isPastLimit l) h
    cases past with
    | true =>
      obtain ⟨rfl, hx⟩ := Prog.runs_ret h'
      cases hx
      exact .past _
    | false =>
      have h' : (Prog.bind (askIrq c.iff1) fun i => if i then limitStart n l c
        else (haltStep c).bind fun c => limitHalted n l m c).Runs u (some (e, c')) := h'
      obtain ⟨q, v, i, rfl, hq, h2⟩ := Prog.runs_bind.1 h'
      rw [a1] at hq
      cases i with
      | false =>
        have hQ : Query c q := by
          rcases askIrq_inv hq with ⟨h1, h2, -⟩ | ⟨h1, ts, h2⟩
          · exact .inl ⟨h1, h2⟩
          · exact .inr ⟨h1, ts, h2⟩
        obtain ⟨ts, w, rfl, h3⟩ := Prog.runs_call (r := .addM1 c.pc) h2
        have ht := ih (c := c.incR) hh hp he hN.tail.right.tail
          (((hT.right (t := [_])).right).right (t := [_])) h3
        refine Trip.step' (.inl ⟨next_halted hh hQ ts, fun _ ts' v hv => ?_⟩) ht ?_
        · rcases hQ with ⟨-, rfl⟩ | ⟨-, x, rfl⟩ <;> cases hv
        · rw [List.append_assoc]
          rfl
      | true =>
        rcases askIrq_inv hq with ⟨h1, h2, h3⟩ | ⟨ha, ts, rfl⟩
        · cases h3
        have h2 : (limitStart n l c).Runs v (some (e, c')) := h2
        rw [limitStart, if_neg (by rw [he]; exact Bool.false_ne_true), a2] at h2
        obtain ⟨q, w, i, rfl, hq, h3⟩ := Prog.runs_bind.1 h2
        rcases askIrq_inv hq with ⟨h1, -, -⟩ | ⟨-, ts', rfl⟩
        · rw [ha] at h1; cases h1
        cases i with
        | false => exact absurd ⟨[_, _], w, rfl⟩ (hT ts ts')
        | true =>
          have h3 : (Prog.bind (irqNoCheck false c) fun r => _).Runs w (some (e, c')) := h3
          obtain ⟨a, v, ⟨e1, d⟩, rfl, hr, h4⟩ := Prog.runs_bind.1 h3
          have hNa : NoEi a := hN.tail.right.right.left
          have mv : Move c (⟨.asTimestamp, ts⟩ :: ⟨.isIrq ts, true⟩ ::
              ⟨.asTimestamp, ts'⟩ :: ⟨.isIrq ts', true⟩ :: a) e1 d :=
            .inr ⟨hh, ts, ts', a, rfl, next_irq ha ts' hr⟩
          cases e1 with
          | ok =>
            obtain ⟨past, w, rfl, h5⟩ := Prog.runs_call (r := .isPastLimit l) h4
            obtain ⟨m1, m2, m3⟩ := irq_marks hr rfl hNa
            refine Trip.step' mv (ends_running m2 hN.tail.right.right.right ⟨n, ?_⟩) rfl
            rw [limit_running m2, start_after m1 m3]
            have h5 : (if past then Prog.ret (some (Res.ok, d)) else limitOuter n l n d).Runs w
              (some (e, c')) := h5
            exact .call (.isPastLimit l) _ past w _ h5
          | _ =>
            obtain ⟨rfl, hx⟩ := Prog.runs_ret h4
            cases hx
            rw [List.append_nil]
            have := Trip.stop (l := l) mv (by nofun)
            exact this

/-- `execute_with_limit` is a sequence of rounds. -/
theorem ends_trip {l : σ.L} {c c' : Cpu Q} {t : List (Ev σ)} {e} (hc : Calm c) (hN : NoEi t)
    (hT : NoTakeBack t) (h : Ends l c t (e, c')) : Trip l c t e c' := by
  cases hh : c.halt with
  | false => exact ends_running hh hN h
  | true =>
    obtain ⟨n, h⟩ := h
    rw [executeWithLimit, if_pos hh] at h
    exact halted_trip n n hh (hc hh).1 (hc hh).2 hN hT h

/-- The other direction needs no condition on repeated queries: they are part of the rounds. -/
theorem trip_ends {l : σ.L} {c c' : Cpu Q} {t : List (Ev σ)} {e} (h : Trip l c t e c')
    (hc : Calm c) (hN : NoEi t) : Ends l c t (e, c') := by
  have wake : ∀ {c d : Cpu Q} {u v : List (Ev σ)} {e1 : Res σ} {r : Res σ × Cpu Q}, Calm c →
      c.halt = true → NoEi u → ∀ ts ts', (executeNext false c).Runs
        (⟨.asTimestamp, ts'⟩ :: ⟨.isIrq ts', true⟩ :: u) (e1, d) →
      (e1 ≠ .ok ∧ v = [] ∧ r = (e1, d) ∨ e1 = .ok ∧ (d.halt = false → Ends l d v r)) →
      Ends l c (⟨.isPastLimit l, false⟩ :: ((⟨.asTimestamp, ts⟩ :: ⟨.isIrq ts, true⟩ ::
        ⟨.asTimestamp, ts'⟩ :: ⟨.isIrq ts', true⟩ :: u) ++ v)) r := by
    intro c d u v e1 r hc hh hN ts ts' h hv
    obtain ⟨hp, he⟩ := hc hh
    have he : c.lastEi = false := he
    obtain ⟨a1, a2⟩ := calm_allowed hp he
    obtain ⟨ha, hr⟩ : c.isIrqAllowed = true ∧ (irqNoCheck false c).Runs u (e1, d) := by
      rcases next_inv h with ⟨-, -, -, -, h, -⟩ | ⟨q, x, hq, hu, -⟩ | ⟨x, v, ha, hu, hr⟩
      · rw [hh] at h; cases h
      · rcases hq with ⟨-, rfl⟩ | ⟨-, y, rfl⟩ <;> cases hu
      · cases hu
        exact ⟨ha, hr⟩
    have main : ∃ n, (limitStart n l c).Runs
        (⟨.asTimestamp, ts'⟩ :: ⟨.isIrq ts', true⟩ :: (u ++ v)) (some r) := by
      have go : ∀ n, ((match e1 with
            | .ok => Prog.call (.isPastLimit l) fun (past : Bool) =>
              if past then .ret (some (.ok, d)) else limitOuter n l n d
            | e => .ret (some (e, d)) : Prog σ (Option (Res σ × Cpu Q))).Runs v (some r)) →
          ∃ n, (limitStart n l c).Runs
            (⟨.asTimestamp, ts'⟩ :: ⟨.isIrq ts', true⟩ :: (u ++ v)) (some r) := by
        intro n h
        refine ⟨n, ?_⟩
        rw [limitStart, if_neg (by rw [he]; exact Bool.false_ne_true), a2, ha]
        refine .call .asTimestamp _ ts' _ _ (.call (.isIrq ts') _ true _ _ ?_)
        show (Prog.bind (irqNoCheck false c) fun r => _).Runs _ _
        exact Prog.runs_bind.2 ⟨u, v, (e1, d), rfl, hr, h⟩
      rcases hv with ⟨h1, rfl, rfl⟩ | ⟨rfl, h1⟩
      · refine go 0 ?_
        cases e1 with
        | ok => exact absurd rfl h1
        | _ => exact .ret _
      · obtain ⟨m1, m2, m3⟩ := irq_marks hr rfl hN
        obtain ⟨n, h1⟩ := h1 m2
        rw [limit_running m2, start_after m1 m3] at h1
        exact go n h1
    obtain ⟨n, main⟩ := main
    refine ⟨n + 1, ?_⟩
    rw [executeWithLimit, if_pos hh]
    refine .call (.isPastLimit l) _ false _ _ ?_
    show (Prog.bind (askIrq c.iff1) _).Runs _ _
    rw [a1, ha]
    refine .call .asTimestamp _ ts _ _ (.call (.isIrq ts) _ true _ _ ?_)
    exact Prog.le_runs (start_le (by omega) l c) main
  induction h with
  | past c =>
    cases hh : c.halt with
    | false =>
      refine ⟨0, ?_⟩
      rw [limit_running hh]
      exact .call (.isPastLimit l) _ true _ _ (.ret _)
    | true =>
      refine ⟨1, ?_⟩
      rw [executeWithLimit, if_pos hh]
      exact .call (.isPastLimit l) _ true _ _ (.ret _)
  | @stop c u e d h he =>
    rcases h with ⟨h, hw⟩ | ⟨hh, ts, ts', v, rfl, h⟩
    · cases hh : c.halt with
      | false =>
        exact nexts_limit (.inr ⟨u, rfl, .stop h he⟩) hh hN
      | true =>
        rcases next_inv h with ⟨-, -, -, -, h, -⟩ | ⟨-, -, -, -, -, h, -⟩ | ⟨ts, v, -, hu, -⟩
        · rw [hh] at h; cases h
        · exact absurd h he
        · exact absurd hu (hw hh ts v)
    · have := wake (v := []) hc hh hN.tail.tail.tail.tail.tail ts ts' h (.inl ⟨he, rfl, rfl⟩)
      rw [List.append_nil] at this
      exact this
  | @step c u d t e c' h h' ih =>
    rcases h with ⟨h, hw⟩ | ⟨hh, ts, ts', v, rfl, h⟩
    · cases hh : c.halt with
      | false =>
        have hd := next_running hN.tail.left hh h
        have hN' : NoEi t := hN.tail.right
        obtain ⟨n, ih⟩ := ih (fun h => by rw [Cpu.isHalt, hd] at h; cases h) hN'
        exact nexts_limit (.inr ⟨_, rfl, .seq h
          (Prog.runs_wp ih (limit_next n l d hd) _ _ rfl hN')⟩) hh hN
      | true =>
        rcases next_inv h with ⟨-, -, -, -, h, -⟩ | ⟨q, ts, hq, rfl, -, -, rfl⟩ | ⟨ts, v, -, hu, -⟩
        · rw [hh] at h; cases h
        · obtain ⟨n, ih⟩ := ih hc hN.tail.right
          have hhd : c.incR.halt = true := hh
          rw [executeWithLimit, if_pos hhd] at ih
          refine ⟨n + 1, ?_⟩
          rw [executeWithLimit, if_pos hh]
          refine .call (.isPastLimit l) _ false _ _ ?_
          obtain ⟨hp, he⟩ := hc hh
          obtain ⟨a1, a2⟩ := calm_allowed hp he
          show (Prog.bind (askIrq c.iff1) _).Runs _ _
          rw [a1, List.append_assoc]
          refine Prog.runs_bind.2 ⟨q, _, false, rfl, ?_, ?_⟩
          · rcases hq with ⟨h1, rfl⟩ | ⟨h1, x, rfl⟩
            · rw [h1]; exact .ret _
            · rw [h1]; exact runs_askIrq x false
          · exact .call (.addM1 c.pc) _ ts _ _
              (Prog.le_runs (halted_le (by omega) l (Nat.le_refl n) _) ih)
        · exact absurd hu (hw hh ts v)
    · refine wake hc hh hN.tail.left.tail.tail.tail.tail ts ts' h (.inr ⟨rfl, fun hd => ?_⟩)
      exact ih (fun h => by rw [Cpu.isHalt, hd] at h; cases h) hN.tail.right

/-! ## Changing the limit -/

/-- The same event with another limit in the test of the limit. -/
def Ev.retarget (l : σ.L) : Ev σ → Ev σ
  | ⟨.isPastLimit _, b⟩ => ⟨.isPastLimit l, b⟩
  | e => e

/-- No test of the limit. -/
def NoTest (t : List (Ev σ)) : Prop := ∀ v ∈ t, ∀ k b, v ≠ ⟨.isPastLimit k, b⟩

omit [Flavour Q] in
theorem NoTest.map {t : List (Ev σ)} (h : NoTest t) (l : σ.L) : t.map (Ev.retarget l) = t := by
  refine (List.map_congr_left fun e he => ?_).trans (List.map_id t)
  obtain ⟨r, a⟩ := e
  cases r with
  | isPastLimit k => exact absurd rfl (h _ he k a)
  | _ => rfl

theorem next_noTest {c d : Cpu Q} {u : List (Ev σ)} {e} (h : (executeNext false c).Runs u (e, d)) :
    NoTest u := by
  rintro v hv k b rfl
  cases Prog.runs_wp h (ok_next false c) with
  | irq ts w ht ha hr =>
    obtain ⟨v, ts, w, x, h1, rfl⟩ := Prog.runs_wp hr (ok_irqNoCheck false c)
    subst ht
    simp only [List.mem_cons] at hv
    rcases hv with hv | hv | hv | hv | hv
    · cases hv
    · cases hv
    · cases hv
    · cases hv
    · exact absurd (h1.calls _ hv) Bool.false_ne_true
  | halted q hq ts ht =>
    subst ht
    rcases List.mem_append.1 hv with hv | hv
    · exact absurd (hq _ hv) Bool.false_ne_true
    · cases List.mem_singleton.1 hv
  | instr q hq ts ir code w ht hh hi =>
    subst ht
    rcases List.mem_append.1 hv with hv | hv
    · exact absurd (hq _ hv) Bool.false_ne_true
    · simp only [List.mem_cons] at hv
      rcases hv with hv | hv | hv
      · cases hv
      · cases hv
      · exact absurd (hi.calls _ hv) Bool.false_ne_true

theorem Move.noTest {c d : Cpu Q} {u : List (Ev σ)} {e} (h : Move c u e d) : NoTest u := by
  rcases h with ⟨h, -⟩ | ⟨-, ts, ts', v, rfl, h⟩
  · exact next_noTest h
  · have h1 := next_noTest h
    rintro x hx k b rfl
    simp only [List.mem_cons] at hx
    rcases hx with hx | hx | hx
    · cases hx
    · cases hx
    · exact h1 _ (by simpa using hx) k b rfl

/-- The rounds up to one limit, then those up to another. -/
theorem trip_join {l l' : σ.L} {c d : Cpu Q} {w : List (Ev σ)} (h : Trip l c w .ok d) :
    ∃ t, w = t ++ [⟨.isPastLimit l, true⟩] ∧ ∀ {u e c'}, Trip l' d u e c' →
      Trip l' c (t.map (Ev.retarget l') ++ u) e c' := by
  generalize he : (Res.ok : Res σ) = r at h
  induction h with
  | past c => exact ⟨[], rfl, fun h => h⟩
  | stop h hne => exact absurd he.symm hne
  | @step c u d t e c' h h' ih =>
    obtain ⟨t', rfl, ih2⟩ := ih he
    refine ⟨⟨.isPastLimit l, false⟩ :: (u ++ t'), by rw [List.cons_append, List.append_assoc], ?_⟩
    intro v e c' hv
    rw [List.map_cons, List.map_append, h.noTest.map, List.cons_append, List.append_assoc]
    exact .step h (ih2 hv)

/-- The rounds up to a limit can be interrupted at any test of the limit. -/
theorem trip_split {l l' : σ.L} {c c' : Cpu Q} {w t u : List (Ev σ)} {e : Res σ} {k : σ.L} {b : Bool}
    (h : Trip l' c w e c') (hw : w = t ++ ⟨.isPastLimit k, b⟩ :: u) :
    ∃ d, Trip l c (t.map (Ev.retarget l) ++ [⟨.isPastLimit l, true⟩]) .ok d ∧
      Trip l' d (⟨.isPastLimit k, b⟩ :: u) e c' := by
  induction h generalizing t with
  | past c =>
    cases t with
    | nil =>
      refine ⟨c, .past c, ?_⟩
      rw [← List.nil_append (_ :: u), ← hw]
      exact .past c
    | cons x t => cases t <;> cases hw
  | @stop c v e d h he =>
    cases t with
    | nil =>
      refine ⟨c, .past c, ?_⟩
      rw [← List.nil_append (_ :: u), ← hw]
      exact .stop h he
    | cons x t =>
      rw [List.cons_append] at hw
      injection hw with h1 h2
      exact absurd rfl (h.noTest ⟨.isPastLimit k, b⟩ (by rw [h2]; simp) k b)
  | @step c v d s e c' h h' ih =>
    cases t with
    | nil =>
      refine ⟨c, .past c, ?_⟩
      rw [← List.nil_append (_ :: u), ← hw]
      exact .step h h'
    | cons x t =>
      rw [List.cons_append] at hw
      injection hw with h1 h2
      rcases List.append_eq_append_iff.1 h2 with ⟨a, rfl, ha⟩ | ⟨a, rfl, ha⟩
      · obtain ⟨d', g1, g2⟩ := ih ha
        refine ⟨d', ?_, g2⟩
        rw [List.map_cons, List.map_append, h.noTest.map, ← h1, List.cons_append, List.append_assoc]
        exact .step h g1
      · cases a with
        | nil =>
          obtain ⟨d', g1, g2⟩ := ih (t := []) (by simpa using ha.symm)
          refine ⟨d', ?_, g2⟩
          rw [List.map_cons, ← h1, List.cons_append]
          have hn : NoTest t := fun v hv => h.noTest v (by simpa using hv)
          rw [hn.map]
          rw [List.append_nil] at h
          exact .step h g1
        | cons y a =>
          rw [List.cons_append] at ha
          injection ha with h3 h4
          subst h3
          exact absurd rfl (h.noTest ⟨.isPastLimit k, b⟩ (by simp) k b)

/-- A trip that ends with a break does not depend on the limit. -/
theorem trip_break {l l' : σ.L} {c c' : Cpu Q} {t : List (Ev σ)} {e : Res σ} (h : Trip l c t e c')
    (he : e ≠ .ok) : Trip l' c (t.map (Ev.retarget l')) e c' := by
  induction h with
  | past => exact absurd rfl he
  | stop h hne =>
    rw [List.map_cons, h.noTest.map]
    exact .stop h hne
  | step h _ ih =>
    rw [List.map_cons, List.map_append, h.noTest.map]
    exact .step h (ih he)

end

/-! ## Calls answered by a given host -/

section
variable {S : Type}

/-- The calls `t` are answered by the host `H`, whose state goes from `s` to `s'`. -/
def Follows (H : Handler σ S) : S → List (Ev σ) → S → Prop
  | s, [], s' => s' = s
  | s, e :: t, s' => (H e.req s).1 = e.ans ∧ Follows H (H e.req s).2 t s'

theorem follows_append {H : Handler σ S} {s s' : S} {t u : List (Ev σ)} :
    Follows H s (t ++ u) s' ↔ ∃ s1, Follows H s t s1 ∧ Follows H s1 u s' := by
  induction t generalizing s with
  | nil => exact ⟨fun h => ⟨s, rfl, h⟩, fun ⟨_, h1, h2⟩ => by cases h1; exact h2⟩
  | cons e t ih =>
    constructor
    · rintro ⟨h1, h2⟩
      obtain ⟨s1, h3, h4⟩ := ih.1 h2
      exact ⟨s1, ⟨h1, h3⟩, h4⟩
    · rintro ⟨s1, ⟨h1, h3⟩, h4⟩
      exact ⟨h1, ih.2 ⟨s1, h3, h4⟩⟩

theorem run_follows {α : Type} {H : Handler σ S} {p : Prog σ α} {s s' : S} {a : α} :
    p.run H s = (a, s') ↔ ∃ t, p.Runs t a ∧ Follows H s t s' := by
  induction p generalizing s with
  | ret b =>
    constructor
    · intro h
      cases h
      exact ⟨[], .ret _, rfl⟩
    · rintro ⟨t, h1, h2⟩
      obtain ⟨rfl, rfl⟩ := Prog.runs_ret h1
      cases h2
      rfl
  | call r k ih =>
    constructor
    · intro h
      obtain ⟨t, h1, h2⟩ := (ih (H r s).1 (s := (H r s).2)).1 h
      exact ⟨_, .call r k _ t a h1, rfl, h2⟩
    · rintro ⟨t, h1, h2⟩
      obtain ⟨x, u, rfl, h3⟩ := Prog.runs_call h1
      obtain ⟨h4, h5⟩ := h2
      have h4 : (H r s).1 = x := h4
      subst h4
      exact (ih _).2 ⟨u, h3, h5⟩

variable [Flavour Q]

theorem returns_follows {H : Handler σ S} {l : σ.L} {c c' : Cpu Q} {s s' : S} {e : Res σ} :
    ReturnsWith H l c s e c' s' ↔ ∃ t, Ends l c t (e, c') ∧ Follows H s t s' := by
  constructor
  · rintro ⟨n, h⟩
    obtain ⟨t, h1, h2⟩ := run_follows.1 (h n (Nat.le_refl n))
    exact ⟨t, ⟨n, h1⟩, h2⟩
  · rintro ⟨t, ⟨n, h1⟩, h2⟩
    exact returns_of (run_follows.2 ⟨t, h1, h2⟩)

/-- Reaching the limit `l` implies reaching the limit `k`. -/
def Sooner (H : Handler σ S) (k l : σ.L) : Prop :=
  ∀ s, (H (.isPastLimit l) s).1 = true → (H (.isPastLimit k) s).1 = true

theorem Sooner.not {H : Handler σ S} {k l : σ.L} (h : Sooner H k l) {s : S}
    (hk : (H (.isPastLimit k) s).1 = false) : (H (.isPastLimit l) s).1 = false := by
  cases hl : (H (.isPastLimit l) s).1 with
  | false => rfl
  | true => exact absurd (h s hl) (by rw [hk]; nofun)

/-- Testing the limit changes nothing. -/
def TestsOnly (H : Handler σ S) : Prop := ∀ l s, (H (.isPastLimit l) s).2 = s

/-- Rounds up to the limit `l` seen as rounds up to `k` and then to `l`. -/
theorem trip_cut {H : Handler σ S} (hp : TestsOnly H) {k l : σ.L} (hkl : Sooner H k l)
    {c c' : Cpu Q} {t : List (Ev σ)} {e : Res σ} (h : Trip l c t e c') {s s' : S}
    (hf : Follows H s t s') :
    (∃ d s1 t1 t2, Trip k c t1 .ok d ∧ Follows H s t1 s1 ∧ Trip l d t2 e c' ∧ Follows H s1 t2 s') ∨
      (e ≠ .ok ∧ ∃ t1, Trip k c t1 e c' ∧ Follows H s t1 s') := by
  induction h generalizing s with
  | past c =>
    exact .inl ⟨c, s, _, _, .past c, ⟨hkl s hf.1, (hp k s).symm⟩, .past c, hf⟩
  | @stop c u e d h he =>
    cases hk : (H (.isPastLimit k) s).1 with
    | true => exact .inl ⟨c, s, _, _, .past c, ⟨hk, (hp k s).symm⟩, .stop h he, hf⟩
    | false =>
      refine .inr ⟨he, _, .stop h he, hk, ?_⟩
      have h2 := hf.2
      rw [hp l s] at h2
      show Follows H (H (.isPastLimit k) s).2 u s'
      rw [hp k s]
      exact h2
  | @step c u d t e c' h h' ih =>
    cases hk : (H (.isPastLimit k) s).1 with
    | true => exact .inl ⟨c, s, _, _, .past c, ⟨hk, (hp k s).symm⟩, .step h h', hf⟩
    | false =>
      have h2 := hf.2
      rw [hp l s] at h2
      obtain ⟨s1, g1, g2⟩ := follows_append.1 h2
      have key : ∀ {v s2}, Follows H s1 v s2 →
          Follows H s (⟨.isPastLimit k, false⟩ :: (u ++ v)) s2 := by
        intro v s2 hv
        refine ⟨hk, ?_⟩
        show Follows H (H (.isPastLimit k) s).2 _ _
        rw [hp k s]
        exact follows_append.2 ⟨s1, g1, hv⟩
      rcases ih g2 with ⟨d', s2, t1, t2, a1, a2, a3, a4⟩ | ⟨he, t1, a1, a2⟩
      · exact .inl ⟨d', s2, _, t2, .step h a1, key a2, a3, a4⟩
      · exact .inr ⟨he, _, .step h a1, key a2⟩

/-- Rounds up to the limit `k` and then to `l` are rounds up to `l`. -/
theorem trip_glue {H : Handler σ S} (hp : TestsOnly H) {k l : σ.L} (hkl : Sooner H k l)
    {c d : Cpu Q} {t : List (Ev σ)} {e : Res σ} (h : Trip k c t e d) {s s1 : S}
    (hf : Follows H s t s1) :
    (e = .ok → ∀ {u e' c' s'}, Trip l d u e' c' → Follows H s1 u s' →
      ∃ w, Trip l c w e' c' ∧ Follows H s w s') ∧
    (e ≠ .ok → ∃ w, Trip l c w e d ∧ Follows H s w s1) := by
  induction h generalizing s with
  | past c =>
    refine ⟨fun _ => ?_, fun h => absurd rfl h⟩
    intro u e' c' s' h1 h2
    have hs : s1 = (H (.isPastLimit k) s).2 := hf.2
    rw [hp k s] at hs
    subst hs
    exact ⟨u, h1, h2⟩
  | @stop c u e d h he =>
    refine ⟨fun h => absurd h he, fun _ => ⟨_, .stop h he, hkl.not hf.1, ?_⟩⟩
    have h2 := hf.2
    rw [hp k s] at h2
    show Follows H (H (.isPastLimit l) s).2 _ _
    rw [hp l s]
    exact h2
  | @step c u d t e c' h h' ih =>
    have h2 := hf.2
    rw [hp k s] at h2
    obtain ⟨s2, g1, g2⟩ := follows_append.1 h2
    have key : ∀ {v s3}, Follows H s2 v s3 →
        Follows H s (⟨.isPastLimit l, false⟩ :: (u ++ v)) s3 := by
      intro v s3 hv
      refine ⟨hkl.not hf.1, ?_⟩
      show Follows H (H (.isPastLimit l) s).2 _ _
      rw [hp l s]
      exact follows_append.2 ⟨s2, g1, hv⟩
    obtain ⟨i1, i2⟩ := ih g2
    constructor
    · intro he u' e' c'' s' a1 a2
      obtain ⟨w, b1, b2⟩ := i1 he a1 a2
      exact ⟨_, .step h b1, key b2⟩
    · intro he
      obtain ⟨w, b1, b2⟩ := i2 he
      exact ⟨_, .step h b1, key b2⟩

end
end Z80
