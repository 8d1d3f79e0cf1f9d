import Verif.Proofs.Nexts

/-!
# The bound on the number of iterations of `execute_with_limit` does not matter
-/

namespace Z80
open Ex

variable {σ : Sig} {Q α β γ : Type}

namespace Prog

/-- `Le p q`: wherever `p` ends with a result, `q` makes the same calls and ends with the same
result. -/
def Le : Prog σ (Option α) → Prog σ (Option α) → Prop
  | .ret none, _ => True
  | .ret (some a), q => q = .ret (some a)
  | .call r k, q => ∃ k', q = .call r k' ∧ ∀ a, Le (k a) (k' a)

theorem le_refl (p : Prog σ (Option α)) : Le p p := by
  induction p with
  | ret a =>
    cases a with
    | none => trivial
    | some a => exact rfl
  | call r k ih => exact ⟨k, rfl, ih⟩

theorem le_runs {p q : Prog σ (Option α)} (h : Le p q) {t a} (hr : p.Runs t (some a)) :
    q.Runs t (some a) := by
  induction p generalizing q t with
  | ret b =>
    obtain ⟨rfl, rfl⟩ := runs_ret hr
    rw [show q = _ from h]
    exact .ret _
  | call r k ih =>
    obtain ⟨x, u, rfl, hr'⟩ := runs_call hr
    obtain ⟨k', rfl, h⟩ := h
    exact .call r k' x u _ (ih x (h x) hr')

/-- Sequencing with the same first part. -/
theorem le_bind (p : Prog σ β) {f g : β → Prog σ (Option α)} (h : ∀ b, Le (f b) (g b)) :
    Le (p.bind f) (p.bind g) := by
  induction p with
  | ret b => exact h b
  | call r k ih => exact ⟨_, rfl, ih⟩

theorem le_bind_wp {p : Prog σ β} {f g : β → Prog σ (Option α)} {P : List (Ev σ) → β → Prop}
    (hp : p.wp P) (h : ∀ t b, P t b → Le (f b) (g b)) : Le (p.bind f) (p.bind g) := by
  induction p generalizing P with
  | ret b => exact h _ b hp
  | call r k ih => exact ⟨_, rfl, fun a => ih a (hp a) fun t b hb => h _ b hb⟩

/-- Sequencing when the first part may run out. -/
theorem le_bind_opt {p q : Prog σ (Option β)} {f g : Option β → Prog σ (Option α)} (hp : Le p q)
    (hn : f none = .ret none) (h : ∀ b, Le (f (some b)) (g (some b))) :
    Le (p.bind f) (q.bind g) := by
  induction p generalizing q with
  | ret b =>
    cases b with
    | none =>
      show Le (f none) _
      rw [hn]
      trivial
    | some b =>
      rw [show q = _ from hp]
      exact h b
  | call r k ih =>
    obtain ⟨k', rfl, hp⟩ := hp
    exact ⟨_, rfl, fun a => ih a (hp a)⟩

end Prog

variable [Flavour Q]

theorem loop_le {n m : Nat} (h : n ≤ m) (l : σ.L) (s : St Q) :
    (limitLoop n l s).Le (limitLoop m l s) := by
  induction n generalizing m s with
  | zero => trivial
  | succ n ih =>
    obtain ⟨m, rfl⟩ : ∃ m', m = m' + 1 := ⟨m - 1, by omega⟩
    have h : n ≤ m := by omega
    refine Prog.le_bind _ fun r => ?_
    obtain ⟨e, s⟩ := r
    cases e with
    | cont =>
      refine Prog.le_bind (ask _) fun past => ?_
      cases past with
      | true => exact rfl
      | false =>
        refine Prog.le_bind (askIrq _) fun i => ?_
        cases i with
        | true => exact rfl
        | false => exact ih h s
    | enableInt =>
      refine Prog.le_bind (ask _) fun past => ?_
      cases past with
      | true => exact rfl
      | false => exact ih h _
    | _ => exact rfl

theorem irqThen_le (l : σ.L) (c : Cpu Q) {f g : Cpu Q → Prog σ (Option (Res σ × Cpu Q))}
    (h : ∀ d, (f d).Le (g d)) :
    ((irqNoCheck (σ := σ) false c).bind fun r =>
      (match r.1 with
      | .ok => do
        let past ← ask (.isPastLimit l)
        if past then pure (some (.ok, r.2))
        else f r.2
      | e => pure (some (e, r.2)) : Prog σ _)).Le
    ((irqNoCheck (σ := σ) false c).bind fun r =>
      (match r.1 with
      | .ok => do
        let past ← ask (.isPastLimit l)
        if past then pure (some (.ok, r.2))
        else g r.2
      | e => pure (some (e, r.2)) : Prog σ _)) := by
  refine Prog.le_bind _ fun r => ?_
  obtain ⟨e, d⟩ := r
  cases e with
  | ok =>
    refine Prog.le_bind (ask _) fun past => ?_
    cases past with
    | true => exact rfl
    | false => exact h d
  | _ => exact rfl

theorem outer_le {n m : Nat} (h : n ≤ m) (l : σ.L) {j k : Nat} (hk : j ≤ k) (c : Cpu Q) :
    (limitOuter n l j c).Le (limitOuter m l k c) := by
  induction j generalizing k c with
  | zero => trivial
  | succ j ih =>
    obtain ⟨k, rfl⟩ : ∃ k', k = k' + 1 := ⟨k - 1, by omega⟩
    have hk : j ≤ k := by omega
    refine Prog.le_bind_opt (loop_le h l _) rfl fun r => ?_
    obtain ⟨e, d⟩ := r
    cases e with
    | irq => exact irqThen_le l d fun d => ih hk d
    | _ => exact rfl

theorem start_le {n m : Nat} (h : n ≤ m) (l : σ.L) (c : Cpu Q) :
    (limitStart n l c).Le (limitStart m l c) := by
  unfold limitStart
  by_cases he : c.lastEi = true
  · rw [if_pos he, if_pos he]; exact outer_le h l h _
  · rw [if_neg he, if_neg he]
    refine Prog.le_bind (askIrq _) fun i => ?_
    cases i with
    | true => exact irqThen_le l c fun d => outer_le h l h d
    | false => exact outer_le h l h c

theorem halted_le {n m : Nat} (h : n ≤ m) (l : σ.L) {j k : Nat} (hk : j ≤ k) (c : Cpu Q) :
    (limitHalted n l j c).Le (limitHalted m l k c) := by
  induction j generalizing k c with
  | zero => trivial
  | succ j ih =>
    obtain ⟨k, rfl⟩ : ∃ k', k = k' + 1 := ⟨k - 1, by omega⟩
    have hk : j ≤ k := by omega
    refine Prog.le_bind (ask _) fun past => ?_
    cases past with
    | true => exact rfl
    | false =>
      refine Prog.le_bind (askIrq _) fun i => ?_
      cases i with
      | true => exact start_le h l c
      | false => exact Prog.le_bind (haltStep c) fun d => ih hk d

theorem limit_le {n m : Nat} (h : n ≤ m) (l : σ.L) (c : Cpu Q) :
    (executeWithLimit n l c).Le (executeWithLimit m l c) := by
  unfold executeWithLimit
  by_cases hh : c.halt = true
  · rw [if_pos hh, if_pos hh]; exact halted_le h l h c
  · rw [if_neg hh, if_neg hh]
    refine Prog.le_bind (ask _) fun past => ?_
    cases past with
    | true => exact rfl
    | false => exact start_le h l c

/-- What remains of `execute_with_limit` after an instruction when the rest is as at the start. -/
def afterStep (n : Nat) (l : σ.L) (r : Exit σ × Cpu Q) : Prog σ (Option (Res σ × Cpu Q)) :=
  match r.1.toRes with
  | .ok => do
    let past ← ask (.isPastLimit l)
    if past then pure (some (.ok, r.2)) else limitStart n l r.2
  | e => pure (some (e, r.2))

/-- What the outer loop does with the result of the inner loop. -/
def outerRest (n : Nat) (l : σ.L) (k : Nat) (r : Option (Reason σ × Cpu Q)) :
    Prog σ (Option (Res σ × Cpu Q)) :=
  match r with
  | none => pure none
  | some (.enableInt, c) => pure (some (.ok, c))
  | some (.limitReached, c) => pure (some (.ok, c))
  | some (.halt, c) => pure (some (.halt, c))
  | some (.writeIo o, c) => pure (some (.writeIo o, c))
  | some (.reti x, c) => pure (some (.reti x, c))
  | some (.ub, c) => pure (some (.ub, c))
  | some (.irq, c) => do
    let r ← irqNoCheck false c
    match r.1 with
    | .ok => do
      let past ← ask (.isPastLimit l)
      if past then pure (some (.ok, r.2))
      else limitOuter n l k r.2
    | e => pure (some (e, r.2))

theorem outer_eq (n : Nat) (l : σ.L) (k : Nat) (c : Cpu Q) :
    limitOuter n l (k + 1) c = (loopC n l c).bind (outerRest n l k) := by
  rw [limitOuter, loop_eq]
  rfl

theorem rest_le {n m : Nat} (h : n ≤ m) (l : σ.L) {j k : Nat} (hk : j ≤ k)
    (r : Reason σ × Cpu Q) : (outerRest n l j (some r)).Le (outerRest m l k (some r)) := by
  obtain ⟨e, d⟩ := r
  cases e with
  | irq => exact irqThen_le l d fun d => outer_le h l hk d
  | _ => exact rfl

theorem loop_le' {n m : Nat} (h : n ≤ m) (l : σ.L) (c : Cpu Q) :
    (loopC n l c).Le (loopC m l c) := by
  rw [← loop_eq, ← loop_eq]
  exact loop_le h l _

/-- The rest of the loops after one more instruction. -/
theorem tail_le (n : Nat) (l : σ.L) (d : Cpu Q) :
    (limitOuter n l n d).Le ((loopC n l d).bind (outerRest (n + 1) l n)) := by
  cases n with
  | zero => trivial
  | succ n =>
    rw [outer_eq]
    exact Prog.le_bind_opt (Prog.le_refl _) rfl fun r => rest_le (by omega) l (by omega) r

theorem step_le (n : Nat) (l : σ.L) (c : Cpu Q) (he : c.lastEi = false) :
    ((stepStored c).bind (afterStep n l)).Le (limitOuter (n + 1) l (n + 1) c) := by
  rw [outer_eq]
  show Prog.Le _ (Prog.bind (Prog.bind (stepStored c) _) _)
  rw [Prog.bind_assoc]
  refine Prog.le_bind_wp (ok_stepStored c) fun t r h => ?_
  obtain ⟨e, d⟩ := r
  have h : StepOk c t e d := h
  have m2 := (step_marks h).2.1
  rw [he] at m2
  cases e with
  | cont =>
    have m2 : d.lastEi = false := m2
    show Prog.Le (Prog.bind (ask _) _) (Prog.bind (Prog.bind (ask _) _) _)
    rw [Prog.bind_assoc]
    refine Prog.le_bind (ask _) fun past => ?_
    cases past with
    | true => exact rfl
    | false =>
      show Prog.Le (limitStart n l d) (Prog.bind (Prog.bind (askIrq _) _) _)
      rw [Prog.bind_assoc, limitStart, if_neg (by rw [m2]; exact Bool.false_ne_true)]
      refine Prog.le_bind (askIrq _) fun i => ?_
      cases i with
      | true => exact irqThen_le l d fun d => outer_le (by omega) l (by omega) d
      | false => exact tail_le n l d
  | enableInt =>
    have m2 : d.lastEi = true := m2
    show Prog.Le (Prog.bind (ask _) _) (Prog.bind (Prog.bind (ask _) _) _)
    rw [Prog.bind_assoc]
    refine Prog.le_bind (ask _) fun past => ?_
    cases past with
    | true => exact rfl
    | false =>
      show Prog.Le (limitStart n l d) _
      rw [limitStart, if_pos m2]
      exact tail_le n l _
  | ub => exact absurd rfl h.noUb
  | _ => exact rfl

/-- The plain loop is matched by `execute_with_limit`. -/
theorem go_start {l : σ.L} {c c' : Cpu Q} {t : List (Ev σ)} {e : Res σ} (h : Go l c t e c')
    (hh : c.halt = false) (hN : NoEi t) : ∃ n, (limitStart n l c).Runs t (some (e, c')) := by
  have main : ∀ {c d : Cpu Q} {u v : List (Ev σ)} {e1 e : Res σ} {c' : Cpu Q}, c.halt = false →
      (executeNext false c).Runs u (e1, d) → NoEi u →
      (e1 ≠ .ok ∧ v = [] ∧ e = e1 ∧ c' = d ∨
       e1 = .ok ∧ v = [⟨.isPastLimit l, true⟩] ∧ e = .ok ∧ c' = d ∨
       e1 = .ok ∧ ∃ w, v = ⟨.isPastLimit l, false⟩ :: w ∧
         (d.halt = false → ∃ n, (limitStart n l d).Runs w (some (e, c')))) →
      ∃ n, (limitStart n l c).Runs (u ++ v) (some (e, c')) := by
    intro c d u v e1 e c' hh hr hN hc
    have hfetch : ∀ {x : List (Ev σ)}, (fetchExecute false c).Runs x (e1, d) →
        ∃ n, (limitOuter n l n { c with lastEi := false }).Runs (x ++ v) (some (e, c')) := by
      intro x hx
      rw [← fetch_ei, fetch_step (c := { c with lastEi := false }) rfl hh] at hx
      obtain ⟨⟨e2, d⟩, hx', h2⟩ := Prog.runs_map.1 hx
      cases h2
      have hs := Prog.runs_wp hx' (ok_stepStored _)
      have hs : StepOk _ x e2 d := hs
      have m3 : e2.toRes = .ok → d.halt = false := by
        intro hok
        have m := (step_marks hs).2.2
        cases e2 <;> first
          | (cases hok; done)
          | exact m.trans (by show (c.halt || false) = false; rw [hh]; rfl)
      have key : ∃ n, (afterStep n l (e2, d)).Runs v (some (e, c')) := by
        rcases hc with ⟨h1, rfl, rfl, rfl⟩ | ⟨h1, rfl, rfl, rfl⟩ | ⟨h1, w, rfl, h2⟩
        · refine ⟨0, ?_⟩
          unfold afterStep
          show Prog.Runs (match e2.toRes with
            | .ok => _
            | e => _) [] (some (e2.toRes, c'))
          generalize e2.toRes = g at h1
          cases g with
          | ok => exact absurd rfl h1
          | _ => exact .ret _
        · refine ⟨0, ?_⟩
          unfold afterStep
          rw [show (e2, c').1.toRes = .ok from h1]
          exact Prog.Runs.call (.isPastLimit l) _ true [] _ (.ret _)
        · obtain ⟨n, h2⟩ := h2 (m3 h1)
          refine ⟨n, ?_⟩
          unfold afterStep
          rw [show (e2, d).1.toRes = .ok from h1]
          exact Prog.Runs.call (.isPastLimit l) _ false w _ h2
      obtain ⟨n, key⟩ := key
      exact ⟨n + 1, Prog.le_runs (step_le n l _ rfl) (Prog.runs_bind.2 ⟨x, v, _, rfl, hx', key⟩)⟩
    have hself : c.lastEi = false → ({ c with lastEi := false } : Cpu Q) = c := by
      intro h; cases c; simp_all
    unfold executeNext at hr
    obtain ⟨q, x, i, rfl, hq, hr⟩ := Prog.runs_bind.1 hr
    by_cases he : c.lastEi = true
    · have hna : c.isIrqAllowed = false := by rw [Cpu.isIrqAllowed, isIntAllowed, he]; simp
      rw [hna] at hq
      obtain ⟨rfl, rfl⟩ := Prog.runs_ret hq
      rw [if_neg Bool.false_ne_true, hh, if_neg Bool.false_ne_true] at hr
      obtain ⟨n, h⟩ := hfetch hr
      refine ⟨n, ?_⟩
      rw [limitStart, if_pos he]
      exact h
    · have he := Bool.eq_false_iff.2 he
      have hall : (isIntAllowed c.pfx false && c.iff1) = c.isIrqAllowed := by
        rw [Cpu.isIrqAllowed, he, Bool.and_comm]
      have go : ∀ n, ((if i then (irqNoCheck (σ := σ) false c).bind fun r =>
            (match r.1 with
            | .ok => do
              let past ← ask (.isPastLimit l)
              if past then pure (some (.ok, r.2))
              else limitOuter n l n r.2
            | e => pure (some (e, r.2)) : Prog σ _)
          else limitOuter n l n c).Runs (x ++ v) (some (e, c'))) →
          ∃ n, (limitStart n l c).Runs (q ++ x ++ v) (some (e, c')) := by
        intro n h
        refine ⟨n, ?_⟩
        rw [limitStart, if_neg (by rw [he]; exact Bool.false_ne_true), hall, List.append_assoc]
        exact Prog.runs_bind.2 ⟨q, x ++ v, i, rfl, hq, h⟩
      cases i with
      | false =>
        rw [if_neg Bool.false_ne_true, hh, if_neg Bool.false_ne_true] at hr
        obtain ⟨n, h⟩ := hfetch hr
        rw [hself he] at h
        exact go n h
      | true =>
        have hr : (irqNoCheck false c).Runs x (e1, d) := hr
        rcases hc with ⟨h1, rfl, rfl, rfl⟩ | ⟨h1, rfl, rfl, rfl⟩ | ⟨h1, w, rfl, h2⟩
        · refine go 0 (Prog.runs_bind.2 ⟨x, [], _, rfl, hr, ?_⟩)
          cases e with
          | ok => exact absurd rfl h1
          | _ => exact .ret _
        · refine go 0 (Prog.runs_bind.2 ⟨x, _, _, rfl, hr, ?_⟩)
          rw [h1]
          exact Prog.Runs.call (.isPastLimit l) _ true [] _ (.ret _)
        · obtain ⟨m1, m2, m3⟩ := irq_marks hr h1 hN.right
          obtain ⟨n, h2⟩ := h2 m2
          refine go n (Prog.runs_bind.2 ⟨x, _, _, rfl, hr, ?_⟩)
          rw [h1]
          refine Prog.Runs.call (.isPastLimit l) _ false w _ ?_
          have hd : (isIntAllowed d.pfx false && d.iff1) = d.isIrqAllowed := by
            rw [Cpu.isIrqAllowed, m1, Bool.and_comm]
          rw [limitStart, if_neg (by rw [m1]; exact Bool.false_ne_true), hd, m3] at h2
          exact h2
  induction h with
  | @stop c u e c' h he =>
    rw [← List.append_nil u]
    exact main hh h hN (.inl ⟨he, rfl, rfl, rfl⟩)
  | last h => exact main hh h hN.left (.inr (.inl ⟨rfl, rfl, rfl, rfl⟩))
  | step h h' ih =>
    exact main hh h hN.left (.inr (.inr ⟨rfl, _, rfl, fun hd => ih hd hN.right.tail⟩))

/-- The plain loop on a running CPU is matched by `execute_with_limit`. -/
theorem nexts_limit {l : σ.L} {c c' : Cpu Q} {t : List (Ev σ)} {e : Res σ} (h : Nexts l c t e c')
    (hh : c.halt = false) (hN : NoEi t) :
    ∃ n, (executeWithLimit n l c).Runs t (some (e, c')) := by
  unfold executeWithLimit
  simp only [hh, if_neg Bool.false_ne_true]
  rcases h with ⟨rfl, rfl, rfl⟩ | ⟨u, rfl, h⟩
  · exact ⟨0, Prog.Runs.call (.isPastLimit l) _ true [] _ (.ret _)⟩
  · obtain ⟨n, h⟩ := go_start h hh hN.tail
    exact ⟨n, Prog.Runs.call (.isPastLimit l) _ false u _ h⟩

end Z80
