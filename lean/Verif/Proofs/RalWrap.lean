import Verif.Spec.RalWrap

/-!
# Helper lemmas: the counter/timer after the clock was set back
-/

namespace Z80.Ral.Wrap
open Spec.Ral

/-- Announced times before and after the clock was set back: neither is reached before the other, up to the largest
timestamp. 0 means at once. -/
def Hints (d h h' : Nat) : Prop :=
  (h = 0 ↔ h' = 0) ∧ ∀ ts, 0 < ts → ts + d < 2 ^ 32 - 1 → (h ≤ ts + d ↔ h' ≤ ts)

theorem Hints.zero {d : Nat} : Hints d 0 0 := ⟨Iff.rfl, fun _ _ _ => by omega⟩

theorem Hints.add {d h : Nat} (hp : 0 < h) : Hints d (h + d) h := ⟨by omega, fun _ _ _ => by omega⟩

theorem Hints.never {d : Nat} : Hints d (2 ^ 32 - 1) (2 ^ 32 - 1) := ⟨Iff.rfl, fun _ _ _ => by omega⟩

theorem Hints.min {d a b a' b' : Nat} (h : Hints d a a') (g : Hints d b b') :
    Hints d (min a b) (min a' b') := by
  refine ⟨?_, fun ts h0 h1 => ?_⟩
  · have := h.1; have := g.1; omega
  · have := h.2 ts h0 h1; have := g.2 ts h0 h1; omega

theorem Hints.sub {d h : Nat} (hs : h = 0 ∨ d < h) : Hints d h (h - d) :=
  ⟨by omega, fun _ _ _ => by omega⟩

/-- A channel before and after. -/
def Back (d : Nat) (c c' : CtcChannel) : Prop :=
  ∃ h e, Hints d h c'.hint ∧ e.map (· - d) = c'.extTs ∧
    c = { c' with lastTs := c'.lastTs.map (· + d), extTs := e, hint := h }

/-- Answers of triggers. -/
def Edges (d : Nat) : Except Nat Nat → Except Nat Nat → Prop
  | .ok a, .ok b => a = b + d
  | .error h, .error h' => Hints d h h'
  | _, _ => False

/-- Triggers that do not notice that the clock was set back, for states in a relation. -/
structure Shifts {W : Type} (t : Triggers W) (d : Nat) (R : W → W → Prop) : Prop where
  next : ∀ i rising ts w w' r w1, 0 < ts → ts + d < 2 ^ 32 - 1 → R w w' →
    t.nextClkTrg i rising (ts + d) w = some (r, w1) →
    ∃ r' w1', t.nextClkTrg i rising ts w' = some (r', w1') ∧ R w1 w1' ∧ Edges d r r'
  purge : ∀ i ts w w' h w1, 0 < ts → ts + d < 2 ^ 32 - 1 → R w w' → t.purge i (ts + d) w = some (h, w1) →
    ∃ h' w1', t.purge i ts w' = some (h', w1') ∧ R w1 w1' ∧ Hints d h h'
  pulse : ∀ i p w w' w1, R w w' → t.pulse i (p + d) w = some w1 →
    ∃ w1', t.pulse i p w' = some w1' ∧ R w1 w1'

theorem add32_back {a b d x : Nat} (h : add32 (a + d) b = some x) : add32 a b = some (a + b) ∧ x = a + b + d := by
  unfold add32 at *
  split at h
  · cases h
    exact ⟨if_pos (by omega), by omega⟩
  · cases h

theorem Back.setIntActive {d : Nat} {c c' : CtcChannel} (h : Back d c c') : Back d c.setIntActive c'.setIntActive := by
  obtain ⟨h, e, hh, he, rfl⟩ := h
  exact ⟨0, e, Hints.zero, he, rfl⟩

theorem Back.startTimer {d ts : Nat} {c c' x : CtcChannel} (h : Back d c c') (hx : c.startTimer (ts + d) = some x) :
    ∃ x', c'.startTimer ts = some x' ∧ Back d x x' := by
  obtain ⟨h, e, hh, he, rfl⟩ := h
  simp only [CtcChannel.startTimer, Option.map_eq_some_iff] at hx
  obtain ⟨y, hy, hx⟩ := hx
  obtain ⟨h1, rfl⟩ := add32_back hy
  refine ⟨{ c' with lastTs := some (ts + 1), hint := ts + 1 }, by rw [CtcChannel.startTimer, h1]; rfl, ts + 1 + d, e,
    Hints.add (Nat.succ_pos ts), he, ?_⟩
  rw [← hx]
  rfl

section
variable {W : Type} {t : Triggers W} {d : Nat} {R : W → W → Prop} (H : Shifts t d R)
include H

theorem downcount_back {i : Fin 4} {r : U8} {ts : Nat} {c c' x : CtcChannel} {w w' v : W} {b : Bool}
    (hc : Back d c c') (hw : R w w') (h : c.downcount t i r (ts + d) w = some (b, x, v)) :
    ∃ x' v', c'.downcount t i r ts w' = some (b, x', v') ∧ Back d x x' ∧ R v v' := by
  have hd : ∀ k : U8, Back d { c with current := k } { c' with current := k } := by
    intro k
    obtain ⟨g, e, hh, he, rfl⟩ := hc
    exact ⟨g, e, hh, he, rfl⟩
  have hcur : c.current = c'.current := by obtain ⟨h, e, hh, he, rfl⟩ := hc; rfl
  simp only [CtcChannel.downcount] at h ⊢
  rw [hcur] at h
  split at h
  · rename_i h0
    rw [if_pos h0]
    simp only [Option.map_eq_some_iff] at h
    obtain ⟨w1, hw1, h⟩ := h
    cases h
    obtain ⟨w1', e1, e2⟩ := H.pulse _ _ _ _ _ hw hw1
    exact ⟨_, _, by rw [e1]; rfl, (hd r).setIntActive, e2⟩
  · rename_i h0
    rw [if_neg h0]
    cases h
    exact ⟨_, _, rfl, hd _, hw⟩

theorem countLoop_back {i : Fin 4} {r : U8} {ts : Nat} (h0 : 0 < ts) (h1 : ts + d < 2 ^ 32 - 1) :
    ∀ {n : Nat} {c c' x : CtcChannel} {w w' v : W}, Back d c c' → R w w' →
      c.countLoop t i r (ts + d) n w = some (x, v) →
      ∃ x' v', c'.countLoop t i r ts n w' = some (x', v') ∧ Back d x x' ∧ R v v'
  | 0, _, _, _, _, _, _, _, _, h => by cases h
  | n + 1, c, c', x, w, w', v, hc, hw, h => by
    have hr : c.rising = c'.rising := by obtain ⟨h, e, hh, he, rfl⟩ := hc; rfl
    simp only [CtcChannel.countLoop] at h ⊢
    rw [hr] at h
    cases hn : t.nextClkTrg i c'.rising (ts + d) w with
    | none => rw [hn] at h; cases h
    | some p =>
      obtain ⟨a, w1⟩ := p
      obtain ⟨a', w1', e1, e2, e3⟩ := H.next _ _ _ _ _ _ _ h0 h1 hw hn
      rw [hn] at h
      rw [e1]
      cases a with
      | error g =>
        cases a' with
        | ok _ => cases e3
        | error g' =>
          cases h
          refine ⟨_, _, rfl, ?_, e2⟩
          obtain ⟨h, e, hh, he, rfl⟩ := hc
          exact ⟨g, e, e3, he, rfl⟩
      | ok g =>
        cases a' with
        | error _ => cases e3
        | ok g' =>
          have e3 : g = g' + d := e3
          subst e3
          dsimp only at h ⊢
          cases hd : c.downcount t i r (g' + d) w1 with
          | none => rw [hd] at h; cases h
          | some q =>
            obtain ⟨b, y, u⟩ := q
            obtain ⟨y', u', f1, f2, f3⟩ := downcount_back H hc e2 hd
            rw [hd] at h
            rw [f1]
            cases b with
            | true => cases h; exact ⟨_, _, rfl, f2, f3⟩
            | false => exact countLoop_back h0 h1 f2 f3 h

theorem timerLoop_back {i : Fin 4} {r f : Nat} :
    ∀ {n δ k p : Nat} {c c' : CtcChannel} {w w' : W} {δ1 k1 p1 : Nat} {x : CtcChannel} {v : W},
      Back d c c' → R w w' → CtcChannel.timerLoop t i r f n δ k (p + d) c w = some (δ1, k1, p1, x, v) →
      ∃ p1' x' v', CtcChannel.timerLoop t i r f n δ k p c' w' = some (δ1, k1, p1', x', v') ∧ p1 = p1' + d ∧
        Back d x x' ∧ R v v'
  | 0, _, _, _, _, _, _, _, _, _, _, _, _, _, _, h => by cases h
  | n + 1, δ, k, p, c, c', w, w', δ1, k1, p1, x, v, hc, hw, h => by
    simp only [CtcChannel.timerLoop] at h ⊢
    by_cases hg : δ ≥ k
    · rw [if_pos hg] at h ⊢
      cases ha : add32 (p + d) (k / f) with
      | none => rw [ha] at h; cases h
      | some q =>
        obtain ⟨a1, a2⟩ := add32_back ha
        subst a2
        rw [ha] at h
        rw [a1]
        dsimp only at h ⊢
        cases hp : t.pulse i (p + k / f + d) w with
        | none => rw [hp] at h; cases h
        | some w1 =>
          obtain ⟨w1', b1, b2⟩ := H.pulse _ _ _ _ _ hw hp
          rw [hp] at h
          rw [b1]
          exact timerLoop_back hc.setIntActive b2 h
    · rw [if_neg hg] at h ⊢
      cases h
      exact ⟨_, _, _, rfl, rfl, hc, hw⟩

theorem runTimer_back {i : Fin 4} {r : U8} {last ts : Nat} (h0 : 0 < ts) (h1 : ts + d < 2 ^ 32 - 1)
    {c c' x : CtcChannel} {w w' v : W} (hc : Back d c c') (hw : R w w')
    (h : c.runTimer t i r (last + d) (ts + d) w = some (x, v)) :
    ∃ x' v', c'.runTimer t i r last ts w' = some (x', v') ∧ Back d x x' ∧ R v v' := by
  simp only [CtcChannel.runTimer] at h ⊢
  cases hp : t.purge i (ts + d) w with
  | none => rw [hp] at h; cases h
  | some q =>
    obtain ⟨g, w1⟩ := q
    obtain ⟨g', w1', e1, e2, -⟩ := H.purge _ _ _ _ _ _ h0 h1 hw hp
    rw [hp] at h
    rw [e1]
    dsimp only at h ⊢
    have hu : c.units = c'.units := by obtain ⟨h, e, hh, he, rfl⟩ := hc; rfl
    have hf : c.prescaler = c'.prescaler := by obtain ⟨h, e, hh, he, rfl⟩ := hc; rfl
    rw [hu, hf, Nat.add_sub_add_right] at h
    by_cases hl : ts > last
    · rw [if_pos hl]
      rw [if_pos (by omega)] at h
      split at h
      · rename_i hfit
        rw [if_pos hfit]
        split at h
        · cases h
        · rename_i δ k p y u hloop
          obtain ⟨p', y', u', f1, f2, f3, f4⟩ := timerLoop_back H hc e2 hloop
          subst f2
          rw [f1]
          dsimp only at h ⊢
          have hhint : ∀ g, (if p' + d ≠ last + d then some 0 else
              add32 (ts + d) ((k - δ) / c'.prescaler.factor)) = some g →
              ∃ g', (if p' ≠ last then some 0 else add32 ts ((k - δ) / c'.prescaler.factor)) = some g' ∧
                Hints d g g' := by
            intro g hg
            by_cases hpl : p' = last
            · subst hpl
              rw [if_neg (by simp)] at hg ⊢
              obtain ⟨i1, i2⟩ := add32_back hg
              subst i2
              exact ⟨_, i1, Hints.add (Nat.add_pos_left h0 _)⟩
            · rw [if_pos hpl]
              rw [if_pos (by omega)] at hg
              cases hg
              exact ⟨0, rfl, Hints.zero⟩
          split at h
          · cases h
          · rename_i g hg
            obtain ⟨g', i1, i2⟩ := hhint g hg
            rw [i1]
            cases h
            refine ⟨_, _, rfl, ?_, f4⟩
            obtain ⟨hh, e, j1, j2, rfl⟩ := f3
            split
            · exact ⟨g, e, i2, j2, rfl⟩
            · exact ⟨g, e, i2, j2, rfl⟩
      · cases h
    · rw [if_neg hl]
      rw [if_neg (by omega)] at h
      simp only [Option.map_eq_some_iff] at h
      obtain ⟨y, hy, h⟩ := h
      cases h
      obtain ⟨i1, rfl⟩ := add32_back hy
      refine ⟨_, _, by rw [i1]; rfl, ?_, e2⟩
      obtain ⟨hh, e, j1, j2, rfl⟩ := hc
      exact ⟨last + 1 + d, e, Hints.add (Nat.succ_pos last), j2, rfl⟩

theorem triggerLoop_back {i : Fin 4} {trig ts : Nat} (h0 : 0 < ts) (h1 : ts + d < 2 ^ 32 - 1) :
    ∀ {n : Nat} {c c' x : CtcChannel} {w w' v : W}, Back d c c' → R w w' →
      c.triggerLoop t i trig (ts + d) n w = some (x, v) →
      ∃ x' v', c'.triggerLoop t i (trig - d) ts n w' = some (x', v') ∧ Back d x x' ∧ R v v'
  | 0, _, _, _, _, _, _, _, _, h => by cases h
  | n + 1, c, c', x, w, w', v, hc, hw, h => by
    have hr : c.rising = c'.rising := by obtain ⟨h, e, hh, he, rfl⟩ := hc; rfl
    simp only [CtcChannel.triggerLoop] at h ⊢
    rw [hr] at h
    cases hn : t.nextClkTrg i c'.rising (ts + d) w with
    | none => rw [hn] at h; cases h
    | some p =>
      obtain ⟨a, w1⟩ := p
      obtain ⟨a', w1', e1, e2, e3⟩ := H.next _ _ _ _ _ _ _ h0 h1 hw hn
      rw [hn] at h
      rw [e1]
      cases a with
      | error g =>
        cases a' with
        | ok _ => cases e3
        | error g' =>
          cases h
          refine ⟨_, _, rfl, ?_, e2⟩
          obtain ⟨h, e, hh, he, rfl⟩ := hc
          exact ⟨g, e, e3, he, rfl⟩
      | ok g =>
        cases a' with
        | error _ => cases e3
        | ok g' =>
          have e3 : g = g' + d := e3
          subst e3
          dsimp only at h ⊢
          by_cases hge : g' + d ≥ trig
          · rw [if_pos hge] at h
            rw [if_pos (by omega)]
            simp only [Option.map_eq_some_iff] at h
            obtain ⟨y, hy, h⟩ := h
            cases h
            obtain ⟨y', i1, i2⟩ := hc.startTimer hy
            exact ⟨_, _, by rw [i1]; rfl, i2, e2⟩
          · rw [if_neg hge] at h
            rw [if_neg (by omega)]
            exact triggerLoop_back h0 h1 hc e2 h

theorem process_back {i : Fin 4} {ts : Nat} (h0 : 0 < ts) (h1 : ts + d < 2 ^ 32 - 1)
    {c c' x : CtcChannel} {w w' v : W} (hc : Back d c c') (hw : R w w')
    (h : c.process t i (ts + d) w = some (x, v)) :
    ∃ x' v', c'.process t i ts w' = some (x', v') ∧ Back d x x' ∧ R v v' := by
  have idle : (t.purge i (ts + d) w).map (fun (hint, w) => ({ c with hint := hint }, w)) = some (x, v) →
      ∃ x' v', (t.purge i ts w').map (fun (hint, w) => ({ c' with hint := hint }, w)) = some (x', v') ∧
        Back d x x' ∧ R v v' := by
    intro h
    simp only [Option.map_eq_some_iff] at h
    obtain ⟨⟨g, w1⟩, hp, h⟩ := h
    cases h
    obtain ⟨g', w1', e1, e2, e3⟩ := H.purge _ _ _ _ _ _ h0 h1 hw hp
    refine ⟨_, _, by rw [e1]; rfl, ?_, e2⟩
    obtain ⟨hh, e, j1, j2, rfl⟩ := hc
    exact ⟨g, e, e3, j2, rfl⟩
  obtain ⟨g, e, j1, j2, rfl⟩ := id hc
  obtain ⟨ps, m, hi, l, x, int, r, cur, aw, et, ie, ia, ri⟩ := c'
  simp only at j1 j2
  subst j2
  cases r with
  | none => exact idle h
  | some r =>
    cases m with
    | counter => exact countLoop_back H h0 h1 hc hw h
    | timer =>
      cases l with
      | some l => exact runTimer_back H h0 h1 hc hw h
      | none =>
        cases e with
        | none => exact idle h
        | some e => exact triggerLoop_back H h0 h1 hc hw h

end

/-! ### Writing to a channel -/

/-- One computation does what the other does. -/
def Sim (d : Nat) (a a' : Option CtcChannel) : Prop := ∀ x, a = some x → ∃ x', a' = some x' ∧ Back d x x'

theorem Sim.pure {d : Nat} {c c' : CtcChannel} (h : Back d c c') : Sim d (some c) (some c') := by
  intro x hx
  cases hx
  exact ⟨_, rfl, h⟩

theorem Sim.start {d : Nat} {c c' : CtcChannel} (h : Back d c c') (ts : Nat) :
    Sim d (c.startTimer (ts + d)) (c'.startTimer ts) := fun _ hx => h.startTimer hx

theorem Sim.ite {d : Nat} {p : Prop} [Decidable p] {a a' b b' : Option CtcChannel} (h : Sim d a a')
    (g : Sim d b b') : Sim d (if p then a else b) (if p then a' else b') := by
  split
  · exact h
  · exact g

theorem Sim.map {d : Nat} {a a' : Option CtcChannel} {f : CtcChannel → CtcChannel} (h : Sim d a a')
    (hf : ∀ c c', Back d c c' → Back d (f c) (f c')) : Sim d (a.map f) (a'.map f) := by
  intro x hx
  simp only [Option.map_eq_some_iff] at hx
  obtain ⟨y, hy, rfl⟩ := hx
  obtain ⟨y', e1, e2⟩ := h y hy
  exact ⟨_, by rw [e1]; rfl, hf _ _ e2⟩

theorem Sim.bind {d : Nat} {a a' : Option CtcChannel} {f f' : CtcChannel → Option CtcChannel} (h : Sim d a a')
    (hf : ∀ c c', Back d c c' → Sim d (f c) (f' c')) : Sim d (a.bind f) (a'.bind f') := by
  intro x hx
  simp only [Option.bind_eq_some_iff] at hx
  obtain ⟨y, hy, hx⟩ := hx
  obtain ⟨y', e1, e2⟩ := h y hy
  rw [e1]
  exact hf _ _ e2 _ hx

theorem writeConstant_back {d ts : Nat} {data : U8} {c c' : CtcChannel} (hc : Back d c c') :
    Sim d (c.writeConstant data (ts + d)) (c'.writeConstant data ts) := by
  have hb : Back d { c with awaiting := false, current := if c.restart.isNone then data else c.current,
                            restart := some data }
      { c' with awaiting := false, current := if c'.restart.isNone then data else c'.current,
                restart := some data } := by
    obtain ⟨g, e, j1, j2, rfl⟩ := hc
    exact ⟨g, e, j1, j2, rfl⟩
  obtain ⟨g, e, j1, j2, rfl⟩ := id hc
  obtain ⟨ps, m, hi, l, x, int, r, cur, aw, et, ie, ia, ri⟩ := c'
  cases m with
  | counter => exact Sim.pure hb
  | timer =>
    cases l with
    | some l => exact Sim.pure hb
    | none =>
      refine Sim.ite (Sim.pure ?_) (Sim.start hb ts)
      exact ⟨g, some (ts + d), j1, by simp, rfl⟩

/-- The parts of a control word that do not depend on the time. -/
def control1 (data : U8) (c : CtcChannel) : CtcChannel :=
  let c := if data.getLsbD 1 then { c with restart := none, lastTs := none, extTs := none, internal := 256 } else c
  let c := if data.getLsbD 2 then { c with awaiting := true } else c
  let c := { c with prescaler := if data.getLsbD 5 then .x256 else .x16 }
  if data.getLsbD 7 then { c with intsEnabled := true } else { c with intActive := false, intsEnabled := false }

/-- The mode. -/
def control2 (data : U8) (ts : Nat) (c : CtcChannel) : Option CtcChannel :=
  if data.getLsbD 6 then
    some (if c.mode = .timer then { c with lastTs := none, extTs := none, mode := .counter } else c)
  else if c.mode = .counter then
    (if c.restart.isSome && !c.awaiting then
        if data.getLsbD 3 then some { c with extTs := some ts } else c.startTimer ts
      else some c).map fun c => { c with mode := .timer }
  else some c

/-- The start of a timer. -/
def control3 (data : U8) (ts : Nat) (c : CtcChannel) : Option CtcChannel :=
  if c.mode = .timer then
    if data.getLsbD 3 then some { c with extTrigger := true }
    else if c.extTrigger then
      (if c.lastTs.isNone && c.restart.isSome && !c.awaiting then c.startTimer ts else some c).map fun c =>
        { c with extTs := none, extTrigger := false }
    else some c
  else some c

theorem control_eq (data : U8) (ts : Nat) (c : CtcChannel) :
    c.control data ts = (control2 data ts (control1 data c)).bind (control3 data ts) := by
  unfold CtcChannel.control
  cases h1 : data.getLsbD 1 <;> cases h2 : data.getLsbD 2 <;> cases h7 : data.getLsbD 7 <;>
    cases h6 : data.getLsbD 6 <;> cases hm : c.mode <;>
    simp only [control1, control2, h1, h2, h7, h6, hm, if_true, Bool.false_eq_true, if_false, reduceCtorEq] <;> rfl

theorem control1_back {d : Nat} {data : U8} {c c' : CtcChannel} (hc : Back d c c') :
    Back d (control1 data c) (control1 data c') := by
  have h1 : Back d (if data.getLsbD 1 then { c with restart := none, lastTs := none, extTs := none, internal := 256 }
      else c) (if data.getLsbD 1 then { c' with restart := none, lastTs := none, extTs := none, internal := 256 }
      else c') := by
    split
    · obtain ⟨g, e, j1, j2, rfl⟩ := hc
      exact ⟨g, none, j1, rfl, rfl⟩
    · exact hc
  unfold control1
  generalize (if data.getLsbD 1 then { c with restart := none, lastTs := none, extTs := none, internal := 256 }
      else c) = b at h1
  generalize (if data.getLsbD 1 then { c' with restart := none, lastTs := none, extTs := none, internal := 256 }
      else c') = b' at h1
  obtain ⟨g, e, j1, j2, rfl⟩ := h1
  cases data.getLsbD 2 <;> cases data.getLsbD 7 <;> exact ⟨g, e, j1, j2, rfl⟩

theorem control2_back {d ts : Nat} {data : U8} {c c' : CtcChannel} (hc : Back d c c') :
    Sim d (control2 data (ts + d) c) (control2 data ts c') := by
  have hr : c.restart = c'.restart := by obtain ⟨h, e, hh, he, rfl⟩ := hc; rfl
  have hm : c.mode = c'.mode := by obtain ⟨h, e, hh, he, rfl⟩ := hc; rfl
  have ha : c.awaiting = c'.awaiting := by obtain ⟨h, e, hh, he, rfl⟩ := hc; rfl
  unfold control2
  rw [hr, hm, ha]
  refine Sim.ite (Sim.pure ?_) (Sim.ite (Sim.map (Sim.ite (Sim.ite (Sim.pure ?_) (Sim.start hc ts)) (Sim.pure hc)) ?_)
    (Sim.pure hc))
  · obtain ⟨g, e, j1, j2, rfl⟩ := hc
    split
    · exact ⟨g, none, j1, rfl, rfl⟩
    · exact ⟨g, e, j1, j2, rfl⟩
  · obtain ⟨g, e, j1, j2, rfl⟩ := hc
    exact ⟨g, some (ts + d), j1, by simp, rfl⟩
  · rintro c c' ⟨g, e, j1, j2, rfl⟩
    exact ⟨g, e, j1, j2, rfl⟩

theorem control3_back {d ts : Nat} {data : U8} {c c' : CtcChannel} (hc : Back d c c') :
    Sim d (control3 data (ts + d) c) (control3 data ts c') := by
  have hr : c.restart = c'.restart := by obtain ⟨h, e, hh, he, rfl⟩ := hc; rfl
  have hm : c.mode = c'.mode := by obtain ⟨h, e, hh, he, rfl⟩ := hc; rfl
  have ha : c.awaiting = c'.awaiting := by obtain ⟨h, e, hh, he, rfl⟩ := hc; rfl
  have hx : c.extTrigger = c'.extTrigger := by obtain ⟨h, e, hh, he, rfl⟩ := hc; rfl
  have hl : c.lastTs.isNone = c'.lastTs.isNone := by obtain ⟨h, e, hh, he, rfl⟩ := hc; cases c'.lastTs <;> rfl
  unfold control3
  rw [hr, hm, ha, hx, hl]
  refine Sim.ite (Sim.ite (Sim.pure ?_) (Sim.ite (Sim.map (Sim.ite (Sim.start hc ts) (Sim.pure hc)) ?_) (Sim.pure hc)))
    (Sim.pure hc)
  · obtain ⟨g, e, j1, j2, rfl⟩ := hc
    exact ⟨g, e, j1, j2, rfl⟩
  · rintro c c' ⟨g, e, j1, j2, rfl⟩
    exact ⟨g, none, j1, rfl, rfl⟩

theorem control_back {d ts : Nat} {data : U8} {c c' : CtcChannel} (hc : Back d c c') :
    Sim d (c.control data (ts + d)) (c'.control data ts) := by
  rw [control_eq, control_eq]
  exact Sim.bind (control2_back (control1_back hc)) fun _ _ h => control3_back h

section
variable {W : Type} {t : Triggers W} {d : Nat} {R : W → W → Prop} (H : Shifts t d R)
include H

theorem edgeChanged_back {i : Fin 4} {ts : Nat} {c c' x : CtcChannel} {w w' v : W} (hc : Back d c c') (hw : R w w')
    (h : c.edgeChanged t i (ts + d) w = some (x, v)) :
    ∃ x' v', c'.edgeChanged t i ts w' = some (x', v') ∧ Back d x x' ∧ R v v' := by
  obtain ⟨g, e, j1, j2, rfl⟩ := id hc
  obtain ⟨ps, m, hi, l, ex, int, r, cur, aw, et, ie, ia, ri⟩ := c'
  simp only at j1 j2
  subst j2
  cases r with
  | none => cases h; exact ⟨_, _, rfl, hc, hw⟩
  | some r =>
    cases m with
    | counter =>
      simp only [CtcChannel.edgeChanged, Option.map_eq_some_iff] at h ⊢
      obtain ⟨⟨b, y, u⟩, hd, h⟩ := h
      cases h
      obtain ⟨x', v', e1, e2, e3⟩ := downcount_back H hc hw hd
      exact ⟨x', v', ⟨_, e1, rfl⟩, e2, e3⟩
    | timer =>
      cases l with
      | some l => cases h; exact ⟨_, _, rfl, hc, hw⟩
      | none =>
        cases e with
        | none => cases h; exact ⟨_, _, rfl, hc, hw⟩
        | some e =>
          simp only [CtcChannel.edgeChanged, Option.map_none, Option.map_some] at h ⊢
          by_cases hge : ts + d ≥ e
          · rw [if_pos hge] at h
            rw [if_pos (by omega)]
            simp only [Option.map_eq_some_iff] at h
            obtain ⟨y, hy, h⟩ := h
            cases h
            obtain ⟨y', i1, i2⟩ := hc.startTimer hy
            exact ⟨_, _, congrArg (Option.map fun c => (c, w')) i1, i2, hw⟩
          · rw [if_neg hge] at h
            rw [if_neg (by omega)]
            cases h
            exact ⟨_, _, rfl, hc, hw⟩

theorem writeControl_back {i : Fin 4} {ts : Nat} (h0 : 0 < ts) (h1 : ts + d < 2 ^ 32 - 1) {data : U8} {b : Bool}
    {c c' x : CtcChannel} {w w' v : W} (hc : Back d c c') (hw : R w w')
    (h : c.writeControl t i data (ts + d) w = some (b, x, v)) :
    ∃ x' v', c'.writeControl t i data ts w' = some (b, x', v') ∧ Back d x x' ∧ R v v' := by
  unfold CtcChannel.writeControl at h ⊢
  simp only [Option.bind_eq_bind, Option.bind_eq_some_iff] at h
  obtain ⟨⟨c1, w1⟩, hp, h⟩ := h
  obtain ⟨c1', w1', e1, e2, e3⟩ := process_back H h0 h1 hc hw hp
  rw [e1, Option.bind_eq_bind, Option.bind_some]
  dsimp only at h ⊢
  have ha : c1.awaiting = c1'.awaiting := by obtain ⟨h, e, hh, he, rfl⟩ := e2; rfl
  rw [ha] at h
  split at h
  · rename_i hb
    rw [if_pos hb]
    simp only [Option.bind_eq_some_iff] at h
    obtain ⟨c2, h2, h⟩ := h
    cases h
    obtain ⟨x', f1, f2⟩ := writeConstant_back e2 _ h2
    rw [f1]
    exact ⟨_, _, rfl, f2, e3⟩
  · rename_i hb
    rw [if_neg hb]
    split at h
    · rename_i hd
      rw [if_pos hd]
      simp only [Option.bind_eq_some_iff] at h
      obtain ⟨c2, h2, h⟩ := h
      obtain ⟨c2', f1, f2⟩ := control_back e2 _ h2
      rw [f1, Option.bind_eq_bind, Option.bind_some]
      have hr : c2.rising = c2'.rising := by obtain ⟨h, e, hh, he, rfl⟩ := f2; rfl
      rw [hr] at h
      split at h
      · rename_i hne
        rw [if_pos hne]
        simp only [Option.bind_eq_some_iff] at h
        obtain ⟨⟨c3, w3⟩, h3, h⟩ := h
        cases h
        have f3 : Back d { c2 with rising := data.getLsbD 4 } { c2' with rising := data.getLsbD 4 } := by
          obtain ⟨g, e, j1, j2, rfl⟩ := f2
          exact ⟨g, e, j1, j2, rfl⟩
        obtain ⟨c3', w3', g1, g2, g3⟩ := edgeChanged_back H f3 e3 h3
        rw [g1]
        exact ⟨_, _, rfl, g2, g3⟩
      · rename_i hne
        rw [if_neg hne]
        cases h
        exact ⟨_, _, rfl, f2, e3⟩
    · rename_i hd
      rw [if_neg hd]
      cases h
      exact ⟨_, _, rfl, e2, e3⟩

end

/-! ### The chip -/

/-- A device that does not notice that the clock was set back. -/
def Unaware {D : Type} (dev : Device D) (d : Nat) (Q : D → D → Prop) : Prop :=
  ∀ u ts x x' r y, 0 < ts → ts + d < 2 ^ 32 - 1 → Q x x' → perform dev (ts + d) x u = some (r, y) →
    ∃ y', perform dev ts x' u = some (r, y') ∧ Q y y'

/-- The chip before and after. -/
structure CtcBack {W D : Type} (d : Nat) (R : W → W → Prop) (Q : D → D → Prop) (s s' : Ctc W D) : Prop where
  eq : s = { s' with hint := s.hint, ch0 := s.ch0, ch1 := s.ch1, ch2 := s.ch2, ch3 := s.ch3, triggers := s.triggers,
                     chained := s.chained }
  hint : Hints d s.hint s'.hint
  ch0 : Back d s.ch0 s'.ch0
  ch1 : Back d s.ch1 s'.ch1
  ch2 : Back d s.ch2 s'.ch2
  ch3 : Back d s.ch3 s'.ch3
  triggers : R s.triggers s'.triggers
  chained : Q s.chained s'.chained

section
variable {W D : Type} {t : Triggers W} {d : Nat} {R : W → W → Prop} {Q : D → D → Prop} (H : Shifts t d R)
include H

theorem processChannel_back {i : Fin 4} {f : Bool} {ts : Nat} (h0 : 0 < ts) (h1 : ts + d < 2 ^ 32 - 1)
    {c c' x : CtcChannel} {w w' v : W} (hc : Back d c c') (hw : R w w')
    (h : Ctc.processChannel t i f (ts + d) c w = some (x, v)) :
    ∃ x' v', Ctc.processChannel t i f ts c' w' = some (x', v') ∧ Back d x x' ∧ R v v' := by
  have hh : (ts + d ≥ c.hint ↔ ts ≥ c'.hint) := by
    obtain ⟨g, e, j1, j2, rfl⟩ := hc
    exact j1.2 ts h0 h1
  have hcond : (decide (ts + d ≥ c.hint) || f) = (decide (ts ≥ c'.hint) || f) := by
    rw [decide_eq_decide.2 hh]
  unfold Ctc.processChannel at h ⊢
  rw [hcond] at h
  split at h
  · rename_i hp
    rw [if_pos hp]
    exact process_back H h0 h1 hc hw h
  · rename_i hp
    rw [if_neg hp]
    cases h
    exact ⟨_, _, rfl, hc, hw⟩

theorem processChannels_back {ts : Nat} (h0 : 0 < ts) (h1 : ts + d < 2 ^ 32 - 1) {s s' x : Ctc W D}
    (hs : CtcBack d R Q s s') (h : s.processChannels t (ts + d) = some x) :
    ∃ x', s'.processChannels t ts = some x' ∧ CtcBack d R Q x x' := by
  have hh : (ts + d ≥ s.hint ↔ ts ≥ s'.hint) := hs.hint.2 ts h0 h1
  have hf : (s.hint == 0) = (s'.hint == 0) := by
    have := hs.hint.1
    rw [Bool.eq_iff_iff, beq_iff_eq, beq_iff_eq]
    exact this
  unfold Ctc.processChannels at h ⊢
  by_cases hp : ts ≥ s'.hint
  · rw [if_pos hp]
    rw [if_pos (hh.2 hp), hf] at h
    simp only [Option.bind_eq_bind, Option.bind_eq_some_iff] at h
    obtain ⟨⟨c0, w0⟩, p0, ⟨c1, w1⟩, p1, ⟨c2, w2⟩, p2, ⟨c3, w3⟩, p3, h⟩ := h
    obtain ⟨c0', w0', e0, b0, r0⟩ := processChannel_back H h0 h1 hs.ch0 hs.triggers p0
    obtain ⟨c1', w1', e1, b1, r1⟩ := processChannel_back H h0 h1 hs.ch1 r0 p1
    obtain ⟨c2', w2', e2, b2, r2⟩ := processChannel_back H h0 h1 hs.ch2 r1 p2
    obtain ⟨c3', w3', e3, b3, r3⟩ := processChannel_back H h0 h1 hs.ch3 r2 p3
    simp only [Option.bind_eq_bind, e0, e1, e2, e3, Option.bind_some]
    cases h
    have hint : ∀ {c c' : CtcChannel}, Back d c c' → Hints d c.hint c'.hint := by
      rintro c c' ⟨g, e, j1, j2, rfl⟩
      exact j1
    refine ⟨_, rfl, ?_, (((hint b0).min (hint b1)).min (hint b2)).min (hint b3), b0, b1, b2, b3, r3, hs.chained⟩
    rw [hs.eq]
  · rw [if_neg hp]
    rw [if_neg fun h => hp (hh.1 h)] at h
    cases h
    exact ⟨_, rfl, hs⟩

end

section
variable {W D : Type} {t : Triggers W} {dev : Device D} {d : Nat} {R : W → W → Prop} {Q : D → D → Prop}

theorem perform_map {α : Type} {f : α → Reply × D} {o : Option α} {r : Reply} {y : D}
    (h : o.map f = some (r, y)) : ∃ a, o = some a ∧ f a = (r, y) := by
  simpa only [Option.map_eq_some_iff] using h

/-- A counter/timer before such a device. -/
theorem unaware_ctc (H : Shifts t d R) (G : Unaware dev d Q) : Unaware (Ctc.device t dev) d (CtcBack d R Q) := by
  intro u ts s s' r y h0 h1 hs h
  have hieo : s.ieo = s'.ieo := by rw [hs.eq]
  have hvec : s.vector = s'.vector := by rw [hs.eq]
  have hm : s.matchMask = s'.matchMask := by rw [hs.eq]
  have hb : s.matchBits = s'.matchBits := by rw [hs.eq]
  have hc0 : s.cs0 = s'.cs0 := by rw [hs.eq]
  have hc1 : s.cs1 = s'.cs1 := by rw [hs.eq]
  have hint : ∀ {c c' : CtcChannel}, Back d c c' → c.intActive = c'.intActive := by
    rintro c c' ⟨g, e, j1, j2, rfl⟩
    rfl
  have hcur : ∀ {c c' : CtcChannel}, Back d c c' → c.current = c'.current := by
    rintro c c' ⟨g, e, j1, j2, rfl⟩
    rfl
  have hoff : ∀ {c c' : CtcChannel}, Back d c c' →
      Back d { c with intActive := false } { c' with intActive := false } := by
    rintro c c' ⟨g, e, j1, j2, rfl⟩
    exact ⟨g, e, j1, j2, rfl⟩
  have q := hs.eq
  cases u with
  | ask =>
    simp only [perform, Ctc.device, Ctc.isIrq] at h ⊢
    rw [hieo] at h
    cases hi : s'.ieo with
    | true => rw [hi] at h; cases h; exact ⟨_, rfl, hs⟩
    | false =>
      simp only [hi, Bool.false_eq_true, if_false, Option.bind_eq_bind] at h ⊢
      cases hp : s.processChannels t (ts + d) with
      | none => rw [hp] at h; cases h
      | some x =>
        obtain ⟨x', e1, e2⟩ := processChannels_back H h0 h1 hs hp
        rw [hp] at h
        rw [e1]
        simp only [Option.bind_some, hint e2.ch0, hint e2.ch1, hint e2.ch2, hint e2.ch3] at h ⊢
        split at h
        · rename_i hact
          rw [if_pos hact]
          cases h
          exact ⟨_, rfl, e2⟩
        · rename_i hact
          rw [if_neg hact]
          cases hq : dev.isIrq (ts + d) x.chained with
          | none => rw [hq] at h; cases h
          | some z =>
            obtain ⟨b, z⟩ := z
            rw [hq] at h
            cases h
            obtain ⟨z', f1, f2⟩ := G .ask ts _ _ (.irq b) z h0 h1 e2.chained (by simp only [perform, hq]; rfl)
            obtain ⟨⟨b', z''⟩, f1, f3⟩ := perform_map f1
            cases f3
            rw [f1]
            exact ⟨_, rfl, by rw [e2.eq], e2.hint, e2.ch0, e2.ch1, e2.ch2, e2.ch3, e2.triggers, f2⟩
  | ack pc =>
    simp only [perform, Ctc.device, Ctc.irqData] at h ⊢
    rw [hint hs.ch0, hint hs.ch1, hint hs.ch2, hint hs.ch3, hvec] at h
    split at h
    · rename_i hact
      rw [if_pos hact]
      cases h
      exact ⟨_, rfl, by rw [q], hs.hint, hoff hs.ch0, hs.ch1, hs.ch2, hs.ch3, hs.triggers, hs.chained⟩
    · rename_i hact
      rw [if_neg hact]
      split at h
      · rename_i hact
        rw [if_pos hact]
        cases h
        exact ⟨_, rfl, by rw [q], hs.hint, hs.ch0, hoff hs.ch1, hs.ch2, hs.ch3, hs.triggers, hs.chained⟩
      · rename_i hact
        rw [if_neg hact]
        split at h
        · rename_i hact
          rw [if_pos hact]
          cases h
          exact ⟨_, rfl, by rw [q], hs.hint, hs.ch0, hs.ch1, hoff hs.ch2, hs.ch3, hs.triggers, hs.chained⟩
        · rename_i hact
          rw [if_neg hact]
          split at h
          · rename_i hact
            rw [if_pos hact]
            cases h
            exact ⟨_, rfl, by rw [q], hs.hint, hs.ch0, hs.ch1, hs.ch2, hoff hs.ch3, hs.triggers, hs.chained⟩
          · rename_i hact
            rw [if_neg hact]
            cases hq : dev.irqData pc (ts + d) s.chained with
            | none => rw [hq] at h; cases h
            | some z =>
              obtain ⟨⟨v, n⟩, z⟩ := z
              rw [hq] at h
              cases h
              obtain ⟨z', f1, f2⟩ := G (.ack pc) ts _ _ (.byte v n) z h0 h1 hs.chained (by
                simp only [perform, hq]; rfl)
              obtain ⟨⟨⟨v', n'⟩, z''⟩, f1, f3⟩ := perform_map f1
              cases f3
              rw [f1]
              exact ⟨_, rfl, by rw [q], hs.hint, hs.ch0, hs.ch1, hs.ch2, hs.ch3, hs.triggers, f2⟩
  | reti pc =>
    simp only [perform, Ctc.device, Ctc.reti] at h ⊢
    rw [hieo] at h
    cases hi : s'.ieo with
    | true =>
      rw [hi] at h
      cases h
      exact ⟨_, rfl, by rw [q], hs.hint, hs.ch0, hs.ch1, hs.ch2, hs.ch3, hs.triggers, hs.chained⟩
    | false =>
      simp only [hi, Bool.false_eq_true, if_false] at h ⊢
      cases hq : dev.reti pc (ts + d) s.chained with
      | none => rw [hq] at h; cases h
      | some z =>
        rw [hq] at h
        cases h
        obtain ⟨z', f1, f2⟩ := G (.reti pc) ts _ _ .nothing z h0 h1 hs.chained (by simp only [perform, hq]; rfl)
        obtain ⟨z'', f1, f3⟩ := perform_map f1
        cases f3
        rw [f1]
        exact ⟨_, rfl, by rw [q], hs.hint, hs.ch0, hs.ch1, hs.ch2, hs.ch3, hs.triggers, f2⟩
  | fetch =>
    simp only [perform, Ctc.device, Ctc.m1, Option.bind_eq_bind] at h ⊢
    cases hp : s.processChannels t (ts + d) with
    | none => rw [hp] at h; cases h
    | some x =>
      obtain ⟨x', e1, e2⟩ := processChannels_back H h0 h1 hs hp
      rw [hp] at h
      rw [e1]
      simp only [Option.bind_some] at h ⊢
      cases hq : dev.m1 (ts + d) x.chained with
      | none => rw [hq] at h; cases h
      | some z =>
        rw [hq] at h
        cases h
        obtain ⟨z', f1, f2⟩ := G .fetch ts _ _ .nothing z h0 h1 e2.chained (by simp only [perform, hq]; rfl)
        obtain ⟨z'', f1, f3⟩ := perform_map f1
        cases f3
        rw [f1]
        exact ⟨_, rfl, by rw [e2.eq], e2.hint, e2.ch0, e2.ch1, e2.ch2, e2.ch3, e2.triggers, f2⟩
  | frame =>
    simp only [perform, Ctc.device, Ctc.frameEnd, Option.bind_eq_bind] at h ⊢
    cases hp : s.processChannels t (ts + d) with
    | none => rw [hp] at h; cases h
    | some x =>
      obtain ⟨x', e1, e2⟩ := processChannels_back H h0 h1 hs hp
      rw [hp] at h
      rw [e1]
      simp only [Option.bind_some] at h ⊢
      cases hq : dev.frameEnd (ts + d) x.chained with
      | none => rw [hq] at h; cases h
      | some z =>
        rw [hq] at h
        cases h
        obtain ⟨z', f1, f2⟩ := G .frame ts _ _ .nothing z h0 h1 e2.chained (by simp only [perform, hq]; rfl)
        obtain ⟨z'', f1, f3⟩ := perform_map f1
        cases f3
        rw [f1]
        exact ⟨_, rfl, by rw [e2.eq], e2.hint, e2.ch0, e2.ch1, e2.ch2, e2.ch3, e2.triggers, f2⟩
  | read port =>
    have rd : ∀ {i : Fin 4} {c c' : CtcChannel} {v : U8} {x : CtcChannel} {w : W}, Back d c c' →
        c.readCounter t i (ts + d) s.triggers = some (v, x, w) →
        ∃ x' w', c'.readCounter t i ts s'.triggers = some (v, x', w') ∧ Back d x x' ∧ R w w' := by
      intro i c c' v x w hc h
      simp only [CtcChannel.readCounter, Option.map_eq_some_iff] at h
      obtain ⟨⟨x1, w1⟩, hp, h⟩ := h
      cases h
      obtain ⟨x', w', e1, e2, e3⟩ := process_back H h0 h1 hc hs.triggers hp
      refine ⟨x', w', ?_, e2, e3⟩
      rw [CtcChannel.readCounter, e1, hcur e2]
      rfl
    simp only [perform, Ctc.device, Ctc.readIo] at h ⊢
    rw [hm, hb, hc0, hc1] at h
    split at h
    · rename_i g1
      rw [if_pos g1]
      split at h <;> rename_i g2
      · rw [if_pos g2]
        split at h <;> rename_i g3
        · rw [if_pos g3]
          rw [Option.map_map] at h
          obtain ⟨⟨v, x, w⟩, hq, h⟩ := perform_map h
          cases h
          obtain ⟨x', w', e1, e2, e3⟩ := rd hs.ch0 hq
          rw [e1]
          exact ⟨_, rfl, by rw [q], hs.hint, e2, hs.ch1, hs.ch2, hs.ch3, e3, hs.chained⟩
        · rw [if_neg g3]
          rw [Option.map_map] at h
          obtain ⟨⟨v, x, w⟩, hq, h⟩ := perform_map h
          cases h
          obtain ⟨x', w', e1, e2, e3⟩ := rd hs.ch1 hq
          rw [e1]
          exact ⟨_, rfl, by rw [q], hs.hint, hs.ch0, e2, hs.ch2, hs.ch3, e3, hs.chained⟩
      · rw [if_neg g2]
        split at h <;> rename_i g3
        · rw [if_pos g3]
          rw [Option.map_map] at h
          obtain ⟨⟨v, x, w⟩, hq, h⟩ := perform_map h
          cases h
          obtain ⟨x', w', e1, e2, e3⟩ := rd hs.ch2 hq
          rw [e1]
          exact ⟨_, rfl, by rw [q], hs.hint, hs.ch0, hs.ch1, e2, hs.ch3, e3, hs.chained⟩
        · rw [if_neg g3]
          rw [Option.map_map] at h
          obtain ⟨⟨v, x, w⟩, hq, h⟩ := perform_map h
          cases h
          obtain ⟨x', w', e1, e2, e3⟩ := rd hs.ch3 hq
          rw [e1]
          exact ⟨_, rfl, by rw [q], hs.hint, hs.ch0, hs.ch1, hs.ch2, e2, e3, hs.chained⟩
    · rename_i g1
      rw [if_neg g1]
      cases hq : dev.readIo port (ts + d) s.chained with
      | none => rw [hq] at h; cases h
      | some z =>
        obtain ⟨⟨v, n⟩, z⟩ := z
        rw [hq] at h
        cases h
        obtain ⟨z', f1, f2⟩ := G (.read port) ts _ _ (.byte v n) z h0 h1 hs.chained (by simp only [perform, hq]; rfl)
        obtain ⟨⟨⟨v', n'⟩, z''⟩, f1, f3⟩ := perform_map f1
        cases f3
        rw [f1]
        exact ⟨_, rfl, by rw [q], hs.hint, hs.ch0, hs.ch1, hs.ch2, hs.ch3, hs.triggers, f2⟩
  | write port data =>
    have wr : ∀ {i : Fin 4} {c c' : CtcChannel} {b : Bool} {x : CtcChannel} {w : W}, Back d c c' →
        c.writeControl t i data (ts + d) s.triggers = some (b, x, w) →
        ∃ x' w', c'.writeControl t i data ts s'.triggers = some (b, x', w') ∧ Back d x x' ∧ R w w' := fun hc h =>
      writeControl_back H h0 h1 hc hs.triggers h
    simp only [perform, Ctc.device, Ctc.writeIo] at h ⊢
    rw [hm, hb, hc0, hc1] at h
    split at h
    · rename_i g1
      rw [if_pos g1]
      split at h <;> rename_i g2
      · rw [if_pos g2]
        split at h <;> rename_i g3
        · rw [if_pos g3]
          rw [Option.map_map] at h
          obtain ⟨⟨b, x, w⟩, hq, h⟩ := perform_map h
          obtain ⟨x', w', e1, e2, e3⟩ := wr hs.ch0 hq
          rw [e1]
          cases b <;> cases h <;>
            exact ⟨_, rfl, by rw [q]; rfl, hs.hint, e2, hs.ch1, hs.ch2, hs.ch3, e3, hs.chained⟩
        · rw [if_neg g3]
          rw [Option.map_map] at h
          obtain ⟨⟨b, x, w⟩, hq, h⟩ := perform_map h
          obtain ⟨x', w', e1, e2, e3⟩ := wr hs.ch1 hq
          rw [e1]
          cases b <;> cases h <;>
            exact ⟨_, rfl, by rw [q]; rfl, hs.hint, hs.ch0, e2, hs.ch2, hs.ch3, e3, hs.chained⟩
      · rw [if_neg g2]
        split at h <;> rename_i g3
        · rw [if_pos g3]
          rw [Option.map_map] at h
          obtain ⟨⟨b, x, w⟩, hq, h⟩ := perform_map h
          obtain ⟨x', w', e1, e2, e3⟩ := wr hs.ch2 hq
          rw [e1]
          cases b <;> cases h <;>
            exact ⟨_, rfl, by rw [q]; rfl, hs.hint, hs.ch0, hs.ch1, e2, hs.ch3, e3, hs.chained⟩
        · rw [if_neg g3]
          rw [Option.map_map] at h
          obtain ⟨⟨b, x, w⟩, hq, h⟩ := perform_map h
          obtain ⟨x', w', e1, e2, e3⟩ := wr hs.ch3 hq
          rw [e1]
          cases b <;> cases h <;>
            exact ⟨_, rfl, by rw [q]; rfl, hs.hint, hs.ch0, hs.ch1, hs.ch2, e2, e3, hs.chained⟩
    · rename_i g1
      rw [if_neg g1]
      cases hq : dev.writeIo port data (ts + d) s.chained with
      | none => rw [hq] at h; cases h
      | some z =>
        obtain ⟨n, z⟩ := z
        rw [hq] at h
        cases h
        obtain ⟨z', f1, f2⟩ := G (.write port data) ts _ _ (.waits n) z h0 h1 hs.chained (by
          simp only [perform, hq]; rfl)
        obtain ⟨⟨n', z''⟩, f1, f3⟩ := perform_map f1
        cases f3
        rw [f1]
        exact ⟨_, rfl, by rw [q], hs.hint, hs.ch0, hs.ch1, hs.ch2, hs.ch3, hs.triggers, f2⟩

end

/-! ### The ports -/

/-- Ports with nothing behind them do not look at the time. -/
theorem unaware_pio {I O : Type} (slurp : I → Option U8 × I) (flush : U8 → O → Bool × O) (d : Nat) :
    Unaware (Pio.device (pioInput slurp) (pioOutput flush) terminator) d Eq := by
  intro u ts s s' r y h0 h1 hs h
  subst hs
  refine ⟨y, ?_, rfl⟩
  have ci : ∀ c : PioChannel (PioInput I), c.checkInt (pioInput slurp) (ts + d) = c.checkInt (pioInput slurp) ts :=
    fun _ => rfl
  have co : ∀ c : PioChannel (PioOutput O), c.checkInt (pioOutput flush) (ts + d) = c.checkInt (pioOutput flush) ts :=
    fun _ => rfl
  have add : ∀ k, (add32 (ts + d) k).isSome = true → (add32 ts k).isSome = true := by
    intro k hk
    unfold add32 at *
    split at hk
    · rw [if_pos (by omega)]; rfl
    · cases hk
  have ri : ∀ {c : PioChannel (PioInput I)} {x}, c.readIo (pioInput slurp) (ts + d) = some x →
      c.readIo (pioInput slurp) ts = some x := by
    intro c x h
    unfold PioChannel.readIo at h ⊢
    split at h
    · split at h <;> simp only [Option.map_eq_some_iff] at h <;> obtain ⟨y, hy, h⟩ := h <;> cases h <;>
        rw [(add32_back hy).1] <;> simp [*, pioInput]
    · simp [*]
  have ro : ∀ {c : PioChannel (PioOutput O)} {x}, c.readIo (pioOutput flush) (ts + d) = some x →
      c.readIo (pioOutput flush) ts = some x := by
    intro c x h
    unfold PioChannel.readIo at h ⊢
    split at h
    · split at h <;> simp only [Option.map_eq_some_iff] at h <;> obtain ⟨y, hy, h⟩ := h <;> cases h <;>
        rw [(add32_back hy).1] <;> simp [*, pioOutput]
    · simp [*]
  have wi : ∀ {c : PioChannel (PioInput I)} {data : U8} {x}, c.writeData (pioInput slurp) data (ts + d) = some x →
      c.writeData (pioInput slurp) data ts = some x := by
    intro c data x h
    obtain ⟨m, _, _, _, _, _, _, _, _⟩ := c
    cases m with
    | input => exact h
    | output =>
      simp only [PioChannel.writeData, Option.map_eq_some_iff] at h ⊢
      obtain ⟨y, hy, h⟩ := h
      exact ⟨_, (add32_back hy).1, h⟩
  have wo : ∀ {c : PioChannel (PioOutput O)} {data : U8} {x}, c.writeData (pioOutput flush) data (ts + d) = some x →
      c.writeData (pioOutput flush) data ts = some x := by
    intro c data x h
    obtain ⟨m, _, _, _, _, _, _, _, _⟩ := c
    cases m with
    | input => exact h
    | output =>
      simp only [PioChannel.writeData, Option.map_eq_some_iff] at h ⊢
      obtain ⟨y, hy, h⟩ := h
      exact ⟨_, (add32_back hy).1, h⟩
  cases u with
  | ask => exact h
  | ack pc => exact h
  | reti pc => exact h
  | fetch => exact h
  | frame => exact h
  | read port =>
    simp only [perform, Pio.device, Pio.readIo] at h ⊢
    split at h
    · rename_i g1
      rw [if_pos g1]
      split at h <;> rename_i g2
      · rw [if_pos g2]
        rw [Option.map_map] at h ⊢
        obtain ⟨x, hq, h⟩ := perform_map h
        rw [ri hq]
        exact congrArg some h
      · rw [if_neg g2]
        rw [Option.map_map] at h ⊢
        obtain ⟨x, hq, h⟩ := perform_map h
        rw [ro hq]
        exact congrArg some h
    · rename_i g1
      rw [if_neg g1]
      exact h
  | write port data =>
    simp only [perform, Pio.device, Pio.writeIo] at h ⊢
    split at h
    · rename_i g1
      rw [if_pos g1]
      split at h <;> rename_i g2
      · rw [if_pos g2]
        rw [Option.map_map] at h ⊢
        obtain ⟨x, hq, h⟩ := perform_map h
        split at hq <;> rename_i g3
        · rw [if_pos g3, wi hq]
          exact congrArg some h
        · rw [if_neg g3]
          rw [show PioChannel.writeControl (pioInput slurp) data ts s.chA = some x from hq]
          exact congrArg some h
      · rw [if_neg g2]
        rw [Option.map_map] at h ⊢
        obtain ⟨x, hq, h⟩ := perform_map h
        split at hq <;> rename_i g3
        · rw [if_pos g3, wo hq]
          exact congrArg some h
        · rw [if_neg g3]
          rw [show PioChannel.writeControl (pioOutput flush) data ts s.chB = some x from hq]
          exact congrArg some h
    · rename_i g1
      rw [if_neg g1]
      exact h

/-! ### The triggers -/

/-- Collected pulses before and after. -/
def Pulses {n : Nat} (d : Nat) (p p' : CtcPulse n) : Prop :=
  p.pulses = p'.pulses ∧ p.pulses ≤ n ∧ ∀ i : Fin n, i.val < p.pulses → p.ts i = p'.ts i + d

/-- The clock of two channels before and after. -/
def Clocks {n : Nat} (d : Nat) (a a' : CtcActive n) : Prop :=
  0 < a'.hclock ∧ Pulses d a.next a'.next ∧ a.hclock = a'.hclock ∧ a.periodTs = a'.periodTs + d ∧
    a.edgeHigh = a'.edgeHigh

theorem Pulses.shift {n d k : Nat} {p p' : CtcPulse n} (h : Pulses d p p') (hk : k + 1 = p.pulses) :
    Pulses d (p.shift k) (p'.shift k) := by
  obtain ⟨h1, h2, h3⟩ := h
  refine ⟨rfl, by simp only [CtcPulse.shift]; omega, ?_⟩
  intro i hi
  simp only [CtcPulse.shift] at hi ⊢
  rw [dif_pos hi, dif_pos hi]
  exact h3 _ (by simp only; omega)

theorem active_next {n d ts : Nat} {rising : Bool} {a a' x : CtcActive n} {r : Except Nat Nat} (h : Clocks d a a')
    (hx : a.nextClkTrg rising (ts + d) = some (r, x)) :
    ∃ r' x', a'.nextClkTrg rising ts = some (r', x') ∧ Clocks d x x' ∧ Edges d r r' := by
  obtain ⟨k0, k1, k2, k3, k4⟩ := h
  simp only [CtcActive.nextClkTrg, Option.bind_eq_bind] at hx ⊢
  rw [k2, k3, k4] at hx
  simp only [Option.bind_eq_some_iff] at hx
  obtain ⟨e, he, hx⟩ := hx
  obtain ⟨f1, rfl⟩ := add32_back he
  rw [f1, Option.bind_some]
  by_cases hle : a'.periodTs + a'.hclock ≤ ts
  · rw [if_pos hle]
    rw [if_pos (by omega)] at hx
    split at hx
    · rename_i hr
      rw [if_pos hr]
      cases hx
      exact ⟨_, _, rfl, ⟨k0, k1, rfl, rfl, rfl⟩, rfl⟩
    · rename_i hr
      rw [if_neg hr]
      simp only [Option.bind_eq_some_iff] at hx
      obtain ⟨e, he, hx⟩ := hx
      obtain ⟨f2, rfl⟩ := add32_back he
      rw [f2, Option.bind_some]
      by_cases hle2 : a'.periodTs + a'.hclock + a'.hclock ≤ ts
      · rw [if_pos hle2]
        rw [if_pos (by omega)] at hx
        cases hx
        exact ⟨_, _, rfl, ⟨k0, k1, rfl, rfl, rfl⟩, rfl⟩
      · rw [if_neg hle2]
        rw [if_neg (by omega)] at hx
        cases hx
        exact ⟨_, _, rfl, ⟨k0, k1, rfl, rfl, rfl⟩, Hints.add (by omega)⟩
  · rw [if_neg hle]
    rw [if_neg (by omega)] at hx
    cases hx
    exact ⟨_, _, rfl, ⟨k0, k1, k2, k3, k4⟩, Hints.add (by omega)⟩

theorem active_purge {n d ts : Nat} {a a' x : CtcActive n} {g : Nat} (h : Clocks d a a')
    (hx : a.purge (ts + d) = some (g, x)) :
    ∃ g' x', a'.purge ts = some (g', x') ∧ Clocks d x x' ∧ Hints d g g' := by
  obtain ⟨k0, k1, k2, k3, k4⟩ := h
  simp only [CtcActive.purge, Option.bind_eq_bind] at hx ⊢
  rw [k2, k3, k4] at hx
  simp only [Option.bind_eq_some_iff] at hx
  obtain ⟨e, he, hx⟩ := hx
  obtain ⟨f1, rfl⟩ := add32_back he
  rw [f1, Option.bind_some]
  by_cases hle : a'.periodTs + a'.hclock ≤ ts
  · rw [if_pos hle]
    rw [if_pos (by omega)] at hx
    simp only [Option.bind_eq_some_iff] at hx
    obtain ⟨e, he, hx⟩ := hx
    obtain ⟨f2, rfl⟩ := add32_back he
    rw [f2, Option.bind_some]
    cases hx
    exact ⟨_, _, rfl, ⟨k0, k1, rfl, rfl, rfl⟩, Hints.add (by omega)⟩
  · rw [if_neg hle]
    rw [if_neg (by omega)] at hx
    cases hx
    exact ⟨_, _, rfl, ⟨k0, k1, k2, k3, k4⟩, Hints.add (by omega)⟩

theorem active_pulse {n d p : Nat} {a a' x : CtcActive n} (h : Clocks d a a') (hx : a.pulse (p + d) = some x) :
    ∃ x', a'.pulse p = some x' ∧ Clocks d x x' := by
  obtain ⟨k0, ⟨p1, p2, p3⟩, k2, k3, k4⟩ := h
  simp only [CtcActive.pulse] at hx ⊢
  rw [p1] at hx
  split at hx
  · rename_i hlt
    rw [if_pos hlt]
    cases hx
    refine ⟨_, rfl, k0, ⟨rfl, hlt, ?_⟩, k2, k3, k4⟩
    intro i hi
    simp only at hi ⊢
    split
    · rfl
    · exact p3 i (by omega)
  · cases hx

theorem passive_next {n d ts : Nat} {rising : Bool} {a a' x : CtcActive n} {r : Except Nat Nat} (h : Clocks d a a')
    (hx : a.nextClkTrg' rising (ts + d) = some (r, x)) :
    ∃ r' x', a'.nextClkTrg' rising ts = some (r', x') ∧ Clocks d x x' ∧ Edges d r r' := by
  obtain ⟨k0, k1, k2, k3, k4⟩ := id h
  obtain ⟨p1, p2, p3⟩ := id k1
  simp only [CtcActive.nextClkTrg', Option.bind_eq_bind] at hx ⊢
  by_cases hz : a.next.pulses = 0
  · rw [if_neg (by simpa using hz)] at hx
    rw [if_neg (by simpa [← p1] using hz)]
    cases hx
    exact ⟨_, _, rfl, h, Hints.never⟩
  · have hn : 0 < n := by omega
    rw [if_pos hz, dif_pos hn, p3 ⟨0, hn⟩ (by simp only; omega)] at hx
    rw [if_pos (by rw [← p1]; exact hz), dif_pos hn]
    have hsh : Clocks d { a with next := a.next.shift (a.next.pulses - 1) }
        { a' with next := a'.next.shift (a'.next.pulses - 1) } :=
      ⟨k0, by rw [← p1]; exact k1.shift (by omega), k2, k3, k4⟩
    by_cases hle : a'.next.ts ⟨0, hn⟩ ≤ ts
    · rw [if_pos hle]
      rw [if_pos (by omega)] at hx
      split at hx
      · rename_i hr
        rw [if_pos hr]
        cases hx
        exact ⟨_, _, rfl, hsh, rfl⟩
      · rename_i hr
        rw [if_neg hr]
        simp only [Option.bind_eq_some_iff] at hx
        obtain ⟨e, he, hx⟩ := hx
        obtain ⟨f2, rfl⟩ := add32_back he
        rw [f2, Option.bind_some]
        by_cases hle2 : a'.next.ts ⟨0, hn⟩ + 2 ≤ ts
        · rw [if_pos hle2]
          rw [if_pos (by omega)] at hx
          cases hx
          exact ⟨_, _, rfl, hsh, rfl⟩
        · rw [if_neg hle2]
          rw [if_neg (by omega)] at hx
          cases hx
          exact ⟨_, _, rfl, h, Hints.add (by omega)⟩
    · rw [if_neg hle]
      rw [if_neg (by omega)] at hx
      cases hx
      exact ⟨_, _, rfl, h, Hints.add (by omega)⟩

theorem purgeLoop_back {n d ts : Nat} : ∀ {k : Nat} {p p' q : CtcPulse n} {g : Nat}, Pulses d p p' → p.pulses = k →
    CtcActive.purgeLoop (ts + d) k p = some (g, q) →
    ∃ g' q', CtcActive.purgeLoop ts k p' = some (g', q') ∧ Pulses d q q' ∧ Hints d g g'
  | 0, _, _, _, _, h, _, hx => by cases hx; exact ⟨_, _, rfl, h, Hints.never⟩
  | k + 1, p, p', q, g, h, hk, hx => by
    have hn : 0 < n := by have := h.2.1; omega
    simp only [CtcActive.purgeLoop, Option.bind_eq_bind] at hx ⊢
    rw [dif_pos hn, h.2.2 ⟨0, hn⟩ (by simp only; omega)] at hx
    rw [dif_pos hn]
    by_cases hgt : p'.ts ⟨0, hn⟩ > ts
    · rw [if_pos hgt]
      rw [if_pos (by omega)] at hx
      cases hx
      exact ⟨_, _, rfl, h, Hints.add (by omega)⟩
    · rw [if_neg hgt]
      rw [if_neg (by omega)] at hx
      simp only [Option.bind_eq_some_iff] at hx
      obtain ⟨e, he, hx⟩ := hx
      obtain ⟨f2, rfl⟩ := add32_back he
      rw [f2, Option.bind_some]
      by_cases hgt2 : p'.ts ⟨0, hn⟩ + 2 > ts
      · rw [if_pos hgt2]
        rw [if_pos (by omega)] at hx
        cases hx
        exact ⟨_, _, rfl, h, Hints.add (by omega)⟩
      · rw [if_neg hgt2]
        rw [if_neg (by omega)] at hx
        exact purgeLoop_back (h.shift hk.symm) (by
          have := h.2.1
          simp only [CtcPulse.shift]
          omega) hx

theorem passive_purge {n d ts : Nat} {a a' x : CtcActive n} {g : Nat} (h : Clocks d a a')
    (hx : a.purge' (ts + d) = some (g, x)) :
    ∃ g' x', a'.purge' ts = some (g', x') ∧ Clocks d x x' ∧ Hints d g g' := by
  obtain ⟨k0, k1, k2, k3, k4⟩ := id h
  simp only [CtcActive.purge', Option.map_eq_some_iff] at hx
  obtain ⟨⟨g1, q⟩, hq, hx⟩ := hx
  cases hx
  rw [k1.1] at hq
  obtain ⟨g', q', e1, e2, e3⟩ := purgeLoop_back k1 k1.1 hq
  exact ⟨g', { a' with next := q' }, by rw [CtcActive.purge', e1]; rfl, ⟨k0, e2, k2, k3, k4⟩, e3⟩

/-- The triggers of the computer. -/
theorem shifts_ral (bound n d : Nat) :
    Shifts (ralTriggers bound n) d fun w w' => Clocks d w.1 w'.1 ∧ Clocks d w.2 w'.2 where
  next i rising ts w w' r w1 h0 h1 hw h := by
    match i with
    | 0 =>
      simp only [ralTriggers, Option.map_eq_some_iff] at h
      obtain ⟨⟨r1, a⟩, ha, h⟩ := h
      cases h
      obtain ⟨r', x', e1, e2, e3⟩ := active_next hw.1 ha
      exact ⟨r', (x', w'.2), by simp only [ralTriggers, e1]; rfl, ⟨e2, hw.2⟩, e3⟩
    | 1 =>
      simp only [ralTriggers, Option.map_eq_some_iff] at h
      obtain ⟨⟨r1, a⟩, ha, h⟩ := h
      cases h
      obtain ⟨r', x', e1, e2, e3⟩ := passive_next hw.1 ha
      exact ⟨r', (x', w'.2), by simp only [ralTriggers, e1]; rfl, ⟨e2, hw.2⟩, e3⟩
    | 2 =>
      simp only [ralTriggers, Option.map_eq_some_iff] at h
      obtain ⟨⟨r1, a⟩, ha, h⟩ := h
      cases h
      obtain ⟨r', x', e1, e2, e3⟩ := active_next hw.2 ha
      exact ⟨r', (w'.1, x'), by simp only [ralTriggers, e1]; rfl, ⟨hw.1, e2⟩, e3⟩
    | 3 =>
      simp only [ralTriggers, Option.map_eq_some_iff] at h
      obtain ⟨⟨r1, a⟩, ha, h⟩ := h
      cases h
      obtain ⟨r', x', e1, e2, e3⟩ := passive_next hw.2 ha
      exact ⟨r', (w'.1, x'), by simp only [ralTriggers, e1]; rfl, ⟨hw.1, e2⟩, e3⟩
  purge i ts w w' g w1 h0 h1 hw h := by
    match i with
    | 0 =>
      simp only [ralTriggers, Option.map_eq_some_iff] at h
      obtain ⟨⟨r1, a⟩, ha, h⟩ := h
      cases h
      obtain ⟨r', x', e1, e2, e3⟩ := active_purge hw.1 ha
      exact ⟨r', (x', w'.2), by simp only [ralTriggers, e1]; rfl, ⟨e2, hw.2⟩, e3⟩
    | 1 =>
      simp only [ralTriggers, Option.map_eq_some_iff] at h
      obtain ⟨⟨r1, a⟩, ha, h⟩ := h
      cases h
      obtain ⟨r', x', e1, e2, e3⟩ := passive_purge hw.1 ha
      exact ⟨r', (x', w'.2), by simp only [ralTriggers, e1]; rfl, ⟨e2, hw.2⟩, e3⟩
    | 2 =>
      simp only [ralTriggers, Option.map_eq_some_iff] at h
      obtain ⟨⟨r1, a⟩, ha, h⟩ := h
      cases h
      obtain ⟨r', x', e1, e2, e3⟩ := active_purge hw.2 ha
      exact ⟨r', (w'.1, x'), by simp only [ralTriggers, e1]; rfl, ⟨hw.1, e2⟩, e3⟩
    | 3 =>
      simp only [ralTriggers, Option.map_eq_some_iff] at h
      obtain ⟨⟨r1, a⟩, ha, h⟩ := h
      cases h
      obtain ⟨r', x', e1, e2, e3⟩ := passive_purge hw.2 ha
      exact ⟨r', (w'.1, x'), by simp only [ralTriggers, e1]; rfl, ⟨hw.1, e2⟩, e3⟩
  pulse i p w w' w1 hw h := by
    match i with
    | 0 =>
      simp only [ralTriggers, Option.map_eq_some_iff] at h
      obtain ⟨a, ha, h⟩ := h
      cases h
      obtain ⟨x', e1, e2⟩ := active_pulse hw.1 ha
      exact ⟨(x', w'.2), by simp only [ralTriggers, e1]; rfl, e2, hw.2⟩
    | 1 => cases h; exact ⟨_, rfl, hw⟩
    | 2 =>
      simp only [ralTriggers, Option.map_eq_some_iff] at h
      obtain ⟨a, ha, h⟩ := h
      cases h
      obtain ⟨x', e1, e2⟩ := active_pulse hw.2 ha
      exact ⟨(w'.1, x'), by simp only [ralTriggers, e1]; rfl, hw.1, e2⟩
    | 3 => cases h; exact ⟨_, rfl, hw⟩

end Z80.Ral.Wrap
