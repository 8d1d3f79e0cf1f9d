import Verif.Proofs.RalHint
import Verif.Proofs.RalCounter

/-!
# C57: timers of the example computer

Timers are not run T-state by T-state but looked at now and then. `Ticks c n a z` says that channel `c` runs as a timer
with constant `n`, was looked at last at time `a`, shows what it has to, and gets to zero next at time `z`.
-/

namespace Z80.Ral
open Spec.Ral

variable {W : Type} {t : Triggers W} {i : Fin 4} {seen : W → List Nat}

/-- **C57.** A timer starts one T-state after its constant is written: with a control word (timer, reset, constant
follows, no trigger) written at any time to a channel in any state, and the constant, it gets to zero first one period
later. -/
theorem C57_start (hr : Records t i seen) {word n : U8} {ts ts' : Nat} {c c1 c2 : CtcChannel} {w w1 w2 : W}
    {b1 b2 : Bool} (ha : c.awaiting = false) (h0 : word.getLsbD 0 = true) (h1 : word.getLsbD 1 = true)
    (h2 : word.getLsbD 2 = true) (h3 : word.getLsbD 3 = false) (h6 : word.getLsbD 6 = false)
    (e1 : c.writeControl t i word ts w = some (b1, c1, w1)) (e2 : c1.writeControl t i n ts' w1 = some (b2, c2, w2)) :
    Ticks c2 n (ts' + 1) (ts' + 1 + period n (if word.getLsbD 5 then 256 else 16)) ∧
      c2.intsEnabled = word.getLsbD 7 ∧ c2.awaiting = false ∧ b1 = true ∧ b2 = true ∧ seen w2 = seen w1 := by
  simp only [CtcChannel.writeControl, Option.bind_eq_bind, Option.bind_eq_some_iff] at e1
  obtain ⟨⟨c3, w3⟩, hp, e1⟩ := e1
  have hset := CtcChannel.process_setup hp
  simp only [CtcChannel.setup, Prod.mk.injEq] at hset
  rw [hset.2.2.2.1, ha, h0, if_neg (by simp), if_pos rfl] at e1
  simp only [Option.bind_eq_some_iff] at e1
  obtain ⟨c4, hc, e1⟩ := e1
  obtain ⟨q1, q2, q3, q4, q5, q6, q7, q8⟩ := CtcChannel.control_reset h1 h2 h3 h6 hc
  have hc1 : c1.mode = .timer ∧ c1.restart = none ∧ c1.lastTs = none ∧ c1.internal = 256 ∧ c1.awaiting = true ∧
      c1.extTrigger = false ∧ c1.prescaler = wordPrescaler word ∧ c1.intsEnabled = word.getLsbD 7 ∧ b1 = true := by
    split at e1
    · simp only [Option.bind_eq_some_iff] at e1
      obtain ⟨⟨c5, w5⟩, he, e1⟩ := e1
      cases e1
      simp only [CtcChannel.edgeChanged, q2] at he
      cases he
      exact ⟨q1, rfl, q3, q4, q5, q6, q7, q8, rfl⟩
    · cases e1
      exact ⟨q1, q2, q3, q4, q5, q6, q7, q8, rfl⟩
  obtain ⟨q1, q2, q3, q4, q5, q6, q7, q8, q9⟩ := hc1
  simp only [CtcChannel.writeControl, Option.bind_eq_bind, Option.bind_eq_some_iff] at e2
  obtain ⟨⟨c6, w6⟩, hp2, e2⟩ := e2
  obtain ⟨k, hk, rfl⟩ := CtcChannel.process_idle q2 hp2
  simp only [q5, if_true, Option.bind_eq_some_iff] at e2
  obtain ⟨c7, hw, e2⟩ := e2
  cases e2
  simp only [CtcChannel.writeConstant, q1, q3, q6, q2, Option.isNone_none, if_true, Bool.false_eq_true, if_false] at hw
  have := start_ticks (by rfl) (by rfl) (by exact q4) (by rfl) hw
  have hpre : (wordPrescaler word).prescale = if word.getLsbD 5 then 256 else 16 := by
    unfold wordPrescaler; split <;> rfl
  simp only [q7, hpre] at this
  have hset := CtcChannel.startTimer_setup hw
  simp only [CtcChannel.setup, Prod.mk.injEq] at hset
  exact ⟨this, hset.2.2.2.2.2.1.trans q8, hset.2.2.2.1, q9, rfl, hr.purge _ _ _ _ hk⟩

/-- Looking at a channel at the given times, in any order. -/
def looks (t : Triggers W) (i : Fin 4) : List Nat → CtcChannel → W → Option (CtcChannel × W)
  | [], c, w => some (c, w)
  | ts :: l, c, w => match c.process t i ts w with
    | some (c, w) => looks t i l c w
    | none => none

/-- **C57.** However often and whenever a timer is looked at: up to the latest of these times it has sent a pulse at
each of its zeros, in order and with their exact times, and no others; it has raised its interrupt if there was a zero
and interrupts are enabled; and it runs on. -/
theorem C57_runs (hr : Records t i seen) {n : U8} {c' : CtcChannel} {w' : W} :
    ∀ (l : List Nat) (a z : Nat) (c : CtcChannel) (w : W), Ticks c n a z → looks t i l c w = some (c', w') →
      let p := period n c.prescaler.prescale
      let b := l.foldl max a
      Ticks c' n b (nextZero z p b) ∧ seen w' = seen w ++ zeros z p b ∧
        c'.intActive = (c.intActive || c.intsEnabled && !(zeros z p b).isEmpty) ∧ c'.setup = c.setup
  | [], a, z, c, w, hc, e => by
    intro p b
    cases e
    have : b = a := rfl
    rw [this, nextZero_lt hc.later, zeros_lt hc.later]
    exact ⟨hc, by simp, by simp, rfl⟩
  | ts :: l, a, z, c, w, hc, e => by
    intro p b
    simp only [looks] at e
    split at e
    · rename_i c1 w1 h1
      have hp : 0 < p := period_pos n (prescale_pos _)
      obtain ⟨i1, i2, i3⟩ := process_ticks hc ts h1
      obtain ⟨j1, j2, j3, j4⟩ := C57_runs hr l _ _ c1 w1 i1 e
      have hset := CtcChannel.process_setup h1
      have hpre : c1.prescaler = c.prescaler := by
        simp only [CtcChannel.setup, Prod.mk.injEq] at hset; exact hset.2.1
      have hen : c1.intsEnabled = c.intsEnabled := by
        simp only [CtcChannel.setup, Prod.mk.injEq] at hset; exact hset.2.2.2.2.2.1
      have hb : max a ts ≤ b := by
        have : ∀ (l : List Nat) (x : Nat), x ≤ l.foldl max x := by
          intro l
          induction l with
          | nil => exact fun x => Nat.le_refl _
          | cons y l ih => exact fun x => Nat.le_trans (Nat.le_max_left x y) (ih _)
        exact this l _
      obtain ⟨k1, k2⟩ := zeros_append (p := p) hp hb _ z (Nat.le_refl _)
      rw [hpre] at j1 j2 j3
      change Ticks c' n b (nextZero (nextZero z p (max a ts)) p b) at j1
      change seen w' = seen w1 ++ zeros (nextZero z p (max a ts)) p b at j2
      change c'.intActive = (c1.intActive || c1.intsEnabled && !(zeros (nextZero z p (max a ts)) p b).isEmpty) at j3
      have i2 : seen w1 = seen w ++ zeros z p (max a ts) := i2 seen hr
      rw [k2] at j1
      refine ⟨j1, ?_, ?_, j4.trans hset⟩
      · rw [j2, i2, k1, List.append_assoc]
      · rw [j3, hen, k1]
        have : c1.intActive = (struck (zeros z p (max a ts)) c).intActive := by rw [i3]
        rw [this]
        unfold struck
        cases zeros z p (max a ts) with
        | nil => rfl
        | cons x r =>
          simp [CtcChannel.setIntActive]
          cases c.intActive <;> cases c.intsEnabled <;> simp
    · cases e

/-- **C57.** So it does not matter when it is looked at: two ways of looking at it up to the same time end with the same
pulses, the same value, the same interrupt and the same next zero. -/
theorem C57_lazy (hr : Records t i seen) {n : U8} {a z : Nat} {c c1 c2 : CtcChannel} {w w1 w2 : W} (hc : Ticks c n a z)
    (l l' : List Nat) (hl : l.foldl max a = l'.foldl max a) (e1 : looks t i l c w = some (c1, w1))
    (e2 : looks t i l' c w = some (c2, w2)) :
    seen w1 = seen w2 ∧ c1.current = c2.current ∧ c1.intActive = c2.intActive ∧ c1.lastTs = c2.lastTs ∧
      c1.setup = c2.setup ∧ c1.units = c2.units := by
  obtain ⟨i1, i2, i3, i4⟩ := C57_runs hr l a z c w hc e1
  obtain ⟨j1, j2, j3, j4⟩ := C57_runs hr l' a z c w hc e2
  rw [← hl] at j1 j2 j3
  have hpre : ∀ x : CtcChannel, x.setup = c.setup → x.prescaler = c.prescaler := fun x h => by
    simp only [CtcChannel.setup, Prod.mk.injEq] at h; exact h.2.1
  exact ⟨i2.trans j2.symm, by rw [i1.shown, j1.shown, hpre _ i4, hpre _ j4], i3.trans j3.symm,
    i1.lastTs.trans j1.lastTs.symm, i4.trans j4.symm, by rw [i1.units, j1.units, hpre _ i4, hpre _ j4]⟩

/-- **C57.** Reading the counter gives the counts up to the next zero. -/
theorem C57_read {n v : U8} {a z ts : Nat} {c c' : CtcChannel} {w w' : W} (hc : Ticks c n a z)
    (hts : a ≤ ts) (e : c.readCounter t i ts w = some (v, c', w')) :
    v = countsTo (nextZero z (period n c.prescaler.prescale) ts) c.prescaler.prescale ts := by
  simp only [CtcChannel.readCounter, Option.map_eq_some_iff] at e
  obtain ⟨⟨c1, w1⟩, h1, e⟩ := e
  cases e
  obtain ⟨i1, -, i3⟩ := process_ticks hc ts h1
  have hset := CtcChannel.process_setup h1
  simp only [CtcChannel.setup, Prod.mk.injEq] at hset
  rw [i1.shown, hset.2.1, Nat.max_eq_right hts]

/-- **C57.** A new constant for a running timer (timer, no reset, constant follows, same prescaler) takes effect at its
next zero: the period that has begun is not changed. -/
theorem C57_retime (hr : Records t i seen) {word n m : U8} {a z ts ts' : Nat} {c c1 c2 : CtcChannel} {w w1 w2 : W}
    {b1 b2 : Bool} (hc : Ticks c n a z) (ha : c.awaiting = false) (h0 : word.getLsbD 0 = true)
    (h1 : word.getLsbD 1 = false) (h2 : word.getLsbD 2 = true) (h6 : word.getLsbD 6 = false)
    (hp : c.prescaler = if word.getLsbD 5 then .x256 else .x16)
    (e1 : c.writeControl t i word ts w = some (b1, c1, w1)) (e2 : c1.writeControl t i m ts' w1 = some (b2, c2, w2)) :
    let p := period n c.prescaler.prescale
    let b := max (max a ts) ts'
    Ticks c2 m b (nextZero z p b) ∧ c2.prescaler = c.prescaler ∧ c2.intsEnabled = word.getLsbD 7 ∧
      seen w2 = seen w ++ zeros z p b := by
  intro p b
  have hp0 : 0 < p := period_pos n (prescale_pos _)
  simp only [CtcChannel.writeControl, Option.bind_eq_bind, Option.bind_eq_some_iff] at e1
  obtain ⟨⟨c3, w3⟩, hpr, e1⟩ := e1
  have hset := CtcChannel.process_setup hpr
  simp only [CtcChannel.setup, Prod.mk.injEq] at hset
  obtain ⟨i1, i2, i3⟩ := process_ticks hc ts hpr
  rw [hset.2.2.2.1, ha, h0, if_neg (by simp), if_pos rfl] at e1
  simp only [Option.bind_eq_some_iff] at e1
  obtain ⟨c4, hc4, e1⟩ := e1
  obtain ⟨x, y, rfl⟩ := CtcChannel.control_retime h1 h2 h6 i1.mode (by rw [i1.lastTs]; rfl)
    (by rw [hset.2.1, hp]; rfl) hc4
  have hc1 : ∃ r, c1 = { c3 with awaiting := true, intsEnabled := word.getLsbD 7,
                                 intActive := c3.intActive && word.getLsbD 7, extTs := x, extTrigger := y,
                                 rising := r } ∧ w1 = w3 := by
    split at e1
    · simp only [Option.bind_eq_some_iff] at e1
      obtain ⟨⟨c5, w5⟩, he, e1⟩ := e1
      cases e1
      simp only [CtcChannel.edgeChanged, i1.restart, i1.mode, i1.lastTs] at he
      cases he
      exact ⟨_, by rw [← i1.restart, ← i1.mode, ← i1.lastTs], rfl⟩
    · cases e1
      exact ⟨c3.rising, rfl, rfl⟩
  obtain ⟨r, hc1, hw1⟩ := hc1
  have t1 : Ticks c1 n (max a ts) (nextZero z p (max a ts)) := by
    rw [hc1]
    exact ⟨i1.mode, i1.restart, i1.lastTs, i1.later, i1.near, i1.units, i1.shown, i1.hint⟩
  have hp1 : c1.prescaler = c.prescaler := by rw [hc1]; exact hset.2.1
  have ha1 : c1.awaiting = true := by rw [hc1]
  simp only [CtcChannel.writeControl, Option.bind_eq_bind, Option.bind_eq_some_iff] at e2
  obtain ⟨⟨c6, w6⟩, hp2, e2⟩ := e2
  obtain ⟨j1, j2, j3⟩ := process_ticks t1 ts' hp2
  have hset2 := CtcChannel.process_setup hp2
  simp only [CtcChannel.setup, Prod.mk.injEq] at hset2
  rw [hset2.2.2.2.1, ha1, if_pos rfl] at e2
  simp only [Option.bind_eq_some_iff] at e2
  obtain ⟨c7, hw, e2⟩ := e2
  cases e2
  simp only [CtcChannel.writeConstant, j1.mode, j1.lastTs, j1.restart, Option.isNone_some, Bool.false_eq_true,
    if_false, Option.some.injEq] at hw
  rw [hp1] at j1 j2
  obtain ⟨k1, k2⟩ := zeros_append (p := p) hp0 (Nat.le_max_left (max a ts) ts') _ z (Nat.le_refl _)
  change Ticks c6 n b (nextZero (nextZero z p (max a ts)) p b) at j1
  have j2 : seen w2 = seen w1 ++ zeros (nextZero z p (max a ts)) p b := j2 seen hr
  rw [k2] at j1
  refine ⟨?_, ?_, ?_, ?_⟩
  · rw [← hw]
    exact ⟨rfl, rfl, rfl, j1.later, j1.near, j1.units, j1.shown, j1.hint⟩
  · rw [← hw]
    exact hset2.2.1.trans hp1
  · rw [← hw]
    refine hset2.2.2.2.2.2.1.trans ?_
    rw [hc1]
  · rw [j2, hw1, i2 seen hr, List.append_assoc]
    congr 1
    exact k1.symm

/-- **C57.** When the clock is set back by a second, the timer goes back with it. -/
theorem C57_second {n : U8} {a z delta : Nat} {c c' : CtcChannel} {w w' : W} (hc : Ticks c n a z)
    (e : c.nextSecond t i delta w = some (c', w')) :
    delta ≤ a ∧ Ticks c' n (a - delta) (z - delta) ∧ c'.setup = c.setup ∧ c'.current = c.current :=
  second_ticks hc e

/-- **C57.** Looking at a timer does not panic if its triggers do not, as long as times fit in 32 bits. -/
theorem C57_total (hpulse : ∀ ts w, t.pulse i ts w ≠ none)
    (hpurge : ∀ ts w, t.purge i ts w ≠ none) {n : U8} {a z : Nat} {c : CtcChannel} (hc : Ticks c n a z) (ts : Nat)
    (w : W) (ha : a + 1 < 2 ^ 32) (hd : (ts - a) * c.prescaler.factor < 2 ^ 32) (hts : ts + 65536 < 2 ^ 32) :
    c.process t i ts w ≠ none := process_total hpulse hpurge hc ts w ha hd hts

/-- **C57.** The channels with active triggers put their pulses into the collectors. -/
theorem C57_active (bound n : Nat) :
    Records (ralTriggers bound n) 0 (fun w => w.1.next.queue) ∧
      Records (ralTriggers bound n) 2 (fun w => w.2.next.queue) := by
  have hpurge : ∀ (ts h : Nat) (x y : CtcActive n), x.purge ts = some (h, y) → y.next = x.next := by
    intro ts h x y e
    simp only [CtcActive.purge, Option.bind_eq_bind, Option.bind_eq_some_iff] at e
    obtain ⟨k, -, e⟩ := e
    split at e
    · simp only [Option.bind_eq_some_iff] at e
      obtain ⟨k2, -, e⟩ := e
      cases e; rfl
    · cases e; rfl
  refine ⟨⟨fun ts w w' h => ?_, fun ts w h w' e => ?_⟩, ⟨fun ts w w' h => ?_, fun ts w h w' e => ?_⟩⟩
  · simp only [ralTriggers, Option.map_eq_some_iff] at h
    obtain ⟨x, hx, rfl⟩ := h
    exact queue_pulse hx
  · simp only [ralTriggers, Option.map_eq_some_iff] at e
    obtain ⟨⟨k, x⟩, hx, e⟩ := e
    cases e
    simp only [hpurge _ _ _ _ hx]
  · simp only [ralTriggers, Option.map_eq_some_iff] at h
    obtain ⟨x, hx, rfl⟩ := h
    exact queue_pulse hx
  · simp only [ralTriggers, Option.map_eq_some_iff] at e
    obtain ⟨⟨k, x⟩, hx, e⟩ := e
    cases e
    simp only [hpurge _ _ _ _ hx]

/-- Triggers that write down all pulses. -/
def recorder : Triggers (List Nat) where
  bound := 0
  nextClkTrg _ _ _ w := some (.error 0, w)
  purge _ _ w := some (0, w)
  pulse _ ts w := some (w ++ [ts])
  nextSecond _ _ w := some w

theorem recorder_records : Records recorder i id where
  pulse _ _ _ h := by cases h; rfl
  purge _ _ _ _ h := by cases h; rfl

/-- The hypotheses are met: a timer with prescaler 16 and constant 3, started at time 100, sends pulses every 48
T-states, and one can be started in this way. -/
example : (do
    let (_, c, w) ← CtcChannel.new.writeControl recorder 0 0x87#8 90 []
    let (_, c, w) ← c.writeControl recorder 0 3#8 100 w
    let (c, w) ← looks recorder 0 [120, 110, 149, 250] c w
    let (v, c, w) ← c.readCounter recorder 0 300 w
    return (w, v, c.intActive)) = some ([149, 197, 245, 293], 3#8, true) := by decide +kernel

/-- A timer that runs. -/
example : ∃ c w, Ticks c 3#8 101 149 ∧ looks recorder 0 [120, 110, 149, 250] c [] = some w := by
  refine ⟨{ CtcChannel.new with restart := some 3#8, current := 3#8, lastTs := some 101, prescaler := .x16 }, _,
    ⟨rfl, rfl, rfl, by decide, by decide, by decide +kernel, by decide +kernel, by decide⟩, rfl⟩

end Z80.Ral
