import Verif.Spec.RalSafe
import Verif.Proofs.RalHint
import Verif.Proofs.RalTimer
import Verif.Proofs.RalFrame
import Verif.Proofs.RalMemory

/-!
# Lemmas on programs that do not make the example computer panic
-/

namespace Z80.Ral
open Spec Spec.Ral

theorem add32_fits {a b : Nat} (h : a + b < 2 ^ 32) : add32 a b = some (a + b) := if_pos h

/-! ### Triggers -/

variable {n : Nat}

/-- Nothing of a trigger is ahead of time. -/
structure Wired (K now : Nat) (a : CtcActive n) : Prop where
  clock : 0 < a.hclock ∧ a.hclock ≤ K
  period : a.periodTs ≤ now
  cells : a.next.pulses ≤ n
  past : ∀ i : Fin n, i.val < a.next.pulses → a.next.ts i ≤ now

theorem Wired.mono {K now now' : Nat} {a : CtcActive n} (h : Wired K now a) (hn : now ≤ now') : Wired K now' a :=
  ⟨h.clock, Nat.le_trans h.period hn, h.cells, fun i hi => Nat.le_trans (h.past i hi) hn⟩

/-- The next edge of the external clock. -/
def CtcActive.edge (a : CtcActive n) : Nat := a.periodTs + a.hclock

theorem Wired.edge {K now : Nat} {a : CtcActive n} (h : Wired K now a) (hr : now + 2 * K < 2 ^ 32) (r : Bool) :
    ∃ x a', a.nextClkTrg r now = some (x, a') ∧ Wired K now a' ∧ a'.next = a.next ∧
      (∀ t, x = .ok t → t ≤ now ∧ a.edge ≤ t ∧ t < a'.edge) ∧
      ∀ t, x = .error t → t ≤ now + K ∧ t ≤ a'.edge ∧ now < a'.edge ∧ a.edge ≤ a'.edge := by
  obtain ⟨h1, h2, h3, h4⟩ := h
  unfold CtcActive.nextClkTrg
  rw [add32_fits (by omega), Option.bind_eq_bind, Option.bind_some]
  by_cases hn : a.periodTs + a.hclock ≤ now
  · rw [if_pos hn]
    simp only
    by_cases hb : (!a.edgeHigh) = r
    · rw [if_pos hb]
      exact ⟨_, _, rfl, ⟨h1, hn, h3, h4⟩, rfl, fun t ht => by cases ht; simp only [CtcActive.edge]; omega, nofun⟩
    · rw [if_neg hb, add32_fits (by omega), Option.bind_some]
      by_cases hn2 : a.periodTs + a.hclock + a.hclock ≤ now
      · rw [if_pos hn2]
        exact ⟨_, _, rfl, ⟨h1, hn2, h3, h4⟩, rfl, fun t ht => by cases ht; simp only [CtcActive.edge]; omega, nofun⟩
      · rw [if_neg hn2]
        exact ⟨_, _, rfl, ⟨h1, hn, h3, h4⟩, rfl, nofun, fun t ht => by cases ht; simp only [CtcActive.edge]; omega⟩
  · rw [if_neg hn]
    exact ⟨_, _, rfl, ⟨h1, h2, h3, h4⟩, rfl, nofun, fun t ht => by cases ht; simp only [CtcActive.edge]; omega⟩

theorem Wired.purge {K now : Nat} {a : CtcActive n} (h : Wired K now a) (hr : now + 2 * K < 2 ^ 32) :
    ∃ x a', a.purge now = some (x, a') ∧ Wired K now a' ∧ a'.next = a.next ∧ x ≤ now + K ∧ x = a'.edge ∧
      a.edge ≤ a'.edge := by
  obtain ⟨h1, h2, h3, h4⟩ := h
  unfold CtcActive.purge
  rw [add32_fits (by omega), Option.bind_eq_bind, Option.bind_some]
  by_cases hn : a.periodTs + a.hclock ≤ now
  · rw [if_pos hn, add32_fits (by omega), Option.bind_some]
    exact ⟨_, _, rfl, ⟨h1, hn, h3, h4⟩, rfl, by omega, rfl, by simp only [CtcActive.edge]; omega⟩
  · rw [if_neg hn]
    exact ⟨_, _, rfl, ⟨h1, h2, h3, h4⟩, rfl, by omega, rfl, by simp only [CtcActive.edge]; omega⟩

theorem Wired.pulse {K now ts : Nat} {a : CtcActive n} (h : Wired K now a) (hr : a.next.pulses < n) (ht : ts ≤ now) :
    ∃ a', a.pulse ts = some a' ∧ Wired K now a' ∧ a'.next.pulses = a.next.pulses + 1 ∧ a'.edge = a.edge := by
  obtain ⟨h1, h2, h3, h4⟩ := h
  unfold CtcActive.pulse
  rw [if_pos hr]
  refine ⟨_, rfl, ⟨h1, h2, hr, fun i hi => ?_⟩, rfl, rfl⟩
  simp only at hi ⊢
  split
  · exact ht
  · exact h4 i (by omega)

/-- The first cell is dropped. -/
theorem past_shift {now : Nat} {p : CtcPulse n} {k : Nat} (h : ∀ i : Fin n, i.val < k + 1 → p.ts i ≤ now)
    (hk : k + 1 ≤ n) : (p.shift k).pulses = k ∧ ∀ i : Fin n, i.val < k → (p.shift k).ts i ≤ now := by
  have hm : min (n - 1) k = k := by omega
  refine ⟨hm, fun i hi => ?_⟩
  simp only [CtcPulse.shift, hm, dif_pos hi]
  exact h _ (by simp only; omega)

theorem Wired.edge' {K now : Nat} {a : CtcActive n} (h : Wired K now a) (hr : now + 2 < 2 ^ 32) (r : Bool) :
    ∃ x a', a.nextClkTrg' r now = some (x, a') ∧ Wired K now a' ∧ a'.edge = a.edge ∧ (∀ t, x = .ok t → t ≤ now) ∧
      ∀ t, x = .error t → t ≤ 2 ^ 32 := by
  obtain ⟨h1, h2, h3, h4⟩ := h
  unfold CtcActive.nextClkTrg'
  by_cases hp : a.next.pulses ≠ 0
  · have h0 : 0 < n := by omega
    have h5 := h4 ⟨0, h0⟩ (by simp only; omega)
    obtain ⟨hs, hc⟩ := past_shift (p := a.next) (k := a.next.pulses - 1) (now := now)
      (fun i hi => h4 i (by omega)) (by omega)
    rw [if_pos hp, dif_pos h0]
    simp only
    rw [if_pos h5]
    split
    · exact ⟨_, _, rfl, ⟨h1, h2, by simp only [hs]; omega, fun i hi => hc i (by simp only [hs] at hi; exact hi)⟩, rfl,
        fun t ht => by cases ht; exact h5, nofun⟩
    · rw [add32_fits (by omega), Option.bind_eq_bind, Option.bind_some]
      split
      · rename_i h6
        exact ⟨_, _, rfl, ⟨h1, h2, by simp only [hs]; omega, fun i hi => hc i (by simp only [hs] at hi; exact hi)⟩, rfl,
          fun t ht => by cases ht; exact h6, nofun⟩
      · exact ⟨_, _, rfl, ⟨h1, h2, h3, h4⟩, rfl, nofun, fun t ht => by cases ht; omega⟩
  · rw [if_neg hp]
    exact ⟨_, _, rfl, ⟨h1, h2, h3, h4⟩, rfl, nofun, fun t ht => by cases ht; omega⟩

theorem purgeLoop_past {now : Nat} (hr : now + 2 < 2 ^ 32) : ∀ (k : Nat) (p : CtcPulse n), p.pulses = k → k ≤ n →
    (∀ i : Fin n, i.val < k → p.ts i ≤ now) → ∃ x p', CtcActive.purgeLoop now k p = some (x, p') ∧
      x ≤ 2 ^ 32 ∧ p'.pulses ≤ n ∧
      ∀ i : Fin n, i.val < p'.pulses → p'.ts i ≤ now
  | 0, p, e, _, _ => ⟨_, p, rfl, by omega, by omega, fun i hi => by omega⟩
  | k + 1, p, e, hk, hp => by
    have h0 : 0 < n := by omega
    have h5 := hp ⟨0, h0⟩ (by simp only; omega)
    obtain ⟨hs, hc⟩ := past_shift hp hk
    unfold CtcActive.purgeLoop
    rw [dif_pos h0]
    simp only
    rw [if_neg (by omega), add32_fits (by omega), Option.bind_eq_bind, Option.bind_some]
    split
    · exact ⟨_, _, rfl, by omega, by omega, fun i hi => hp i (by omega)⟩
    · exact purgeLoop_past hr k _ hs (by omega) hc

theorem Wired.purge' {K now : Nat} {a : CtcActive n} (h : Wired K now a) (hr : now + 2 < 2 ^ 32) :
    ∃ x a', a.purge' now = some (x, a') ∧ Wired K now a' ∧ a'.edge = a.edge ∧ x ≤ 2 ^ 32 := by
  obtain ⟨h1, h2, h3, h4⟩ := h
  obtain ⟨x, p, e, e0, e1, e2⟩ := purgeLoop_past hr _ a.next rfl h3 h4
  unfold CtcActive.purge'
  rw [e]
  exact ⟨_, _, rfl, ⟨h1, h2, e1, e2⟩, rfl, e0⟩

theorem Wired.second {K now d : Nat} {a : CtcActive n} (h : Wired K now a) :
    Wired K (now - d) ((a.nextSecond d).nextSecond' d) := by
  obtain ⟨h1, h2, h3, h4⟩ := h
  refine ⟨h1, Nat.sub_le_sub_right h2 d, h3, fun i hi => ?_⟩
  have hi : i.val < a.next.pulses := hi
  show (if i.val < a.next.pulses then a.next.ts i - d else a.next.ts i) ≤ now - d
  rw [if_pos hi]
  exact Nat.sub_le_sub_right (h4 i hi) d

/-! ### Channels -/

variable {W : Type} {t : Triggers W} {i : Fin 4} {A : Prop} {E : W → Nat}

/-- The trigger of a channel works at a time, as long as there are cells for pulses: `P m` says that there are `m`. A
channel waits for the trigger until `B` at most. If there is a clock (`A`) then its next edge is at `E`. -/
structure Serves (t : Triggers W) (i : Fin 4) (A : Prop) (now B : Nat) (E : W → Nat) (P : Nat → W → Prop) : Prop where
  fuel : A → now + 2 ≤ t.bound
  edge : ∀ m w r, P m w → ∃ x w', t.nextClkTrg i r now w = some (x, w') ∧ P m w' ∧
    (∀ t, x = .ok t → t ≤ now ∧ (A → E w ≤ t ∧ t < E w')) ∧
    ∀ t, x = .error t → t ≤ B ∧ (A → t ≤ E w' ∧ now < E w')
  purge : ∀ m w, P m w → ∃ x w', t.purge i now w = some (x, w') ∧ P m w' ∧ x ≤ B ∧ (A → x ≤ E w')
  pulse : ∀ m w ts, P (m + 1) w → ts ≤ now → ∃ w', t.pulse i ts w = some w' ∧ P m w' ∧ E w' = E w

/-- A channel that was looked at since `lo` if it is a running timer, or since `low` if it just started with the clock.
A timer that waits for an edge of the clock, the next of which is at `x`, has not missed one before `lo`. -/
structure Chan (A : Prop) (H low lo now x : Nat) (c : CtcChannel) : Prop where
  internal : c.internal ≤ 256
  free : c.extTrigger = true → A
  still : c.lastTs = none → ∀ trig, c.extTs = some trig → A ∧ c.restart.isSome = true ∧ c.mode = .timer ∧ c.hint ≤ x ∧
    (lo ≤ trig ∨ lo ≤ x)
  run : ∀ last, c.lastTs = some last → c.restart.isSome = true ∧ c.mode = .timer ∧
    (lo ≤ last ∨ c.hint = last ∧ low ≤ last) ∧ last ≤ now + 1 ∧ c.hint ≤ last + H

theorem Chan.mono {A : Prop} {H low low' lo lo' now now' x x' : Nat} {c : CtcChannel} (h : Chan A H low lo now x c)
    (hlow : low' ≤ low) (hl : lo' ≤ lo) (hn : now ≤ now') (hx : x ≤ x') : Chan A H low' lo' now' x' c :=
  ⟨h.internal, h.free, fun h0 trig ht => by
    obtain ⟨a, b, c, d, e⟩ := h.still h0 trig ht
    exact ⟨a, b, c, by omega, by omega⟩, fun last hl' => by
    obtain ⟨a, b, c, d, e⟩ := h.run last hl'
    exact ⟨a, b, by omega, by omega, e⟩⟩

theorem reload_pos (r : U8) : 0 < CtcChannel.reload r ∧ CtcChannel.reload r ≤ 65536 := by
  unfold CtcChannel.reload
  have := r.isLt
  split
  · omega
  · rename_i h
    have : r.toNat ≠ 0 := fun e => h (BitVec.eq_of_toNat_eq e)
    omega

/-- Zeros within `d` units, if the first comes after `k` and the others every `r`. -/
def zerosIn (r d k : Nat) : Nat := if k ≤ d then (d - k) / r + 1 else 0

theorem zerosIn_step {r d k : Nat} (hr : 0 < r) (h : k ≤ d) : zerosIn r d k = zerosIn r (d - k) r + 1 := by
  unfold zerosIn
  rw [if_pos h]
  split
  · rename_i h'
    rw [Nat.div_eq_sub_div hr h']
  · rename_i h'
    rw [Nat.div_eq_of_lt (by omega)]

theorem timerLoop_safe {now B r f m : Nat} {P : Nat → W → Prop} (hs : Serves t i A now B E P) (hr : 0 < r)
    (hr' : r ≤ 65536) (hf : 0 < f) (hnow : now < 2 ^ 32) : ∀ (n d k p : Nat) (c : CtcChannel) (w : W),
    (d + 1 < n ∨ d < n ∧ 0 < k) → p * f + d ≤ now * f → k ≤ 65536 → P (zerosIn r d k + m) w →
    ∃ d' k' p' b h w', CtcChannel.timerLoop t i r f n d k p c w =
        some (d', k', p', { c with intActive := b, hint := h }, w') ∧ d' < k' ∧ k' ≤ 65536 ∧ P m w'
  | 0, d, k, p, c, w, hn, _, _, _ => by omega
  | n + 1, d, k, p, c, w, hn, hp, hk, hP => by
    unfold CtcChannel.timerLoop
    by_cases h : d ≥ k
    · have h1 : (p + k / f) * f ≤ p * f + k := by
        rw [Nat.add_mul]
        exact Nat.add_le_add_left (Nat.div_mul_le_self k f) _
      have h2 : p + k / f ≤ now := Nat.le_of_mul_le_mul_right (by omega : (p + k / f) * f ≤ now * f) hf
      rw [zerosIn_step hr h, Nat.add_right_comm] at hP
      obtain ⟨w1, e1, hP1, -⟩ := hs.pulse _ _ _ hP h2
      obtain ⟨d', k', p', b, h', w', e, e1', e2, e3⟩ := timerLoop_safe hs hr hr' hf hnow n (d - k) r (p + k / f)
        c.setIntActive w1 (by omega) (by omega) hr' hP1
      rw [if_pos h, add32_fits (by omega)]
      simp only [e1]
      exact ⟨d', k', p', b, h', w', e, e1', e2, e3⟩
    · rw [if_neg h]
      have h0 : zerosIn r d k = 0 := if_neg h
      rw [h0, Nat.zero_add] at hP
      exact ⟨d, k, p, c.intActive, c.hint, w, rfl, by omega, hk, hP⟩

theorem countLoop_safe {now B m : Nat} {P : Nat → W → Prop} (hs : Serves t i A now B E P) (r : U8) :
    ∀ (n : Nat) (c : CtcChannel) (w : W), (if c.current = 0 then 256 else c.current.toNat) < n → P (m + 1) w →
    ∃ v b h w', CtcChannel.countLoop t i r now n c w = some ({ c with current := v, intActive := b, hint := h }, w') ∧
      (h ≤ B ∧ (A → h ≤ E w')) ∧ ∃ m', m ≤ m' ∧ P m' w'
  | 0, c, w, hn, _ => by omega
  | n + 1, c, w, hn, hP => by
    unfold CtcChannel.countLoop
    obtain ⟨x, w1, e1, hP1, hok, herr⟩ := hs.edge _ w c.rising hP
    rw [e1]
    cases x with
    | error h =>
      exact ⟨c.current, c.intActive, h, w1, rfl, ⟨(herr h rfl).1, fun a => ((herr h rfl).2 a).1⟩, m + 1, by omega, hP1⟩
    | ok tgt =>
      simp only [CtcChannel.downcount]
      by_cases h0 : c.current - 1 = 0
      · obtain ⟨w2, e2, hP2, -⟩ := hs.pulse m w1 tgt hP1 (hok _ rfl).1
        rw [if_pos h0]
        simp only [e2, Option.map_some]
        exact ⟨r, _, 0, w2, rfl, ⟨Nat.zero_le _, fun _ => Nat.zero_le _⟩, m, Nat.le_refl _, hP2⟩
      · rw [if_neg h0]
        have hlt : (if c.current - 1 = 0 then 256 else (c.current - 1).toNat) < n := by
          rw [if_neg h0]
          revert hn
          split
          · rename_i hc
            rw [hc]
            intro hn
            have : (0 - 1 : U8).toNat = 255 := by decide
            omega
          · rename_i hc
            intro hn
            have : c.current.toNat ≠ 0 := fun e => hc (BitVec.eq_of_toNat_eq e)
            have h2 : (c.current - 1).toNat = c.current.toNat - 1 := by
              have := c.current.isLt
              rw [BitVec.toNat_sub]
              have : (1 : U8).toNat = 1 := rfl
              omega
            omega
        obtain ⟨v, b, h, w', e, e1, e2⟩ := countLoop_safe hs r n { c with current := c.current - 1 } w1 hlt hP1
        exact ⟨v, b, h, w', e, e1, e2⟩

/-- A timer that waits starts with the first edge of the clock that it has not missed, or it goes on waiting. -/
theorem triggerLoop_safe {now B m trig : Nat} {P : Nat → W → Prop} (hs : Serves t i A now B E P) (a : A)
    (hnow : now + 1 < 2 ^ 32) : ∀ (n : Nat) (c : CtcChannel) (w : W), now + 1 - E w < n → P m w →
    ∃ c' w', CtcChannel.triggerLoop t i trig now n c w = some (c', w') ∧ P m w' ∧
      ((∃ h, c' = { c with hint := h } ∧ h ≤ B ∧ h ≤ E w' ∧ now < E w') ∨
        ∃ tgt, c' = { c with lastTs := some (tgt + 1), hint := tgt + 1 } ∧ tgt ≤ now ∧ trig ≤ tgt ∧ E w ≤ tgt)
  | 0, c, w, hn, _ => by omega
  | n + 1, c, w, hn, hP => by
    unfold CtcChannel.triggerLoop
    obtain ⟨x, w1, e1, hP1, hok, herr⟩ := hs.edge _ w c.rising hP
    rw [e1]
    cases x with
    | error h =>
      obtain ⟨h1, h2⟩ := herr h rfl
      exact ⟨_, w1, rfl, hP1, .inl ⟨h, rfl, h1, h2 a⟩⟩
    | ok tgt =>
      obtain ⟨h1, h2⟩ := hok tgt rfl
      obtain ⟨h2, h3⟩ := h2 a
      simp only
      by_cases ht : tgt ≥ trig
      · rw [if_pos ht]
        unfold CtcChannel.startTimer
        rw [add32_fits (by omega)]
        exact ⟨_, w1, rfl, hP1, .inr ⟨tgt, rfl, h1, ht, h2⟩⟩
      · rw [if_neg ht]
        obtain ⟨c', w', e, k1, k2⟩ := triggerLoop_safe hs a hnow n c w1 (by omega) hP1
        refine ⟨c', w', e, k1, k2.imp id ?_⟩
        rintro ⟨tgt', k3, k4, k5, k6⟩
        exact ⟨tgt', k3, k4, k5, by omega⟩

/-- Looking at a channel does not panic, and afterwards it has been looked at. -/
theorem process_safe {H low lo now B m : Nat} {P : Nat → W → Prop} (hs : Serves t i A now B E P)
    (hdown : ∀ m m' w, m ≤ m' → P m' w → P m w) {c : CtcChannel} {w : W} (hc : Chan A H low lo now (E w) c)
    (hH : 65536 ≤ H) (hlow : low ≤ lo) (hlo : (now - low) * 16 < 2 ^ 32) (hnow : now + 65536 + 2 < 2 ^ 32)
    (hP : P (due c now + m) w) :
    ∃ c' w', c.process t i now w = some (c', w') ∧ Chan A H lo now now (E w') c' ∧ P m w' ∧
      c'.hint ≤ max B (now + 65536) ∧ (A → c'.lastTs = none → c'.hint ≤ E w') := by
  obtain ⟨h1, h2, h3, h4⟩ := hc
  have idle : due c now = 0 → c.lastTs = none → c.extTs = none ∨ c.restart = none → ∃ c' w',
      ((t.purge i now w).map fun (hint, w) => ({ c with hint := hint }, w)) = some (c', w') ∧
        Chan A H lo now now (E w') c' ∧ P m w' ∧ c'.hint ≤ max B (now + 65536) ∧
          (A → c'.lastTs = none → c'.hint ≤ E w') := by
    intro h0 hl hx
    rw [h0, Nat.zero_add] at hP
    obtain ⟨x, w', e, e1, e2, e3⟩ := hs.purge _ _ hP
    rw [e]
    refine ⟨_, _, rfl, ⟨h1, h2, fun _ trig ht => ?_, fun last h => ?_⟩, e1, ?_, fun a _ => e3 a⟩
    · have ht : c.extTs = some trig := ht
      rcases hx with hx | hx
      · rw [hx] at ht
        cases ht
      · have := (h3 hl trig ht).2.1
        rw [hx] at this
        cases this
    · exact absurd (hl.symm.trans h) nofun
    · simp only
      omega
  have hproc : c.process t i now w = match c.restart, c.mode with
      | some restart, .counter => CtcChannel.countLoop t i restart now 257 c w
      | some restart, .timer => match c.lastTs, c.extTs with
        | some last, _ => CtcChannel.runTimer t i restart last now c w
        | none, some trig => CtcChannel.triggerLoop t i trig now t.bound c w
        | none, none => (t.purge i now w).map fun (hint, w) => ({ c with hint := hint }, w)
      | none, _ => (t.purge i now w).map fun (hint, w) => ({ c with hint := hint }, w) := rfl
  rw [hproc]
  clear hproc
  generalize ((t.purge i now w).map fun (hint, w) => ({ c with hint := hint }, w)) = idling at idle ⊢
  cases hr : c.restart with
  | none =>
    simp only
    refine idle (by simp only [due, hr]) ?_ (.inr hr)
    cases hl : c.lastTs with
    | none => rfl
    | some last => rw [hr] at h4; exact absurd (h4 last hl).1 nofun
  | some r =>
    cases hm : c.mode with
    | counter =>
      simp only
      have hl : c.lastTs = none := by
        cases hl : c.lastTs with
        | none => rfl
        | some last => rw [hm] at h4; exact absurd (h4 last hl).2.1 nofun
      have hd : due c now = 1 := by simp only [due, hr, hm]
      rw [hd, Nat.add_comm] at hP
      have hlt : (if c.current = 0 then 256 else c.current.toNat) < 257 := by
        have := c.current.isLt
        split <;> omega
      obtain ⟨v, b, h, w', e, e1, m', e2, e3⟩ := countLoop_safe hs r 257 c w hlt hP
      refine ⟨_, _, e, ⟨h1, h2, fun _ trig ht => ?_, fun last h => ?_⟩, hdown _ _ _ e2 e3, ?_, fun a _ => e1.2 a⟩
      · exact absurd (hm.symm.trans (h3 hl trig ht).2.2.1) nofun
      · exact absurd (hl.symm.trans h) nofun
      · simp only
        omega
    | timer =>
      simp only
      cases hl : c.lastTs with
      | none =>
        have hd : due c now = 0 := by simp only [due, hr, hm, hl]
        cases hx : c.extTs with
        | none =>
          simp only
          exact idle hd hl (.inl hx)
        | some trig =>
          simp only
          obtain ⟨a, g1, g2, g3, g4⟩ := h3 hl trig hx
          rw [hd, Nat.zero_add] at hP
          have hfuel := hs.fuel a
          obtain ⟨c', w', e, k1, k2⟩ := triggerLoop_safe (trig := trig) hs a (by omega) t.bound c w (by omega) hP
          refine ⟨c', w', e, ?_⟩
          rcases k2 with ⟨h, rfl, j1, j2, j3⟩ | ⟨tgt, rfl, j1, j2, j3⟩
          · refine ⟨⟨h1, h2, fun _ trig' ht => ?_, fun last h => ?_⟩, k1, ?_, fun _ _ => j2⟩
            · exact ⟨a, g1, g2, j2, .inr (by omega)⟩
            · exact absurd (hl.symm.trans h) nofun
            · simp only
              omega
          · refine ⟨⟨h1, h2, nofun, fun last h => ?_⟩, k1, ?_, nofun⟩
            · cases h
              exact ⟨g1, g2, .inr ⟨rfl, by omega⟩, by omega, by simp only; omega⟩
            · simp only
              omega
      | some last =>
        simp only
        obtain ⟨_, _, g1, g2, g3⟩ := h4 last hl
        unfold CtcChannel.runTimer
        obtain ⟨x, w1, e, e1, e2, -⟩ := hs.purge _ _ hP
        rw [e]
        simp only
        by_cases hgt : now > last
        · rw [if_pos hgt]
          have hf : 0 < c.prescaler.factor ∧ c.prescaler.factor ≤ 16 := by cases c.prescaler <;> decide
          have hu : c.units ≤ 65536 := by
            have := (c.current - 1).isLt
            unfold CtcChannel.units
            omega
          have hd : (now - last) * c.prescaler.factor < 2 ^ 32 := by
            refine Nat.lt_of_le_of_lt ?_ hlo
            exact Nat.mul_le_mul (by omega) hf.2
          rw [if_pos hd]
          have hz : due c now = zerosIn (CtcChannel.reload r) ((now - last) * c.prescaler.factor) c.units := by
            have hgt' : last < now := hgt
            simp only [due, hr, hm, hl, zerosIn, CtcChannel.units, CtcChannel.reload, hgt', true_and]
            congr
          rw [hz] at e1
          obtain ⟨d', k', p', b, h, w', j1, j2, j3, j4⟩ := timerLoop_safe hs (reload_pos r).1 (reload_pos r).2 hf.1
            (by omega) ((now - last) * c.prescaler.factor + 2) ((now - last) * c.prescaler.factor) c.units last c w1
            (.inl (by omega)) (by rw [Nat.sub_mul]; have := Nat.mul_le_mul_right c.prescaler.factor (Nat.le_of_lt hgt); omega)
            hu e1
          rw [j1]
          simp only
          have hdiv : (k' - d') / c.prescaler.factor ≤ 65536 := Nat.le_trans (Nat.div_le_self _ _) (by omega)
          have hint : ∃ z, (if p' ≠ last then some 0 else add32 now ((k' - d') / c.prescaler.factor)) = some z ∧
              z ≤ now + 65536 := by
            split
            · exact ⟨0, rfl, by omega⟩
            · exact ⟨_, add32_fits (by omega), by omega⟩
          obtain ⟨z, hz1, hz2⟩ := hint
          rw [hz1]
          simp only
          refine ⟨_, _, rfl, ⟨?_, ?_, nofun, ?_⟩, j4, ?_, nofun⟩
          · split
            · exact Nat.le_refl _
            · simp only
              omega
          · split <;> exact h2
          · intro last' hl'
            cases hl'
            split <;> exact ⟨by simp only [hr]; rfl, hm, .inl (Nat.le_refl _), by omega, by simp only; omega⟩
          · split <;> (simp only; omega)
        · rw [if_neg hgt, add32_fits (by omega)]
          have hd : due c now = 0 := by
            simp only [due, hr, hm, hl]
            rw [if_neg (by omega)]
          rw [hd, Nat.zero_add] at e1
          refine ⟨_, _, rfl, ⟨h1, h2, fun h => ?_, fun last' hl' => ?_⟩, e1, ?_, fun _ h => ?_⟩
          · exact absurd (hl.symm.trans h) nofun
          · have hl' : c.lastTs = some last' := hl'
            rw [hl] at hl'
            cases hl'
            exact ⟨by simp only [hr]; rfl, hm, .inl (by omega), g2, by simp only; omega⟩
          · simp only
            omega
          · exact absurd (hl.symm.trans h) nofun

theorem startTimer_safe {H lo now x : Nat} {c : CtcChannel} (hc : Chan A H lo now now x c)
    (hr : c.restart.isSome = true) (hm : c.mode = .timer) (hnow : now + 1 < 2 ^ 32) :
    ∃ c', c.startTimer now = some c' ∧ Chan A H lo now now x c' ∧ c'.hint ≤ now + 1 ∧ c'.rising = c.rising ∧
      c'.mode = c.mode := by
  unfold CtcChannel.startTimer
  rw [add32_fits hnow]
  refine ⟨_, rfl, ⟨hc.internal, hc.free, nofun, fun last hl => ?_⟩, Nat.le_refl _, rfl, rfl⟩
  cases hl
  exact ⟨hr, hm, .inl (by omega), by omega, by simp only; omega⟩

theorem writeConstant_safe {H lo now x : Nat} {c : CtcChannel} (data : U8) (hc : Chan A H lo now now x c)
    (hcalm : A → c.lastTs = none → c.hint ≤ x) (hnow : now + 1 < 2 ^ 32) :
    ∃ c', c.writeConstant data now = some c' ∧ Chan A H lo now now x c' ∧ c'.hint ≤ max c.hint (now + 1) := by
  obtain ⟨h1, h2, h3, h4⟩ := hc
  have hk : Chan A H lo now now x { c with awaiting := false, current := if c.restart.isNone then data else c.current,
                                           restart := some data } :=
    ⟨h1, h2, fun hl trig ht => ⟨(h3 hl trig ht).1, rfl, (h3 hl trig ht).2.2⟩, fun last hl => ⟨rfl, (h4 last hl).2⟩⟩
  unfold CtcChannel.writeConstant
  simp only
  split
  · rename_i hm hl
    split
    · rename_i hx
      have a := h2 hx
      refine ⟨_, rfl, ⟨h1, fun _ => a, fun _ trig ht => ?_, fun last h => ?_⟩, by simp only; omega⟩
      · cases ht
        exact ⟨a, rfl, hm, hcalm a hl, .inl (Nat.le_refl _)⟩
      · exact absurd (hl.symm.trans h) nofun
    · obtain ⟨c', e, e1, e2, _⟩ := startTimer_safe hk rfl hm hnow
      exact ⟨c', e, e1, by omega⟩
  · exact ⟨_, rfl, hk, by simp only; omega⟩

/-- The first part of a control word. -/
def CtcChannel.controlHead (data : U8) (c : CtcChannel) : CtcChannel :=
  let c := if data.getLsbD 1 then { c with restart := none, lastTs := none, extTs := none, internal := 256 } else c
  let c := if data.getLsbD 2 then { c with awaiting := true } else c
  let c := { c with prescaler := if data.getLsbD 5 then .x256 else .x16 }
  if data.getLsbD 7 then { c with intsEnabled := true } else { c with intActive := false, intsEnabled := false }

/-- The second part of a control word. -/
def CtcChannel.controlTail (data : U8) (ts : Nat) (c : CtcChannel) : Option CtcChannel := do
  let c ← if data.getLsbD 6 then
      some (if c.mode = .timer then { c with lastTs := none, extTs := none, mode := .counter } else c)
    else if c.mode = .counter then
      (if c.restart.isSome && !c.awaiting then
          if data.getLsbD 3 then some { c with extTs := some ts } else startTimer ts c
        else some c).map fun c => { c with mode := .timer }
    else some c
  if c.mode = .timer then
    if data.getLsbD 3 then some { c with extTrigger := true }
    else if c.extTrigger then
      (if c.lastTs.isNone && c.restart.isSome && !c.awaiting then startTimer ts c else some c).map fun c =>
        { c with extTs := none, extTrigger := false }
    else some c
  else some c

theorem control_split (data : U8) (ts : Nat) (c : CtcChannel) :
    c.control data ts = (c.controlHead data).controlTail data ts := rfl

theorem controlHead_safe {H lo now x : Nat} {c : CtcChannel} {data : U8} (hc : Chan A H lo now now x c)
    (hcalm : A → c.lastTs = none → c.hint ≤ x) :
    Chan A H lo now now x (c.controlHead data) ∧ (c.controlHead data).hint = c.hint ∧
      (c.controlHead data).rising = c.rising ∧
      (A → (c.controlHead data).restart.isSome = true → (c.controlHead data).lastTs = none → c.hint ≤ x) := by
  obtain ⟨h1, h2, h3, h4⟩ := hc
  unfold CtcChannel.controlHead
  cases data.getLsbD 1 <;> cases data.getLsbD 2 <;> cases data.getLsbD 7 <;>
    first
    | exact ⟨⟨h1, h2, h3, h4⟩, rfl, rfl, fun a _ => hcalm a⟩
    | exact ⟨⟨Nat.le_refl _, h2, nofun, nofun⟩, rfl, rfl, nofun⟩

theorem control_safe {H lo now x : Nat} {c : CtcChannel} {data : U8}
    (hd : data.getLsbD 6 = false → data.getLsbD 3 = true → A)
    (hc : Chan A H lo now now x c) (hcalm : A → c.lastTs = none → c.hint ≤ x) (hnow : now + 1 < 2 ^ 32) :
    ∃ c', c.control data now = some c' ∧ Chan A H lo now now x c' ∧ c'.hint ≤ max c.hint (now + 1) ∧
      c'.rising = c.rising := by
  obtain ⟨k, k5, k6, k7⟩ := controlHead_safe (data := data) hc hcalm
  rw [control_split]
  generalize c.controlHead data = c4 at k k5 k6 k7
  unfold CtcChannel.controlTail
  have hlast : c4.mode = .counter → c4.lastTs = none := by
    intro hm
    cases hl : c4.lastTs with
    | none => rfl
    | some last => exact absurd (hm.symm.trans (k.run last hl).2.1) nofun
  have hext : c4.mode = .counter → c4.extTs = none := by
    intro hm
    cases hl : c4.extTs with
    | none => rfl
    | some trig => exact absurd (hm.symm.trans (k.still (hlast hm) trig hl).2.2.1) nofun
  cases h6 : data.getLsbD 6 with
  | true =>
    simp only [if_true]
    cases hm : c4.mode with
    | timer =>
      simp only [if_true, Option.bind_eq_bind, Option.bind_some]
      exact ⟨_, rfl, ⟨k.1, k.2, nofun, nofun⟩, by simp only; omega, k6⟩
    | counter =>
      simp only [reduceCtorEq, if_false, Option.bind_eq_bind, Option.bind_some, hm]
      exact ⟨_, rfl, k, by omega, k6⟩
  | false =>
    simp only [Bool.false_eq_true, if_false]
    have hrest : ∀ c5 : CtcChannel, Chan A H lo now now x c5 → c5.mode = .timer → c5.hint ≤ max c.hint (now + 1) →
        c5.rising = c.rising → ∃ c', (if c5.mode = .timer then
          if data.getLsbD 3 then some { c5 with extTrigger := true }
          else if c5.extTrigger = true then
            Option.map (fun c : CtcChannel => { c with extTs := none, extTrigger := false })
              (if (c5.lastTs.isNone && c5.restart.isSome && !c5.awaiting) = true then c5.startTimer now else some c5)
          else some c5 else some c5) = some c' ∧ Chan A H lo now now x c' ∧ c'.hint ≤ max c.hint (now + 1) ∧
            c'.rising = c.rising := by
      intro c5 j1 j2 j3 j4
      rw [if_pos j2]
      cases h3 : data.getLsbD 3 with
      | true =>
        rw [if_pos rfl]
        exact ⟨_, rfl, ⟨j1.1, fun _ => hd h6 h3, j1.3, j1.4⟩, j3, j4⟩
      | false =>
        rw [if_neg (by nofun)]
        split
        · split
          · rename_i hs
            simp only [Bool.and_eq_true] at hs
            obtain ⟨c6, e6, l1, l2, l3, l4⟩ := startTimer_safe j1 hs.1.2 j2 hnow
            rw [e6]
            exact ⟨_, rfl, ⟨l1.1, nofun, fun _ => nofun, l1.4⟩, by simp only; omega, l3.trans j4⟩
          · exact ⟨_, rfl, ⟨j1.1, nofun, fun _ => nofun, j1.4⟩, j3, j4⟩
        · exact ⟨c5, rfl, j1, j3, j4⟩
    cases hm : c4.mode with
    | timer =>
      simp only [reduceCtorEq, if_false, Option.bind_eq_bind, Option.bind_some]
      exact hrest c4 k hm (by omega) k6
    | counter =>
      simp only [if_true, Option.bind_eq_bind]
      split
      · rename_i hr
        rw [Bool.and_eq_true] at hr
        by_cases h3 : data.getLsbD 3 = true
        · rw [if_pos h3, Option.map_some, Option.bind_some]
          refine hrest { c4 with extTs := some now, mode := .timer } ⟨k.1, k.2, fun _ trig ht => ?_, fun last hl => ?_⟩ rfl
            (by simp only; omega) k6
          · cases ht
            have a := hd h6 h3
            exact ⟨a, hr.1, rfl, by have := k7 a hr.1 (hlast hm); simp only; omega, .inl (Nat.le_refl _)⟩
          · exact absurd ((hlast hm).symm.trans hl) nofun
        · rw [if_neg h3]
          unfold CtcChannel.startTimer
          rw [add32_fits hnow, Option.map_some, Option.map_some, Option.bind_some]
          refine hrest { c4 with lastTs := some (now + 1), hint := now + 1, mode := .timer }
            ⟨k.1, k.2, fun h => absurd h nofun, fun last hl => ?_⟩ rfl (by simp only; omega) k6
          cases hl
          exact ⟨hr.1, rfl, .inl (by omega), by omega, by simp only; omega⟩
      · rw [Option.map_some, Option.bind_some]
        exact hrest _ ⟨k.1, k.2, fun _ trig ht => absurd ((hext hm).symm.trans ht) nofun,
          fun last hl => absurd ((hlast hm).symm.trans hl) nofun⟩ rfl (by simp only; omega) k6

theorem edgeChanged_safe {H lo now B m : Nat} {P : Nat → W → Prop} (hs : Serves t i A now B E P)
    (hdown : ∀ m m' w, m ≤ m' → P m' w → P m w) {c : CtcChannel} {w : W} (hc : Chan A H lo now now (E w) c)
    (hP : P (m + 1) w) (hnow : now + 1 < 2 ^ 32) :
    ∃ c' w', c.edgeChanged t i now w = some (c', w') ∧ Chan A H lo now now (E w') c' ∧ P m w' ∧
      c'.hint ≤ max c.hint (now + 1) := by
  have same : ∃ c' w', some (c, w) = some (c', w') ∧ Chan A H lo now now (E w') c' ∧ P m w' ∧
      c'.hint ≤ max c.hint (now + 1) :=
    ⟨c, w, rfl, hc, hdown _ _ _ (Nat.le_succ m) hP, by omega⟩
  unfold CtcChannel.edgeChanged
  split
  · rename_i r hr hm
    have hl : c.lastTs = none := by
      cases hl : c.lastTs with
      | none => rfl
      | some last => exact absurd (hm.symm.trans (hc.run last hl).2.1) nofun
    have hx : c.extTs = none := by
      cases hx : c.extTs with
      | none => rfl
      | some trig => exact absurd (hm.symm.trans (hc.still hl trig hx).2.2.1) nofun
    simp only [CtcChannel.downcount]
    split
    · obtain ⟨w', e, e1, e2⟩ := hs.pulse m w now hP (Nat.le_refl _)
      rw [e]
      rw [← e2] at hc
      refine ⟨_, w', rfl, ⟨hc.1, hc.2, fun _ trig h => ?_, fun last h => ?_⟩, e1, Nat.zero_le _⟩
      · exact absurd (hx.symm.trans h) nofun
      · exact absurd (hl.symm.trans h) nofun
    · refine ⟨_, w, rfl, ⟨hc.1, hc.2, fun _ trig h => ?_, fun last h => ?_⟩, hdown _ _ _ (Nat.le_succ m) hP, ?_⟩
      · exact absurd (hx.symm.trans h) nofun
      · exact absurd (hl.symm.trans h) nofun
      · simp only
        omega
  · rename_i r hr hm
    split
    · split
      · obtain ⟨c', e, e1, e2, _⟩ := startTimer_safe hc (by rw [hr]; rfl) hm hnow
        rw [e]
        exact ⟨c', w, rfl, e1, hdown _ _ _ (Nat.le_succ m) hP, by omega⟩
      · exact same
    · exact same
  · exact same

theorem writeControl_safe {H low lo now B : Nat} {P : Nat → W → Prop} (hs : Serves t i A now B E P)
    (hdown : ∀ m m' w, m ≤ m' → P m' w → P m w) {c : CtcChannel} {w : W} {data : U8}
    (hc : Chan A H low lo now (E w) c)
    (hH : 65536 ≤ H) (hlow : low ≤ lo) (hlo : (now - low) * 16 < 2 ^ 32) (hnow : now + 65536 + 2 < 2 ^ 32)
    (hd : IsControl data c → data.getLsbD 6 = false → data.getLsbD 3 = true → A)
    (hP : P (due c now + if IsControl data c ∧ c.rising ≠ data.getLsbD 4 then 1 else 0) w) :
    ∃ b c' w', c.writeControl t i data now w = some (b, c', w') ∧ Chan A H lo now now (E w') c' ∧ P 0 w' ∧
      c'.hint ≤ max B (now + 65536) := by
  obtain ⟨c1, w1, e1, k1, k2, k3, k4⟩ := process_safe hs hdown hc hH hlow hlo hnow hP
  have hsetup := CtcChannel.process_setup e1
  have haw : c1.awaiting = c.awaiting := congrArg (·.2.2.2.1) hsetup
  have hris : c1.rising = c.rising := congrArg (·.2.2.2.2.2.2) hsetup
  unfold CtcChannel.writeControl
  simp only [e1, Option.bind_eq_bind, Option.bind_some]
  cases ha : c.awaiting with
  | true =>
    rw [haw, if_pos ha]
    obtain ⟨c2, e2, j1, j2⟩ := writeConstant_safe data k1 k4 (by omega)
    rw [e2, Option.bind_some]
    exact ⟨_, _, _, rfl, j1, hdown _ _ _ (Nat.zero_le _) k2, by omega⟩
  | false =>
    rw [haw, if_neg (by rw [ha]; nofun)]
    cases hb : data.getLsbD 0 with
    | false =>
      rw [if_neg (by nofun)]
      exact ⟨_, _, _, rfl, k1, hdown _ _ _ (Nat.zero_le _) k2, k3⟩
    | true =>
      rw [if_pos rfl]
      obtain ⟨c2, e2, j1, j2, j3⟩ := control_safe (hd ⟨ha, hb⟩) k1 k4 (by omega)
      rw [e2, Option.bind_some]
      by_cases hr : c.rising ≠ data.getLsbD 4
      · rw [if_pos ⟨⟨ha, hb⟩, hr⟩] at k2
        rw [j3, hris, if_pos hr]
        obtain ⟨c3, w3, e3, l1, l2, l3⟩ := edgeChanged_safe (c := { c2 with rising := data.getLsbD 4 }) hs hdown
          ⟨j1.1, j1.2, j1.3, j1.4⟩ k2 (by omega)
        rw [e3, Option.bind_some]
        refine ⟨_, _, _, rfl, ?_, l2, ?_⟩
        · exact l1
        · have l3 : c3.hint ≤ max c2.hint (now + 1) := l3
          simp only
          omega
      · rw [j3, hris, if_neg hr]
        exact ⟨_, _, _, rfl, j1, hdown _ _ _ (Nat.zero_le _) k2, by omega⟩

/-! ### The counter/timer -/

/-- The triggers of the counter/timer are in order. -/
def Wires (K now : Nat) (w : CtcActive n × CtcActive n) : Prop := Wired K now w.1 ∧ Wired K now w.2

variable {bound K now : Nat}

theorem serves0 (hb : 2 ^ 32 ≤ bound) (hr : now + 2 * K + 1 < 2 ^ 32) (v : CtcActive n) (x : Nat) :
    Serves (ralTriggers bound n) 0 True now (now + K) (fun w => w.1.edge)
      fun m w => Wires K now w ∧ w.2 = v ∧ w.1.next.pulses + m ≤ n ∧ x ≤ w.1.edge := by
  refine ⟨fun _ => by simp only [ralTriggers]; omega, fun m w r ⟨⟨h1, h2⟩, h3, h4, h5⟩ => ?_,
    fun m w ⟨⟨h1, h2⟩, h3, h4, h5⟩ => ?_, fun m w ts ⟨⟨h1, h2⟩, h3, h4, h5⟩ ht => ?_⟩
  · obtain ⟨y, a, e, k1, k2, k3, k4⟩ := h1.edge (by omega) r
    refine ⟨y, (a, w.2), by simp only [ralTriggers, e, Option.map_some],
      ⟨⟨k1, h2⟩, h3, by simp only [k2]; exact h4, ?_⟩,
      fun t ht => ⟨(k3 t ht).1, fun _ => (k3 t ht).2⟩, fun t ht => ⟨(k4 t ht).1, fun _ => ⟨(k4 t ht).2.1, (k4 t ht).2.2.1⟩⟩⟩
    cases y with
    | ok t => have := k3 t rfl; simp only; omega
    | error t => have := k4 t rfl; simp only; omega
  · obtain ⟨y, a, e, k1, k2, k3, k4, k5⟩ := h1.purge (by omega)
    exact ⟨y, (a, w.2), by simp only [ralTriggers, e, Option.map_some],
      ⟨⟨k1, h2⟩, h3, by simp only [k2]; exact h4, by simp only; omega⟩, k3, fun _ => Nat.le_of_eq k4⟩
  · obtain ⟨a, e, k1, k2, k3⟩ := h1.pulse (by omega) ht
    exact ⟨(a, w.2), by simp only [ralTriggers, e, Option.map_some],
      ⟨⟨k1, h2⟩, h3, by simp only [k2]; omega, by simp only [k3]; exact h5⟩, k3⟩

theorem serves2 (hb : 2 ^ 32 ≤ bound) (hr : now + 2 * K + 1 < 2 ^ 32) (v : CtcActive n) (x : Nat) :
    Serves (ralTriggers bound n) 2 True now (now + K) (fun w => w.2.edge)
      fun m w => Wires K now w ∧ w.1 = v ∧ w.2.next.pulses + m ≤ n ∧ x ≤ w.2.edge := by
  refine ⟨fun _ => by simp only [ralTriggers]; omega, fun m w r ⟨⟨h1, h2⟩, h3, h4, h5⟩ => ?_,
    fun m w ⟨⟨h1, h2⟩, h3, h4, h5⟩ => ?_, fun m w ts ⟨⟨h1, h2⟩, h3, h4, h5⟩ ht => ?_⟩
  · obtain ⟨y, a, e, k1, k2, k3, k4⟩ := h2.edge (by omega) r
    refine ⟨y, (w.1, a), by simp only [ralTriggers, e, Option.map_some],
      ⟨⟨h1, k1⟩, h3, by simp only [k2]; exact h4, ?_⟩,
      fun t ht => ⟨(k3 t ht).1, fun _ => (k3 t ht).2⟩, fun t ht => ⟨(k4 t ht).1, fun _ => ⟨(k4 t ht).2.1, (k4 t ht).2.2.1⟩⟩⟩
    cases y with
    | ok t => have := k3 t rfl; simp only; omega
    | error t => have := k4 t rfl; simp only; omega
  · obtain ⟨y, a, e, k1, k2, k3, k4, k5⟩ := h2.purge (by omega)
    exact ⟨y, (w.1, a), by simp only [ralTriggers, e, Option.map_some],
      ⟨⟨h1, k1⟩, h3, by simp only [k2]; exact h4, by simp only; omega⟩, k3, fun _ => Nat.le_of_eq k4⟩
  · obtain ⟨a, e, k1, k2, k3⟩ := h2.pulse (by omega) ht
    exact ⟨(w.1, a), by simp only [ralTriggers, e, Option.map_some],
      ⟨⟨h1, k1⟩, h3, by simp only [k2]; omega, by simp only [k3]; exact h5⟩, k3⟩

theorem serves1 (hr : now + 2 < 2 ^ 32) (v : CtcActive n) (x : Nat) :
    Serves (ralTriggers bound n) 1 False now (2 ^ 32) (fun w => w.1.edge)
      fun _ w => Wires K now w ∧ w.2 = v ∧ w.1.edge = x := by
  refine ⟨nofun, fun m w r ⟨⟨h1, h2⟩, h3, h4⟩ => ?_, fun m w ⟨⟨h1, h2⟩, h3, h4⟩ => ?_, fun m w ts h ht => ⟨w, rfl, h, rfl⟩⟩
  · obtain ⟨y, a, e, k1, k2, k3, k4⟩ := h1.edge' hr r
    exact ⟨y, (a, w.2), by simp only [ralTriggers, e, Option.map_some], ⟨⟨k1, h2⟩, h3, k2.trans h4⟩,
      fun t ht => ⟨k3 t ht, nofun⟩, fun t ht => ⟨k4 t ht, nofun⟩⟩
  · obtain ⟨y, a, e, k1, k2, k3⟩ := h1.purge' hr
    exact ⟨y, (a, w.2), by simp only [ralTriggers, e, Option.map_some], ⟨⟨k1, h2⟩, h3, k2.trans h4⟩, k3, nofun⟩

theorem serves3 (hr : now + 2 < 2 ^ 32) (v : CtcActive n) (x : Nat) :
    Serves (ralTriggers bound n) 3 False now (2 ^ 32) (fun w => w.2.edge)
      fun _ w => Wires K now w ∧ w.1 = v ∧ w.2.edge = x := by
  refine ⟨nofun, fun m w r ⟨⟨h1, h2⟩, h3, h4⟩ => ?_, fun m w ⟨⟨h1, h2⟩, h3, h4⟩ => ?_, fun m w ts h ht => ⟨w, rfl, h, rfl⟩⟩
  · obtain ⟨y, a, e, k1, k2, k3, k4⟩ := h2.edge' hr r
    exact ⟨y, (w.1, a), by simp only [ralTriggers, e, Option.map_some], ⟨⟨h1, k1⟩, h3, k2.trans h4⟩,
      fun t ht => ⟨k3 t ht, nofun⟩, fun t ht => ⟨k4 t ht, nofun⟩⟩
  · obtain ⟨y, a, e, k1, k2, k3⟩ := h2.purge' hr
    exact ⟨y, (w.1, a), by simp only [ralTriggers, e, Option.map_some], ⟨⟨h1, k1⟩, h3, k2.trans h4⟩, k3, nofun⟩

variable {H e : Nat} {I O : Type}

/-- Bounds on time: `now` is at most `G` after the devices were looked at, and not near the end of 32 bits. -/
structure Timed (H K G e now : Nat) : Prop where
  long : 65536 ≤ H
  half : K ≤ H
  since : e ≤ now
  soon : now ≤ e + G
  fits : (H + 2 * G + 1) * 16 < 2 ^ 32
  room : now + 2 * K + 65536 + 3 < 2 ^ 32

/-- The next edge of the external clock of a channel. -/
def edgeOf (w : CtcActive n × CtcActive n) : Fin 4 → Nat
  | 0 | 1 => w.1.edge
  | 2 | 3 => w.2.edge

/-- The channels with an external clock. -/
def clocked : Fin 4 → Prop
  | 0 | 2 => True
  | 1 | 3 => False

/-- The devices were all looked at or need not have been at `e`. -/
structure Safe (H K G e now : Nat) (s : Chain n I O) : Prop where
  chans : ∀ k, Chan (clocked k) H (max e s.hint - H - (G + 1)) (max e s.hint - H) now (edgeOf s.triggers k) (s.ch k)
  hint : s.hint ≤ now + H
  first : s.ch0.hint ≤ now + H
  wires : Wires K now s.triggers

theorem Safe.later {H K G e e' now now' : Nat} {s : Chain n I O} (h : Safe H K G e now s) (he : e' ≤ e)
    (hn : now ≤ now') : Safe H K G e' now' s :=
  ⟨fun k => (h.chans k).mono (by omega) (by omega) hn (Nat.le_refl _), Nat.le_trans h.hint (by omega),
    Nat.le_trans h.first (by omega), h.wires.1.mono hn, h.wires.2.mono hn⟩

variable {G : Nat}

theorem processChannel_safe {B m low lo : Nat} {P : Nat → W → Prop} (hs : Serves t i A now B E P)
    (hdown : ∀ m m' w, m ≤ m' → P m' w → P m w) {c : CtcChannel} {w : W} (hc : Chan A H low lo now (E w) c)
    (force : Bool) (hH : 65536 ≤ H) (hlow : low ≤ lo) (hlo : (now - low) * 16 < 2 ^ 32) (hG : now ≤ lo + H + G)
    (hnow : now + 65536 + 2 < 2 ^ 32) (hP : P (due c now + m) w) :
    ∃ c' w', Ctc.processChannel t i force now c w = some (c', w') ∧
      Chan A H (max now c'.hint - H - (G + 1)) (max now c'.hint - H) now (E w') c' ∧ P m w' ∧
      c'.hint ≤ max (max B (now + 65536)) c.hint := by
  unfold Ctc.processChannel
  split
  · obtain ⟨c', w', e, k1, k2, k3, k4⟩ := process_safe hs hdown hc hH hlow hlo hnow hP
    refine ⟨c', w', e, ⟨k1.1, k1.2, fun hl trig ht => ?_, fun last hl => ?_⟩, k2, by omega⟩
    · obtain ⟨j1, j2, j3, j4, j5⟩ := k1.still hl trig ht
      exact ⟨j1, j2, j3, j4, by omega⟩
    · obtain ⟨j1, j2, j3, j4, j5⟩ := k1.run last hl
      exact ⟨j1, j2, by omega, j4, j5⟩
  · rename_i hf
    simp only [Bool.or_eq_true, decide_eq_true_eq, not_or] at hf
    refine ⟨c, w, rfl, ⟨hc.1, hc.2, fun hl trig ht => ?_, fun last hl => ?_⟩, hdown _ _ _ (by omega) hP, by omega⟩
    · obtain ⟨j1, j2, j3, j4, j5⟩ := hc.still hl trig ht
      exact ⟨j1, j2, j3, j4, by omega⟩
    · obtain ⟨j1, j2, j3, j4, j5⟩ := hc.run last hl
      exact ⟨j1, j2, by omega, j4, j5⟩

/-- Looking at the channels does not panic. -/
theorem look_safe {s : Chain n I O} (hbig : 2 ^ 32 ≤ bound) (ht : Timed H K G e now) (h : Safe H K G e now s)
    (hf : Fits now (fun _ => 0) s) :
    ∃ s', s.processChannels (ralTriggers bound n) now = some s' ∧ Safe H K G now now s' := by
  obtain ⟨t1, t2, t3, t4, t5, t6⟩ := ht
  obtain ⟨h1, h2, h3, h4⟩ := h
  unfold Ctc.processChannels
  by_cases hh : now ≥ s.hint
  · rw [if_pos hh]
    have hlow : max e s.hint - H - (G + 1) ≤ max e s.hint - H := Nat.sub_le _ _
    have hlo : (now - (max e s.hint - H - (G + 1))) * 16 < 2 ^ 32 := by omega
    have hG : now ≤ max e s.hint - H + H + G := by omega
    obtain ⟨c0, w0, e0, a0, b0, d0⟩ := processChannel_safe (m := 0) (A := clocked 0) (G := G)
      (serves0 (bound := bound) hbig (by omega) s.triggers.2 s.triggers.1.edge)
      (fun m m' w hm hP => ⟨hP.1, hP.2.1, by have := hP.2.2.1; omega, hP.2.2.2⟩) (h1 0) (s.hint == 0) t1 hlow hlo hG
      (by omega) (w := s.triggers) ⟨h4, rfl, hf.1, Nat.le_refl _⟩
    obtain ⟨c1, w1, e1, a1, b1, d1⟩ := processChannel_safe (m := 0) (A := clocked 1) (G := G)
      (serves1 (bound := bound) (by omega) s.triggers.2 w0.1.edge)
      (fun m m' w hm hP => hP) ((h1 1).mono (Nat.le_refl _) (Nat.le_refl _) (Nat.le_refl _) b0.2.2.2)
      (s.hint == 0) t1 hlow hlo hG (by omega) ⟨b0.1, b0.2.1, rfl⟩
    obtain ⟨c2, w2, e2, a2, b2, d2⟩ := processChannel_safe (m := 0) (A := clocked 2) (G := G)
      (serves2 (bound := bound) hbig (by omega) w1.1 w1.2.edge)
      (fun m m' w hm hP => ⟨hP.1, hP.2.1, by have := hP.2.2.1; omega, hP.2.2.2⟩)
      (by have := h1 2; rw [b1.2.1]; exact this) (s.hint == 0) t1 hlow hlo hG (by omega)
      (w := w1) ⟨b1.1, rfl, by rw [b1.2.1]; exact hf.2, Nat.le_refl _⟩
    obtain ⟨c3, w3, e3, a3, b3, d3⟩ := processChannel_safe (m := 0) (A := clocked 3) (G := G)
      (serves3 (bound := bound) (by omega) w2.1 w2.2.edge)
      (fun m m' w hm hP => hP) ((h1 3).mono (Nat.le_refl _) (Nat.le_refl _) (Nat.le_refl _)
        (by have := b2.2.2.2; rw [b1.2.1] at this; exact this)) (s.hint == 0) t1 hlow hlo hG (by omega) ⟨b2.1, rfl, rfl⟩
    clear d1 d2 d3
    simp only [Ctc.ch] at e0 e1 e2 e3 d0
    have hc0 : c0.hint ≤ now + H := by omega
    simp only [e0, e1, e2, e3, Option.bind_eq_bind, Option.bind_some]
    have hx0 : w3.1.edge = w1.1.edge := by rw [b3.2.1, b2.2.1]
    have hx1 : w1.1.edge = w0.1.edge := b1.2.2
    have hx2 : w3.2.edge = w2.2.edge := b3.2.2
    refine ⟨_, rfl, ⟨fun k => ?_, ?_, ?_, b3.1⟩⟩
    · match k with
      | 0 => exact a0.mono (by simp only; omega) (by simp only; omega) (Nat.le_refl _) (by simp only [edgeOf]; omega)
      | 1 => exact a1.mono (by simp only; omega) (by simp only; omega) (Nat.le_refl _) (by simp only [edgeOf]; omega)
      | 2 => exact a2.mono (by simp only; omega) (by simp only; omega) (Nat.le_refl _) (by simp only [edgeOf]; omega)
      | 3 => exact a3.mono (by simp only; omega) (by simp only; omega) (Nat.le_refl _) (by simp only [edgeOf]; omega)
    · exact Nat.le_trans (Nat.le_trans (Nat.le_trans (Nat.min_le_left _ _) (Nat.min_le_left _ _))
        (Nat.min_le_left _ _)) hc0
    · exact hc0
  · rw [if_neg hh]
    exact ⟨s, rfl, fun k => (h1 k).mono (by omega) (by omega) (Nat.le_refl _) (Nat.le_refl _), h2, h3, h4⟩

theorem reset_process {P : Nat → W → Prop} {B low lo : Nat} (hs : Serves t i A now B E P)
    (hdown : ∀ m m' w, m ≤ m' → P m' w → P m w) {c : CtcChannel} {w : W} (hc : Chan A H low lo now (E w) c)
    (hH : 65536 ≤ H) (hlow : low ≤ lo) (hlo : (now - low) * 16 < 2 ^ 32) (hnow : now + 65536 + 2 < 2 ^ 32)
    (hP : P (due c now + 0) w) :
    ∃ c' w', c.reset t i now w = some (c', w') ∧ (∀ low lo x, Chan A H low lo now x c') ∧ P 0 w' ∧ c'.hint = 0 := by
  obtain ⟨c', w', e, k1, k2, k3⟩ := process_safe hs hdown hc hH hlow hlo hnow hP
  unfold CtcChannel.reset
  rw [e]
  exact ⟨_, _, rfl, fun low lo x => ⟨Nat.le_refl _, k1.free, fun _ => nofun, nofun⟩, k2, rfl⟩

/-! ### Parallel ports -/

section pio
variable {A B : Type} (a : PioDev A) (b : PioDev B)

theorem pio_read (port : U16) (s : Pio A B Unit) (h : now + 3 < 2 ^ 32) :
    ∃ x s', (Pio.device a b terminator).readIo port now s = some (x, s') := by
  have hch : ∀ {P : Type} (p : PioDev P) (c : PioChannel P), ∃ x, c.readIo p now = some x := by
    intro P p c
    unfold PioChannel.readIo
    split
    · split
      · exact ⟨_, by rw [add32_fits (by omega)]; rfl⟩
      · exact ⟨_, by rw [add32_fits (by omega)]; rfl⟩
    · exact ⟨_, rfl⟩
  simp only [Pio.device, Pio.readIo]
  split
  · split
    · obtain ⟨x, e⟩ := hch a s.chA
      rw [e]
      exact ⟨_, _, rfl⟩
    · obtain ⟨x, e⟩ := hch b s.chB
      rw [e]
      exact ⟨_, _, rfl⟩
  · exact ⟨_, _, rfl⟩

theorem pio_control {P : Type} (p : PioDev P) (c : PioChannel P) {data : U8} (h : implemented data) :
    ∃ c', c.writeControl p data now = some c' := by
  have key : ∀ data : U8, implemented data → (data &&& 0b1111#8).toNat = 0b1111 →
      (data >>> 6).toNat = 0 ∨ (data >>> 6).toNat = 1 := by decide +kernel
  unfold PioChannel.writeControl
  split
  · exact ⟨_, rfl⟩
  · split
    · rename_i h1
      split
      · exact ⟨_, rfl⟩
      · exact ⟨_, rfl⟩
      · rename_i h2 h3
        rcases key data h h1 with h4 | h4
        · exact absurd h4 h2
        · exact absurd h4 h3
    · rename_i h1
      exact absurd (BitVec.eq_of_toNat_eq (y := 0b0111#8) h1) h.2
    · split <;> exact ⟨_, rfl⟩
    · exact ⟨_, rfl⟩

theorem pio_write (port : U16) (data : U8) (s : Pio A B Unit) (h : now + 3 < 2 ^ 32)
    (hd : port &&& s.matchMask = s.matchBits ∧ port &&& s.controlMask ≠ 0 → implemented data) :
    ∃ x s', (Pio.device a b terminator).writeIo port data now s = some (x, s') := by
  have hch : ∀ {P : Type} (p : PioDev P) (c : PioChannel P), ∃ x, c.writeData p data now = some x := by
    intro P p c
    unfold PioChannel.writeData
    simp only
    split
    · split
      · split
        · exact ⟨_, by rw [add32_fits (by omega)]; rfl⟩
        · exact ⟨_, by rw [add32_fits (by omega)]; rfl⟩
      · exact ⟨_, by rw [add32_fits (by omega)]; rfl⟩
    · exact ⟨_, rfl⟩
  simp only [Pio.device, Pio.writeIo]
  split
  · rename_i hp
    have one : ∀ {P : Type} (p : PioDev P) (c : PioChannel P), ∃ x,
        (if port &&& s.controlMask = 0 then c.writeData p data now else c.writeControl p data now) = some x := by
      intro P p c
      split
      · exact hch p c
      · rename_i hc
        exact pio_control p c (hd ⟨hp, hc⟩)
    split
    · obtain ⟨x, e⟩ := one a s.chA
      rw [e]
      exact ⟨_, _, rfl⟩
    · obtain ⟨x, e⟩ := one b s.chB
      rw [e]
      exact ⟨_, _, rfl⟩
  · exact ⟨_, _, rfl⟩

theorem pio_irq (s : Pio A B Unit) : ∃ x s', (Pio.device a b terminator).isIrq now s = some (x, s') := by
  simp only [Pio.device, Pio.isIrq]
  split
  · exact ⟨_, _, rfl⟩
  · split
    · exact ⟨_, _, rfl⟩
    · split <;> exact ⟨_, _, rfl⟩

theorem pio_ack (pc : U16) (s : Pio A B Unit) :
    ∃ x s', (Pio.device a b terminator).irqData pc now s = some (x, s') := by
  simp only [Pio.device, Pio.irqData]
  split
  · exact ⟨_, _, rfl⟩
  · split <;> exact ⟨_, _, rfl⟩

theorem pio_reti (pc : U16) (s : Pio A B Unit) : ∃ s', (Pio.device a b terminator).reti pc now s = some s' := by
  simp only [Pio.device, Pio.reti]
  split <;> exact ⟨_, rfl⟩

end pio

/-! ### The devices together -/

variable {slurp : I → Option U8 × I} {flush : U8 → O → Bool × O} {s : Chain n I O}

local notation "dv" => board bound n slurp flush

theorem Safe.look_e (h : Safe H K G now now s) (he : e ≤ now) : Safe H K G e now s := h.later he (Nat.le_refl _)

/-- What is not looked at when it comes to panics. -/
theorem Safe.congr {s' : Chain n I O} (h : Safe H K G e now s) (hh : s'.hint = s.hint) (hw : s'.triggers = s.triggers)
    (hc : ∀ k, ∃ b, s'.ch k = { s.ch k with intActive := b }) : Safe H K G e now s' := by
  obtain ⟨h1, h2, h3, h4⟩ := h
  refine ⟨fun k => ?_, by rw [hh]; exact h2, ?_, by rw [hw]; exact h4⟩
  · obtain ⟨b, hb⟩ := hc k
    rw [hb, hh, hw]
    exact ⟨(h1 k).1, (h1 k).2, (h1 k).3, (h1 k).4⟩
  · obtain ⟨b, hb⟩ := hc 0
    have : s'.ch0 = { s.ch0 with intActive := b } := hb
    rw [this]
    exact h3

theorem Safe.chained (h : Safe H K G e now s) (d : Pio (PioInput I) (PioOutput O) Unit) :
    Safe H K G e now { s with chained := d } := h.congr rfl rfl fun k => ⟨(s.ch k).intActive, by match k with
      | 0 | 1 | 2 | 3 => rfl⟩

theorem m1_safe (hbig : 2 ^ 32 ≤ bound) (ht : Timed H K G e now) (h : Safe H K G e now s) (hf : Fits now (fun _ => 0) s) :
    ∃ s', (dv).m1 now s = some s' ∧ Safe H K G now now s' := by
  obtain ⟨s1, e1, k1⟩ := look_safe (bound := bound) hbig ht h hf
  simp only [board, Ctc.device, Ctc.m1, e1, Option.bind_eq_bind, Option.bind_some]
  exact ⟨_, rfl, k1.chained _⟩

theorem frameEnd_safe (hbig : 2 ^ 32 ≤ bound) (ht : Timed H K G e now) (h : Safe H K G e now s) (hf : Fits now (fun _ => 0) s) :
    ∃ s', (dv).frameEnd now s = some s' ∧ Safe H K G now now s' := by
  obtain ⟨s1, e1, k1⟩ := look_safe (bound := bound) hbig ht h hf
  simp only [board, Ctc.device, Ctc.frameEnd, e1, Option.bind_eq_bind, Option.bind_some]
  exact ⟨_, rfl, k1.chained _⟩

theorem isIrq_safe (hbig : 2 ^ 32 ≤ bound) (ht : Timed H K G e now) (h : Safe H K G e now s) (hf : Fits now (fun _ => 0) s) :
    ∃ b s', (dv).isIrq now s = some (b, s') ∧ Safe H K G e now s' := by
  simp only [board, Ctc.device, Ctc.isIrq]
  split
  · exact ⟨_, _, rfl, h⟩
  · obtain ⟨s1, e1, k1⟩ := look_safe (bound := bound) hbig ht h hf
    simp only [e1, Option.bind_eq_bind, Option.bind_some]
    split
    · exact ⟨_, _, rfl, k1.look_e ht.since⟩
    · obtain ⟨x, d, e2⟩ := pio_irq (now := now) (pioInput slurp) (pioOutput flush) s1.chained
      rw [e2]
      exact ⟨_, _, rfl, (k1.look_e ht.since).chained _⟩

theorem irqData_safe (pc : U16) (h : Safe H K G e now s) :
    ∃ x s', (dv).irqData pc now s = some (x, s') ∧ Safe H K G e now s' := by
  simp only [board, Ctc.device, Ctc.irqData]
  split
  · exact ⟨_, _, rfl, h.congr rfl rfl fun k => by
      match k with
      | 0 => exact ⟨false, rfl⟩
      | 1 => exact ⟨s.ch1.intActive, rfl⟩
      | 2 => exact ⟨s.ch2.intActive, rfl⟩
      | 3 => exact ⟨s.ch3.intActive, rfl⟩⟩
  · split
    · exact ⟨_, _, rfl, h.congr rfl rfl fun k => by
        match k with
        | 0 => exact ⟨s.ch0.intActive, rfl⟩
        | 1 => exact ⟨false, rfl⟩
        | 2 => exact ⟨s.ch2.intActive, rfl⟩
        | 3 => exact ⟨s.ch3.intActive, rfl⟩⟩
    · split
      · exact ⟨_, _, rfl, h.congr rfl rfl fun k => by
          match k with
          | 0 => exact ⟨s.ch0.intActive, rfl⟩
          | 1 => exact ⟨s.ch1.intActive, rfl⟩
          | 2 => exact ⟨false, rfl⟩
          | 3 => exact ⟨s.ch3.intActive, rfl⟩⟩
      · split
        · exact ⟨_, _, rfl, h.congr rfl rfl fun k => by
            match k with
            | 0 => exact ⟨s.ch0.intActive, rfl⟩
            | 1 => exact ⟨s.ch1.intActive, rfl⟩
            | 2 => exact ⟨s.ch2.intActive, rfl⟩
            | 3 => exact ⟨false, rfl⟩⟩
        · obtain ⟨x, d, e2⟩ := pio_ack (now := now) (pioInput slurp) (pioOutput flush) pc s.chained
          rw [e2]
          exact ⟨_, _, rfl, h.congr rfl rfl fun k => ⟨(s.ch k).intActive, by match k with
            | 0 | 1 | 2 | 3 => rfl⟩⟩

theorem reti_safe (pc : U16) (h : Safe H K G e now s) :
    ∃ s', (dv).reti pc now s = some s' ∧ Safe H K G e now s' := by
  have hi : ∀ b d, Safe H K G e now { s with ieo := b, chained := d } := fun b d => h.congr rfl rfl fun k =>
    ⟨(s.ch k).intActive, by match k with
      | 0 | 1 | 2 | 3 => rfl⟩
  simp only [board, Ctc.device, Ctc.reti]
  split
  · exact ⟨_, rfl, hi _ _⟩
  · obtain ⟨d, e2⟩ := pio_reti (now := now) (pioInput slurp) (pioOutput flush) pc s.chained
    rw [e2]
    exact ⟨_, rfl, hi _ _⟩

theorem reset_safe (hbig : 2 ^ 32 ≤ bound) (ht : Timed H K G e now) (h : Safe H K G e now s)
    (hf : Fits now (fun _ => 0) s) :
    ∃ s', (dv).reset now s = some s' ∧ Safe H K G now now s' := by
  obtain ⟨t1, t2, t3, t4, t5, t6⟩ := ht
  obtain ⟨h1, h2, h3, h4⟩ := h
  have hlow : max e s.hint - H - (G + 1) ≤ max e s.hint - H := Nat.sub_le _ _
  have hlo : (now - (max e s.hint - H - (G + 1))) * 16 < 2 ^ 32 := by omega
  obtain ⟨c0, w0, e0, a0, b0, d0⟩ := reset_process (A := clocked 0)
    (serves0 (bound := bound) hbig (by omega) s.triggers.2 s.triggers.1.edge)
    (fun m m' w hm hP => ⟨hP.1, hP.2.1, by have := hP.2.2.1; omega, hP.2.2.2⟩) (h1 0) t1 hlow hlo (by omega)
    (w := s.triggers) ⟨h4, rfl, hf.1, Nat.le_refl _⟩
  obtain ⟨c1, w1, e1, a1, b1, -⟩ := reset_process (A := clocked 1)
    (serves1 (bound := bound) (by omega) s.triggers.2 w0.1.edge)
    (fun m m' w hm hP => hP) ((h1 1).mono (Nat.le_refl _) (Nat.le_refl _) (Nat.le_refl _) b0.2.2.2) t1 hlow hlo (by omega)
    ⟨b0.1, b0.2.1, rfl⟩
  obtain ⟨c2, w2, e2, a2, b2, -⟩ := reset_process (A := clocked 2)
    (serves2 (bound := bound) hbig (by omega) w1.1 w1.2.edge)
    (fun m m' w hm hP => ⟨hP.1, hP.2.1, by have := hP.2.2.1; omega, hP.2.2.2⟩)
    (by have := h1 2; rw [b1.2.1]; exact this) t1 hlow hlo (by omega)
    (w := w1) ⟨b1.1, rfl, by rw [b1.2.1]; exact hf.2, Nat.le_refl _⟩
  obtain ⟨c3, w3, e3, a3, b3, -⟩ := reset_process (A := clocked 3)
    (serves3 (bound := bound) (by omega) w2.1 w2.2.edge)
    (fun m m' w hm hP => hP) ((h1 3).mono (Nat.le_refl _) (Nat.le_refl _) (Nat.le_refl _)
      (by have := b2.2.2.2; rw [b1.2.1] at this; exact this)) t1 hlow hlo (by omega) ⟨b2.1, rfl, rfl⟩
  simp only [Ctc.ch] at e0 e1 e2 e3
  simp only [board, Ctc.device, Ctc.reset, e0, e1, e2, e3, Option.bind_eq_bind, Option.bind_some]
  refine ⟨_, rfl, ⟨fun k => ?_, Nat.zero_le _, by rw [d0]; exact Nat.zero_le _, b3.1⟩⟩
  match k with
  | 0 => exact a0 _ _ _
  | 1 => exact a1 _ _ _
  | 2 => exact a2 _ _ _
  | 3 => exact a3 _ _ _

/-- One channel has been looked at, the other ones stay as they are. -/
theorem Safe.one {s' : Chain n I O} (k : Fin 4) (h : Safe H K G e now s) (he : e ≤ now) (hh : s'.hint = s.hint)
    (hw : Wires K now s'.triggers) (hx : s.triggers.1.edge ≤ s'.triggers.1.edge ∧ s.triggers.2.edge ≤ s'.triggers.2.edge)
    (hk : Chan (clocked k) H (max e s.hint - H) now now (edgeOf s'.triggers k) (s'.ch k))
    (hk' : k = 0 → s'.ch0.hint ≤ now + H) (ho : ∀ j, j ≠ k → s'.ch j = s.ch j) : Safe H K G e now s' := by
  obtain ⟨h1, h2, h3, h4⟩ := h
  refine ⟨fun j => ?_, by rw [hh]; exact h2, ?_, hw⟩
  · by_cases hj : j = k
    · rw [hj]
      refine hk.mono (by omega) (by omega) (Nat.le_refl _) (Nat.le_refl _)
    · rw [ho j hj, hh]
      refine (h1 j).mono (Nat.le_refl _) (Nat.le_refl _) (Nat.le_refl _) ?_
      match j with
      | 0 | 1 => exact hx.1
      | 2 | 3 => exact hx.2
  · by_cases hj : k = 0
    · exact hk' hj
    · have : s'.ch0 = s.ch0 := ho 0 fun h => hj h.symm
      rw [this]
      exact h3

theorem readIo_safe (hbig : 2 ^ 32 ≤ bound) (port : U16) (ht : Timed H K G e now) (h : Safe H K G e now s)
    (hf : Fits now (fun _ => 0) s) :
    ∃ x s', (dv).readIo port now s = some (x, s') ∧ Safe H K G e now s' := by
  have ht' := ht
  obtain ⟨t1, t2, t3, t4, t5, t6⟩ := ht
  obtain ⟨h1, h2, h3, h4⟩ := id h
  have hlow : max e s.hint - H - (G + 1) ≤ max e s.hint - H := Nat.sub_le _ _
  have hlo : (now - (max e s.hint - H - (G + 1))) * 16 < 2 ^ 32 := by omega
  simp only [board, Ctc.device, Ctc.readIo]
  split
  · split
    · split
      · obtain ⟨c0, w0, e0, a0, b0, d0, -⟩ := process_safe (m := 0) (A := clocked 0)
          (serves0 (bound := bound) hbig (by omega) s.triggers.2 s.triggers.1.edge)
          (fun m m' w hm hP => ⟨hP.1, hP.2.1, by have := hP.2.2.1; omega, hP.2.2.2⟩) (h1 0) t1 hlow hlo (by omega)
          (w := s.triggers) ⟨h4, rfl, hf.1, Nat.le_refl _⟩
        simp only [Ctc.ch] at e0
        simp only [CtcChannel.readCounter, e0, Option.map_some]
        refine ⟨_, _, rfl, h.one 0 t3 rfl b0.1 ⟨b0.2.2.2, by rw [b0.2.1]; exact Nat.le_refl _⟩ a0
          (fun _ => by simp only; omega) fun j hj => ?_⟩
        match j with
        | 0 => exact absurd rfl hj
        | 1 | 2 | 3 => rfl
      · obtain ⟨c0, w0, e0, a0, b0, -⟩ := process_safe (m := 0) (A := clocked 1)
          (serves1 (bound := bound) (by omega) s.triggers.2 s.triggers.1.edge)
          (fun m m' w hm hP => hP) (h1 1) t1 hlow hlo (by omega) (w := s.triggers) ⟨h4, rfl, rfl⟩
        simp only [Ctc.ch] at e0
        simp only [CtcChannel.readCounter, e0, Option.map_some]
        refine ⟨_, _, rfl, h.one 1 t3 rfl b0.1 ⟨Nat.le_of_eq b0.2.2.symm, by rw [b0.2.1]; exact Nat.le_refl _⟩ a0
          (by simp) fun j hj => ?_⟩
        match j with
        | 1 => exact absurd rfl hj
        | 0 | 2 | 3 => rfl
    · split
      · obtain ⟨c0, w0, e0, a0, b0, d0, -⟩ := process_safe (m := 0) (A := clocked 2)
          (serves2 (bound := bound) hbig (by omega) s.triggers.1 s.triggers.2.edge)
          (fun m m' w hm hP => ⟨hP.1, hP.2.1, by have := hP.2.2.1; omega, hP.2.2.2⟩) (h1 2) t1 hlow hlo (by omega)
          (w := s.triggers) ⟨h4, rfl, hf.2, Nat.le_refl _⟩
        simp only [Ctc.ch] at e0
        simp only [CtcChannel.readCounter, e0, Option.map_some]
        refine ⟨_, _, rfl, h.one 2 t3 rfl b0.1 ⟨by rw [b0.2.1]; exact Nat.le_refl _, b0.2.2.2⟩ a0 (by simp) fun j hj => ?_⟩
        match j with
        | 2 => exact absurd rfl hj
        | 0 | 1 | 3 => rfl
      · obtain ⟨c0, w0, e0, a0, b0, -⟩ := process_safe (m := 0) (A := clocked 3)
          (serves3 (bound := bound) (by omega) s.triggers.1 s.triggers.2.edge)
          (fun m m' w hm hP => hP) (h1 3) t1 hlow hlo (by omega) (w := s.triggers) ⟨h4, rfl, rfl⟩
        simp only [Ctc.ch] at e0
        simp only [CtcChannel.readCounter, e0, Option.map_some]
        refine ⟨_, _, rfl, h.one 3 t3 rfl b0.1 ⟨by rw [b0.2.1]; exact Nat.le_refl _, Nat.le_of_eq b0.2.2.symm⟩ a0 (by simp)
          fun j hj => ?_⟩
        match j with
        | 3 => exact absurd rfl hj
        | 0 | 1 | 2 => rfl
  · obtain ⟨x, d, e2⟩ := pio_read (now := now) (pioInput slurp) (pioOutput flush) port s.chained (by omega)
    rw [e2]
    exact ⟨_, _, rfl, h.chained _⟩

theorem writeIo_safe (hbig : 2 ^ 32 ≤ bound) (port : U16) (data : U8) (ht : Timed H K G e now) (h : Safe H K G e now s)
    (hf : MayWrite port data now s) :
    ∃ x s', (dv).writeIo port data now s = some (x, s') ∧ Safe H K G e now s' := by
  have ht' := ht
  obtain ⟨t1, t2, t3, t4, t5, t6⟩ := ht
  obtain ⟨h1, h2, h3, h4⟩ := id h
  have hlow : max e s.hint - H - (G + 1) ≤ max e s.hint - H := Nat.sub_le _ _
  have hlo : (now - (max e s.hint - H - (G + 1))) * 16 < 2 ^ 32 := by omega
  have hv : ∀ {s' : Chain n I O} (b : Bool), Safe H K G e now s' →
      Safe H K G e now (if b then s' else { s' with vector := data &&& 0b11111000#8 }) := by
    intro s' b hs
    split
    · exact hs
    · exact hs.congr rfl rfl fun k => ⟨(s'.ch k).intActive, by match k with
        | 0 | 1 | 2 | 3 => rfl⟩
  unfold MayWrite chosen at hf
  simp only [board, Ctc.device, Ctc.writeIo]
  split
  · rename_i hp
    rw [if_pos hp] at hf
    split
    · rename_i hp1
      rw [if_pos hp1] at hf
      split
      · rename_i hp0
        simp only [if_pos hp0] at hf
        have hfit := hf.1
        simp only [Fits, true_and] at hfit
        obtain ⟨b, c0, w0, e0, a0, b0, d0⟩ := writeControl_safe (data := data) (A := clocked 0)
          (serves0 (bound := bound) hbig (by omega) s.triggers.2 s.triggers.1.edge)
          (fun m m' w hm hP => ⟨hP.1, hP.2.1, by have := hP.2.2.1; omega, hP.2.2.2⟩) (h1 0) t1 hlow hlo (by omega)
          (fun _ _ _ => trivial)
          (w := s.triggers) ⟨h4, rfl, by rw [← Nat.add_assoc]; exact hfit.1, Nat.le_refl _⟩
        simp only [Ctc.ch] at e0
        simp only [e0, Option.map_some]
        refine ⟨_, _, rfl, hv b (h.one 0 t3 rfl b0.1 ⟨b0.2.2.2, by rw [b0.2.1]; exact Nat.le_refl _⟩ a0 (fun _ => by simp only; omega) fun j hj => ?_)⟩
        match j with
        | 0 => exact absurd rfl hj
        | 1 | 2 | 3 => rfl
      · rename_i hp0
        simp only [if_neg hp0] at hf
        obtain ⟨b, c0, w0, e0, a0, b0, -⟩ := writeControl_safe (data := data) (A := clocked 1)
          (serves1 (bound := bound) (by omega) s.triggers.2 s.triggers.1.edge)
          (fun m m' w hm hP => hP) (h1 1) t1 hlow hlo (by omega)
          (fun j1 j2 j3 => by rw [hf.2 (by simp) j1 j2] at j3; cases j3) (w := s.triggers) ⟨h4, rfl, rfl⟩
        simp only [Ctc.ch] at e0
        simp only [e0, Option.map_some]
        refine ⟨_, _, rfl, hv b (h.one 1 t3 rfl b0.1 ⟨Nat.le_of_eq b0.2.2.symm, by rw [b0.2.1]; exact Nat.le_refl _⟩ a0 (by simp) fun j hj => ?_)⟩
        match j with
        | 1 => exact absurd rfl hj
        | 0 | 2 | 3 => rfl
    · rename_i hp1
      rw [if_neg hp1] at hf
      split
      · rename_i hp0
        simp only [if_pos hp0] at hf
        have hfit := hf.1
        simp only [Fits, true_and] at hfit
        obtain ⟨b, c0, w0, e0, a0, b0, -⟩ := writeControl_safe (data := data) (A := clocked 2)
          (serves2 (bound := bound) hbig (by omega) s.triggers.1 s.triggers.2.edge)
          (fun m m' w hm hP => ⟨hP.1, hP.2.1, by have := hP.2.2.1; omega, hP.2.2.2⟩) (h1 2) t1 hlow hlo (by omega)
          (fun _ _ _ => trivial)
          (w := s.triggers) ⟨h4, rfl, by rw [← Nat.add_assoc]; exact hfit.2, Nat.le_refl _⟩
        simp only [Ctc.ch] at e0
        simp only [e0, Option.map_some]
        refine ⟨_, _, rfl, hv b (h.one 2 t3 rfl b0.1 ⟨by rw [b0.2.1]; exact Nat.le_refl _, b0.2.2.2⟩ a0 (by simp) fun j hj => ?_)⟩
        match j with
        | 2 => exact absurd rfl hj
        | 0 | 1 | 3 => rfl
      · rename_i hp0
        simp only [if_neg hp0] at hf
        obtain ⟨b, c0, w0, e0, a0, b0, -⟩ := writeControl_safe (data := data) (A := clocked 3)
          (serves3 (bound := bound) (by omega) s.triggers.1 s.triggers.2.edge)
          (fun m m' w hm hP => hP) (h1 3) t1 hlow hlo (by omega)
          (fun j1 j2 j3 => by rw [hf.2 (by simp) j1 j2] at j3; cases j3) (w := s.triggers) ⟨h4, rfl, rfl⟩
        simp only [Ctc.ch] at e0
        simp only [e0, Option.map_some]
        refine ⟨_, _, rfl, hv b (h.one 3 t3 rfl b0.1 ⟨by rw [b0.2.1]; exact Nat.le_refl _, Nat.le_of_eq b0.2.2.symm⟩ a0 (by simp) fun j hj => ?_)⟩
        match j with
        | 3 => exact absurd rfl hj
        | 0 | 1 | 2 => rfl
  · rename_i hp
    rw [if_neg hp] at hf
    obtain ⟨x, d, e2⟩ := pio_write (now := now) (pioInput slurp) (pioOutput flush) port data s.chained (by omega) hf
    rw [e2]
    exact ⟨_, _, rfl, h.chained _⟩

theorem second_chan {c : CtcChannel} {low lo d x x' : Nat} (h : Chan A H low lo now x c) (hlow : low ≤ lo) (hd : d ≤ low)
    (hn : d ≤ now) (hx : x - d ≤ x') (w : W) (hw : ∃ w', t.nextSecond i d w = some w') :
    ∃ c' w', c.nextSecond t i d w = some (c', w') ∧
      t.nextSecond i d w = some w' ∧ Chan A H (low - d) (lo - d) (now - d) x' c' ∧ c'.hint = c.hint - d := by
  obtain ⟨w', hw⟩ := hw
  obtain ⟨h1, h2, h3, h4⟩ := h
  unfold CtcChannel.nextSecond
  cases hl : c.lastTs with
  | none =>
    simp only [hw, Option.map_some]
    refine ⟨_, _, rfl, rfl, ⟨h1, h2, fun _ trig ht => ?_, nofun⟩, rfl⟩
    obtain ⟨trig0, ht0, rfl⟩ := Option.map_eq_some_iff.1 ht
    obtain ⟨j1, j2, j3, j4, j5⟩ := h3 hl trig0 ht0
    exact ⟨j1, j2, j3, by simp only; omega, by omega⟩
  | some last =>
    obtain ⟨j1, j2, j3, j4, j5⟩ := h4 last hl
    simp only
    rw [if_pos (by omega)]
    simp only [hw, Option.map_some]
    refine ⟨_, _, rfl, rfl, ⟨h1, h2, nofun, fun last' hl' => ?_⟩, rfl⟩
    cases hl'
    exact ⟨j1, j2, by simp only; omega, by omega, by simp only; omega⟩

theorem second_edge (a : CtcActive n) (d : Nat) : a.edge - d ≤ ((a.nextSecond d).nextSecond' d).edge := by
  show a.periodTs + a.hclock - d ≤ a.periodTs - d + a.hclock
  omega

theorem nextSecond_safe {d : Nat} (h : Safe H K G e now s) (he : d + H + G + 1 ≤ e) (hn : e ≤ now) :
    ∃ s', (dv).nextSecond d s = some s' ∧ Safe H K G (e - d) (now - d) s' := by
  obtain ⟨h1, h2, h3, h4⟩ := h
  have hlow : max e s.hint - H - (G + 1) ≤ max e s.hint - H := Nat.sub_le _ _
  have hx1 := second_edge s.triggers.1 d
  have hx2 := second_edge s.triggers.2 d
  obtain ⟨c0, w0, e0, f0, a0, b0⟩ := second_chan (t := ralTriggers bound n) (i := 0) (d := d) (h1 0) hlow (by omega)
    (by omega) hx1 s.triggers ⟨_, rfl⟩
  obtain ⟨c1, w1, e1, f1, a1, -⟩ := second_chan (t := ralTriggers bound n) (i := 1) (d := d) (h1 1) hlow (by omega)
    (by omega) hx1 w0 ⟨_, rfl⟩
  obtain ⟨c2, w2, e2, f2, a2, -⟩ := second_chan (t := ralTriggers bound n) (i := 2) (d := d) (h1 2) hlow (by omega)
    (by omega) hx2 w1 ⟨_, rfl⟩
  obtain ⟨c3, w3, e3, f3, a3, -⟩ := second_chan (t := ralTriggers bound n) (i := 3) (d := d) (h1 3) hlow (by omega)
    (by omega) hx2 w2 ⟨_, rfl⟩
  simp only [Ctc.ch] at e0 e1 e2 e3
  simp only [board, Ctc.device, Ctc.nextSecond, e0, e1, e2, e3, Option.bind_eq_bind, Option.bind_some]
  cases f0
  cases f1
  cases f2
  cases f3
  refine ⟨_, rfl, ⟨fun k => ?_, by simp only; omega, ?_, h4.1.second, h4.2.second⟩⟩
  · match k with
    | 0 => exact a0.mono (by simp only; omega) (by simp only; omega) (Nat.le_refl _) (Nat.le_refl _)
    | 1 => exact a1.mono (by simp only; omega) (by simp only; omega) (Nat.le_refl _) (Nat.le_refl _)
    | 2 => exact a2.mono (by simp only; omega) (by simp only; omega) (Nat.le_refl _) (Nat.le_refl _)
    | 3 => exact a3.mono (by simp only; omega) (by simp only; omega) (Nat.le_refl _) (Nat.le_refl _)
  · have b0 : c0.hint = s.ch0.hint - d := b0
    simp only [b0]
    omega

end Z80.Ral
