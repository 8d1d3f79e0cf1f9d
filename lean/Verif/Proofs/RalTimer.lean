import Verif.Model.RalCtc
import Verif.Spec.RalTimer

/-!
# Helper lemmas: timers
-/

namespace Z80.Ral
open Spec.Ral

/-! ### Zeros -/

theorem zeros_lt {z p b : Nat} (h : b < z) : zeros z p b = [] := by
  simp only [zeros, List.filter_eq_nil_iff, List.mem_range, decide_eq_true_eq]
  omega

theorem zeros_cons {z p b : Nat} (hp : 0 < p) (h : z ≤ b) : zeros z p b = z :: zeros (z + p) p b := by
  have split : List.range (b + 1) = List.range z ++ z :: List.range' (z + 1) (b - z) := by
    rw [List.range_eq_range', List.range_eq_range', show b + 1 = z + (b - z + 1) by omega, ← List.range'_append_1,
      List.range'_succ]
    simp
  have before : ∀ q, z ≤ q → (List.range z).filter (fun x => decide (q ≤ x ∧ (x - q) % p = 0)) = [] := by
    intro q hq
    simp only [List.filter_eq_nil_iff, List.mem_range, decide_eq_true_eq]
    omega
  simp only [zeros, split, List.filter_append, before z (Nat.le_refl _), before (z + p) (Nat.le_add_right _ _),
    List.nil_append, List.filter_cons]
  rw [if_pos (by simp), if_neg (by simp; omega)]
  congr 1
  apply List.filter_congr
  intro x hx
  simp only [List.mem_range'_1] at hx
  simp only [decide_eq_decide]
  constructor
  · intro ⟨_, h2⟩
    have : p ≤ x - z := Nat.le_of_dvd (by omega) (Nat.dvd_of_mod_eq_zero h2)
    refine ⟨by omega, ?_⟩
    rw [show x - (z + p) = x - z - p by omega, ← Nat.mod_eq_sub_mod this]
    exact h2
  · intro ⟨h1, h2⟩
    refine ⟨by omega, ?_⟩
    rw [Nat.mod_eq_sub_mod (by omega), show x - z - p = x - (z + p) by omega]
    exact h2

theorem nextZero_lt {z p b : Nat} (h : b < z) : nextZero z p b = z := if_pos h

theorem nextZero_step {z p b : Nat} (hp : 0 < p) (h : z ≤ b) : nextZero z p b = nextZero (z + p) p b := by
  unfold nextZero
  rw [if_neg (by omega)]
  by_cases hb : b < z + p
  · rw [if_pos hb, Nat.div_eq_of_lt (by omega)]; simp
  · rw [if_neg hb]
    have : (b - z) / p = (b - (z + p)) / p + 1 := by
      rw [show b - z = b - (z + p) + p by omega, Nat.add_div_right _ hp]
    rw [this, Nat.mul_add p (_ + 1) 1, Nat.mul_one]
    omega

theorem nextZero_gt {z p b : Nat} (hp : 0 < p) : b < nextZero z p b := by
  unfold nextZero
  split
  · assumption
  · have := Nat.lt_mul_div_succ (b - z) hp
    omega

theorem nextZero_le {z p b : Nat} (hp : 0 < p) : nextZero z p b ≤ max z (b + p) := by
  unfold nextZero
  split
  · exact Nat.le_max_left _ _
  · have := Nat.mul_div_le (b - z) p
    rw [Nat.mul_add, Nat.mul_one]
    omega

/-- Zeros up to a time, and those after it. -/
theorem zeros_append {p : Nat} (hp : 0 < p) {b b' : Nat} (hb : b ≤ b') : ∀ (k z : Nat), b + 1 - z ≤ k →
    zeros z p b' = zeros z p b ++ zeros (nextZero z p b) p b' ∧
      nextZero (nextZero z p b) p b' = nextZero z p b'
  | k, z, hk => by
    by_cases h : z ≤ b
    · cases k with
      | zero => omega
      | succ k =>
        obtain ⟨i1, i2⟩ := zeros_append hp hb k (z + p) (by omega)
        rw [nextZero_step hp h, nextZero_step hp (Nat.le_trans h hb), zeros_cons hp h,
          zeros_cons hp (Nat.le_trans h hb), i1]
        exact ⟨rfl, i2⟩
    · rw [nextZero_lt (Nat.lt_of_not_le h), zeros_lt (Nat.lt_of_not_le h)]
      exact ⟨rfl, rfl⟩

/-! ### The loop -/

variable {W : Type} {t : Triggers W} {i : Fin 4}

/-- `seen` is told all pulses of the channel, and nothing else the channel does changes it. -/
structure Records (t : Triggers W) (i : Fin 4) (seen : W → List Nat) : Prop where
  pulse : ∀ ts w w', t.pulse i ts w = some w' → seen w' = seen w ++ [ts]
  purge : ∀ ts w h w', t.purge i ts w = some (h, w') → seen w' = seen w

theorem setInt_twice (c : CtcChannel) : c.setIntActive.setIntActive = c.setIntActive := by
  cases c
  simp [CtcChannel.setIntActive, Bool.or_assoc]

/-- The channel after a number of zeros. -/
def struck (l : List Nat) (c : CtcChannel) : CtcChannel := if l.isEmpty then c else c.setIntActive

theorem struck_cons (x : Nat) (l : List Nat) (c : CtcChannel) : struck l c.setIntActive = struck (x :: l) c := by
  unfold struck
  cases l with
  | nil => rfl
  | cons y l => exact setInt_twice c

theorem add32_some {a b c : Nat} (h : add32 a b = some c) : c = a + b := by
  unfold add32 at h
  split at h
  · exact (Option.some.inj h).symm
  · cases h

theorem timerLoop_spec {p f : Nat} (hp : 0 < p) (hf : 0 < f) :
    ∀ (n d z a : Nat) (c : CtcChannel) (w : W) (x : Nat × Nat × Nat × CtcChannel × W), a < z →
      CtcChannel.timerLoop t i (p * f) f n (d * f) ((z - a) * f) a c w = some x →
      ∃ d' a' w', x = (d' * f, (nextZero z p (a + d) - a') * f, a', struck (zeros z p (a + d)) c, w') ∧
        a' + d' = a + d ∧ a ≤ a' ∧ (a' = a ↔ zeros z p (a + d) = []) ∧
        ∀ seen, Records t i seen → seen w' = seen w ++ zeros z p (a + d)
  | 0, _, _, _, _, _, _, _, h => by cases h
  | n + 1, d, z, a, c, w, x, hz, h => by
    unfold CtcChannel.timerLoop at h
    by_cases hd : d * f ≥ (z - a) * f
    · rw [if_pos hd] at h
      have hd' : z - a ≤ d := Nat.le_of_mul_le_mul_right hd hf
      rw [Nat.mul_div_cancel _ hf] at h
      split at h
      · cases h
      · rename_i q hq
        have hq := add32_some hq
        split at h
        · cases h
        · rename_i w1 hw
          have hq' : q = z := by omega
          subst hq'
          have e1 : d * f - (q - a) * f = (d - (q - a)) * f := (Nat.sub_mul _ _ _).symm
          have e2 : p * f = (q + p - q) * f := by rw [Nat.add_sub_cancel_left]
          rw [e1] at h
          have h' : CtcChannel.timerLoop t i (p * f) f n ((d - (q - a)) * f) ((q + p - q) * f) q c.setIntActive w1
              = some x := by rw [← e2]; exact h
          obtain ⟨d', a', w', hx, h1, h0, h2, h3⟩ := timerLoop_spec hp hf n _ (q + p) q _ _ x (by omega) h'
          have e3 : q + (d - (q - a)) = a + d := by omega
          rw [e3] at hx h1 h2 h3
          have hzb : q ≤ a + d := by omega
          rw [zeros_cons hp hzb, nextZero_step hp hzb, ← struck_cons]
          refine ⟨d', a', w', hx, h1, by omega, ?_, ?_⟩
          · constructor
            · omega
            · intro h; cases h
          · intro seen hr
            rw [h3 seen hr, hr.pulse _ _ _ hw, List.append_assoc]; rfl
    · rw [if_neg hd] at h
      cases h
      have hd' : d < z - a := Nat.lt_of_mul_lt_mul_right (Nat.lt_of_not_le hd)
      have hb : a + d < z := by omega
      rw [zeros_lt hb, nextZero_lt hb]
      exact ⟨d, a, w, rfl, rfl, Nat.le_refl _, ⟨fun _ => rfl, fun _ => rfl⟩, fun _ _ => by simp⟩

/-! ### A running timer -/

/-- T-states of a count. -/
def Prescaler.prescale : Prescaler → Nat
  | .x256 => 256
  | .x16 => 16

/-- The timer runs with a constant, was looked at last at a time, and gets to zero next at `z`. -/
structure Ticks (c : CtcChannel) (n : U8) (a z : Nat) : Prop where
  mode : c.mode = .timer
  restart : c.restart = some n
  lastTs : c.lastTs = some a
  later : a < z
  near : z ≤ a + 256 * c.prescaler.prescale
  units : c.units = (z - a) * c.prescaler.factor
  shown : c.current = countsTo z c.prescaler.prescale a
  hint : c.hint ≤ z

theorem factor_pos (x : Prescaler) : 0 < x.factor := by cases x <;> decide

theorem prescale_factor (x : Prescaler) : x.prescale * x.factor = 256 := by cases x <;> rfl

theorem prescale_pos (x : Prescaler) : 0 < x.prescale := by cases x <;> decide

theorem period_pos (n : U8) {x : Nat} (h : 0 < x) : 0 < period n x := by
  unfold period
  split
  · omega
  · rename_i hn
    have : n.toNat ≠ 0 := fun h => hn (BitVec.eq_of_toNat_eq h)
    exact Nat.mul_pos (by omega) h

theorem reload_period (n : U8) (x : Prescaler) : CtcChannel.reload n = period n x.prescale * x.factor := by
  unfold CtcChannel.reload period
  rw [Nat.mul_assoc, prescale_factor]

theorem period_le (n : U8) (x : Nat) : period n x ≤ 256 * x := by
  unfold period
  apply Nat.mul_le_mul_right
  split
  · exact Nat.le_refl _
  · exact Nat.le_of_lt n.isLt

/-- What is left of a running timer, split into the counter and its fraction. -/
theorem split_units {r : Nat} (x : Prescaler) (h0 : 0 < r) (h1 : r ≤ 256 * x.prescale) (c : CtcChannel) :
    let k := r * x.factor
    let c' := if k % 256 = 0 then { c with internal := 256, current := BitVec.ofNat 8 (k / 256) }
      else { c with internal := k % 256, current := BitVec.ofNat 8 (k / 256) + 1 }
    c'.units = k ∧ c'.current = BitVec.ofNat 8 ((r + (x.prescale - 1)) / x.prescale) := by
  intro k c'
  have hk : k ≤ 65536 := by
    have : k ≤ 256 * x.prescale * x.factor := Nat.mul_le_mul_right _ h1
    rw [Nat.mul_assoc, prescale_factor] at this
    exact this
  have hk0 : 0 < k := Nat.mul_pos h0 (factor_pos x)
  have hc : (r + (x.prescale - 1)) / x.prescale = (k + 255) / 256 := by
    cases x
    · show (r + 255) / 256 = (r * 1 + 255) / 256; omega
    · show (r + 15) / 16 = (r * 16 + 255) / 256; omega
  rw [hc]
  by_cases hm : k % 256 = 0
  · have e : c' = { c with internal := 256, current := BitVec.ofNat 8 (k / 256) } := if_pos hm
    rw [e]
    refine ⟨?_, ?_⟩
    · show (BitVec.ofNat 8 (k / 256) - 1).toNat * 256 + 256 = k
      simp only [BitVec.toNat_sub, BitVec.toNat_ofNat, show (1 : BitVec 8).toNat = 1 from rfl]
      omega
    · show BitVec.ofNat 8 (k / 256) = _
      congr 1
      omega
  · have e : c' = { c with internal := k % 256, current := BitVec.ofNat 8 (k / 256) + 1 } := if_neg hm
    rw [e]
    refine ⟨?_, ?_⟩
    · show (BitVec.ofNat 8 (k / 256) + 1 - 1).toNat * 256 + k % 256 = k
      simp only [BitVec.add_sub_cancel, BitVec.toNat_ofNat]
      omega
    · show BitVec.ofNat 8 (k / 256) + 1 = _
      apply BitVec.eq_of_toNat_eq
      simp only [BitVec.toNat_add, BitVec.toNat_ofNat, show (1 : BitVec 8).toNat = 1 from rfl]
      omega

/-- Looking at a running timer. -/
theorem process_ticks {n : U8} {a z : Nat} {c c' : CtcChannel} {w w' : W}
    (hc : Ticks c n a z) (ts : Nat) (h : c.process t i ts w = some (c', w')) :
    let p := period n c.prescaler.prescale
    let b := max a ts
    Ticks c' n b (nextZero z p b) ∧ (∀ seen, Records t i seen → seen w' = seen w ++ zeros z p b) ∧
      c' = { struck (zeros z p b) c with internal := c'.internal, current := c'.current, hint := c'.hint,
                                         lastTs := some b } := by
  intro p b
  have hp : 0 < p := period_pos n (prescale_pos _)
  have hf := factor_pos c.prescaler
  have h2 : CtcChannel.runTimer t i n a ts c w = some (c', w') := by
    rw [← h]
    simp only [CtcChannel.process, hc.restart, hc.mode, hc.lastTs]
  unfold CtcChannel.runTimer at h2
  split at h2
  · cases h2
  · rename_i u w1 hw
    by_cases hts : ts > a
    · rw [if_pos hts] at h2
      have hb : b = ts := Nat.max_eq_right (Nat.le_of_lt hts)
      have hbd : a + (ts - a) = b := by omega
      simp only at h2
      split at h2
      · rw [hc.units, reload_period n c.prescaler] at h2
        split at h2
        · cases h2
        · rename_i D C A Y V hx
          obtain ⟨d', a', w2, hx', h3, h4, h5, h6⟩ := timerLoop_spec hp hf _ _ z a c w1 _ hc.later hx
          rw [hbd] at hx' h3 h5 h6
          simp only [Prod.mk.injEq] at hx'
          obtain ⟨e1, e2, e3, e4, e5⟩ := hx'
          rw [e1, e2, e3, e4, e5] at h2
          have hgt : b < nextZero z p b := nextZero_gt hp
          have hle := nextZero_le (z := z) (p := p) (b := b) hp
          have hple := period_le n c.prescaler.prescale
          have hnear := hc.near
          have hsub : (nextZero z p b - a') * c.prescaler.factor - d' * c.prescaler.factor =
              (nextZero z p b - b) * c.prescaler.factor := by
            rw [← Nat.sub_mul]; congr 1; omega
          simp only [hsub] at h2
          have hnb : nextZero z p b ≤ b + 256 * c.prescaler.prescale := by omega
          have hunits := split_units c.prescaler (r := nextZero z p b - b) (by omega) (by omega)
          rw [Nat.mul_div_cancel _ hf] at h2
          split at h2
          · cases h2
          · rename_i hint hh
            have hhint : hint ≤ nextZero z p b := by
              split at hh
              · cases hh; exact Nat.zero_le _
              · have := add32_some hh; omega
            generalize hg : (if (nextZero z p b - b) * c.prescaler.factor % 256 = 0 then
                  ({ ({ struck (zeros z p b) c with hint := hint } : CtcChannel) with
                    internal := 256, current := BitVec.ofNat 8 ((nextZero z p b - b) * c.prescaler.factor / 256) } : CtcChannel)
                else
                  { ({ struck (zeros z p b) c with hint := hint } : CtcChannel) with
                    internal := (nextZero z p b - b) * c.prescaler.factor % 256,
                    current := BitVec.ofNat 8 ((nextZero z p b - b) * c.prescaler.factor / 256) + 1 }) = y at h2
            obtain ⟨hu, hcur⟩ := hunits { struck (zeros z p b) c with hint := hint }
            simp only at hu hcur
            rw [hg] at hu hcur
            have hy : y = { struck (zeros z p b) c with internal := y.internal, current := y.current, hint := hint } := by
              rw [← hg]; split <;> rfl
            have sp : (struck (zeros z p b) c).prescaler = c.prescaler := by unfold struck; split <;> rfl
            have sm : (struck (zeros z p b) c).mode = c.mode := by unfold struck; split <;> rfl
            have sr : (struck (zeros z p b) c).restart = c.restart := by unfold struck; split <;> rfl
            have yp : y.prescaler = c.prescaler := by rw [hy, ← sp]
            have ym : y.mode = c.mode := by rw [hy, ← sm]
            have yr : y.restart = c.restart := by rw [hy, ← sr]
            have yh : y.hint = hint := by rw [hy]
            simp only [Option.some.injEq, Prod.mk.injEq] at h2
            obtain ⟨h2, h7⟩ := h2
            have hw2 : ∀ seen, Records t i seen → seen w' = seen w ++ zeros z p b := fun seen hr => by
              rw [← h7, h6 seen hr, hr.purge _ _ _ _ hw]
            refine ⟨?_, hw2, ?_⟩
            · rw [← h2, ← hb]
              exact ⟨ym.trans hc.mode, yr.trans hc.restart, rfl, hgt, by rw [show _ = _ from yp]; exact hnb,
                by rw [show CtcChannel.prescaler _ = _ from yp]; exact hu,
                by rw [show CtcChannel.prescaler _ = _ from yp]; exact hcur, by rw [show CtcChannel.hint _ = _ from yh]; exact hhint⟩
            · rw [← h2, show some b = some ts by rw [hb]]
              have := congrArg (fun y : CtcChannel => ({ y with lastTs := some ts } : CtcChannel)) hy
              rw [← yh] at this
              exact this
      · cases h2
    · rw [if_neg hts] at h2
      have hb : b = a := Nat.max_eq_left (by omega)
      simp only [Option.map_eq_some_iff] at h2
      obtain ⟨k, hk, e⟩ := h2
      cases e
      have hk := add32_some hk
      rw [hb, zeros_lt hc.later, nextZero_lt hc.later]
      refine ⟨⟨hc.mode, hc.restart, hc.lastTs, hc.later, hc.near, hc.units, hc.shown, ?_⟩, fun seen hr => by simp [hr.purge _ _ _ _ hw], ?_⟩
      · have := hc.later; show k ≤ z; omega
      · show _ = _
        simp only [struck, List.isEmpty_nil, if_true, ← hc.lastTs]

/-! ### What time does not change -/

/-- What a program has set up. -/
def CtcChannel.setup (c : CtcChannel) : CtcMode × Prescaler × Option U8 × Bool × Bool × Bool × Bool :=
  (c.mode, c.prescaler, c.restart, c.awaiting, c.extTrigger, c.intsEnabled, c.rising)

namespace CtcChannel

theorem startTimer_setup {ts : Nat} {c c' : CtcChannel} (h : c.startTimer ts = some c') : c'.setup = c.setup := by
  simp only [startTimer, Option.map_eq_some_iff] at h
  obtain ⟨_, -, rfl⟩ := h
  rfl

theorem downcount_setup {r : U8} {ts : Nat} {c c' : CtcChannel} {w w' : W} {b : Bool}
    (h : downcount t i r ts c w = some (b, c', w')) : c'.setup = c.setup := by
  simp only [downcount] at h
  split at h
  · simp only [Option.map_eq_some_iff] at h
    obtain ⟨_, -, h⟩ := h
    cases h
    rfl
  · cases h; rfl

theorem countLoop_setup {r : U8} {ts : Nat} : ∀ {n : Nat} {c c' : CtcChannel} {w w' : W},
    countLoop t i r ts n c w = some (c', w') → c'.setup = c.setup
  | 0, _, _, _, _, h => by cases h
  | n + 1, c, c', w, w', h => by
    simp only [countLoop] at h
    split at h
    · cases h
    · split at h
      · cases h
      · rename_i hd
        cases h
        exact downcount_setup hd
      · rename_i hd
        exact (countLoop_setup h).trans (downcount_setup hd)
    · cases h; rfl

theorem timerLoop_setup {r f : Nat} : ∀ {n d k p : Nat} {c : CtcChannel} {w : W} {d' k' p' : Nat} {c' : CtcChannel}
    {w' : W}, timerLoop t i r f n d k p c w = some (d', k', p', c', w') → c'.setup = c.setup
  | 0, _, _, _, _, _, _, _, _, _, _, h => by cases h
  | n + 1, d, k, p, c, w, d', k', p', c', w', h => by
    simp only [timerLoop] at h
    split at h
    · split at h
      · cases h
      · split at h
        · cases h
        · exact (timerLoop_setup (c := c.setIntActive) h).trans rfl
    · cases h; rfl

theorem runTimer_setup {r : U8} {last ts : Nat} {c c' : CtcChannel} {w w' : W}
    (h : runTimer t i r last ts c w = some (c', w')) : c'.setup = c.setup := by
  simp only [runTimer] at h
  split at h
  · cases h
  · split at h
    · split at h
      · split at h
        · cases h
        · rename_i hl
          split at h
          · cases h
          · cases h
            rw [← timerLoop_setup hl]
            split <;> rfl
      · cases h
    · simp only [Option.map_eq_some_iff] at h
      obtain ⟨_, -, h⟩ := h
      cases h; rfl

theorem triggerLoop_setup {trig ts : Nat} : ∀ {n : Nat} {c c' : CtcChannel} {w w' : W},
    triggerLoop t i trig ts n c w = some (c', w') → c'.setup = c.setup
  | 0, _, _, _, _, h => by cases h
  | n + 1, c, c', w, w', h => by
    simp only [triggerLoop] at h
    split at h
    · cases h
    · split at h
      · simp only [Option.map_eq_some_iff] at h
        obtain ⟨_, hs, h⟩ := h
        cases h
        exact startTimer_setup hs
      · exact triggerLoop_setup h
    · cases h; rfl

/-- Time changes nothing that a program has set up. -/
theorem process_setup {ts : Nat} {c c' : CtcChannel} {w w' : W} (h : process t i ts c w = some (c', w')) :
    c'.setup = c.setup := by
  simp only [process] at h
  have idle : ∀ {c' w'}, (t.purge i ts w).map (fun (hint, w) => ({ c with hint := hint }, w)) = some (c', w') →
      c'.setup = c.setup := by
    intro c' w' h
    simp only [Option.map_eq_some_iff] at h
    obtain ⟨_, -, h⟩ := h
    cases h; rfl
  split at h
  · exact countLoop_setup h
  · split at h
    · exact runTimer_setup h
    · exact triggerLoop_setup h
    · exact idle h
  · exact idle h

/-- A channel that has no constant waits. -/
theorem process_idle {ts : Nat} {c c' : CtcChannel} {w w' : W} (hn : c.restart = none)
    (h : process t i ts c w = some (c', w')) :
    ∃ k, t.purge i ts w = some (k, w') ∧ c' = { c with hint := k } := by
  simp only [process, hn, Option.map_eq_some_iff] at h
  obtain ⟨⟨k, w1⟩, hk, h⟩ := h
  cases h
  exact ⟨k, hk, by rw [← hn]⟩

end CtcChannel

/-! ### Starting -/

theorem countsTo_period (n : U8) {p : Nat} (hp : 0 < p) (a : Nat) : countsTo (a + period n p) p a = n := by
  unfold countsTo period
  rw [Nat.add_sub_cancel_left]
  have : ∀ m, (m * p + (p - 1)) / p = m := fun m => by
    rw [Nat.add_comm, Nat.add_mul_div_right _ _ hp, Nat.div_eq_of_lt (by omega), Nat.zero_add]
  rw [this]
  split
  · rename_i h; rw [h]; rfl
  · simp

/-- A channel with a constant that starts to count. -/
theorem start_ticks {n : U8} {ts : Nat} {c c' : CtcChannel} (hm : c.mode = .timer) (hr : c.restart = some n)
    (hi : c.internal = 256) (hn : c.current = n) (h : c.startTimer ts = some c') :
    Ticks c' n (ts + 1) (ts + 1 + period n c.prescaler.prescale) := by
  simp only [CtcChannel.startTimer, Option.map_eq_some_iff] at h
  obtain ⟨b, hb, rfl⟩ := h
  have hb := add32_some hb
  subst hb
  have hp := period_pos n (prescale_pos c.prescaler)
  refine ⟨hm, hr, rfl, by omega, Nat.add_le_add_left (period_le n _) _, ?_, ?_, by simp⟩
  · rw [Nat.add_sub_cancel_left]
    show c.units = period n c.prescaler.prescale * c.prescaler.factor
    rw [← reload_period]
    unfold CtcChannel.units CtcChannel.reload
    rw [hi, hn]
    have : ∀ n : U8, (n - 1).toNat * 256 + 256 = (if n = 0 then 256 else n.toNat) * 256 := by decide +kernel
    exact this n
  · rw [countsTo_period n (prescale_pos _)]; exact hn

/-- The prescaler a control word selects. -/
def wordPrescaler (data : U8) : Prescaler := if data.getLsbD 5 then .x256 else .x16

namespace CtcChannel

/-- A control word for a timer, with reset and a constant to follow, and no trigger. -/
theorem control_reset {data : U8} {ts : Nat} {c c' : CtcChannel} (h1 : data.getLsbD 1 = true)
    (h2 : data.getLsbD 2 = true) (h3 : data.getLsbD 3 = false) (h6 : data.getLsbD 6 = false)
    (h : c.control data ts = some c') :
    c'.mode = .timer ∧ c'.restart = none ∧ c'.lastTs = none ∧ c'.internal = 256 ∧ c'.awaiting = true ∧
      c'.extTrigger = false ∧ c'.prescaler = wordPrescaler data ∧ c'.intsEnabled = data.getLsbD 7 := by
  unfold control at h
  unfold wordPrescaler
  rw [h1, h2, h3, h6] at h
  generalize data.getLsbD 7 = b7 at h ⊢
  generalize data.getLsbD 5 = b5 at h ⊢
  obtain ⟨pr, mode, hint, lt, et, int, re, cu, aw, ext, ie, ia, ri⟩ := c
  cases b7 <;> cases mode <;> cases ext <;> cases h <;> simp

/-- A control word for a running timer, with a constant to follow, and no trigger. -/
theorem control_retime {data : U8} {ts : Nat} {c c' : CtcChannel} (h1 : data.getLsbD 1 = false)
    (h2 : data.getLsbD 2 = true) (h6 : data.getLsbD 6 = false)
    (hm : c.mode = .timer) (hl : c.lastTs.isSome) (hp : c.prescaler = wordPrescaler data)
    (h : c.control data ts = some c') :
    ∃ x y, c' = { c with awaiting := true, intsEnabled := data.getLsbD 7,
                         intActive := c.intActive && data.getLsbD 7, extTs := x, extTrigger := y } := by
  unfold control at h
  unfold wordPrescaler at hp
  rw [h1, h2, h6] at h
  generalize data.getLsbD 7 = b7 at h ⊢
  generalize data.getLsbD 5 = b5 at h hp ⊢
  generalize data.getLsbD 3 = b3 at h ⊢
  obtain ⟨pr, mode, hint, lt, et, int, re, cu, aw, ext, ie, ia, ri⟩ := c
  simp only at hm hp
  subst hm hp
  cases lt with
  | none => cases hl
  | some l => cases b7 <;> cases b3 <;> cases ext <;> cases h <;> exact ⟨_, _, by simp; trivial⟩

end CtcChannel

/-! ### No panics -/

theorem timerLoop_total (hpulse : ∀ ts w, t.pulse i ts w ≠ none) {p f : Nat} (hp : 0 < p) (hf : 0 < f) :
    ∀ (n d z a : Nat) (c : CtcChannel) (w : W), a < z → d < n → a + d < 2 ^ 32 →
      CtcChannel.timerLoop t i (p * f) f n (d * f) ((z - a) * f) a c w ≠ none
  | 0, _, _, _, _, _, _, h, _ => by omega
  | n + 1, d, z, a, c, w, hz, hn, hb => by
    unfold CtcChannel.timerLoop
    by_cases hd : d * f ≥ (z - a) * f
    · rw [if_pos hd]
      have hd' : z - a ≤ d := Nat.le_of_mul_le_mul_right hd hf
      rw [Nat.mul_div_cancel _ hf]
      have e : add32 a (z - a) = some z := by
        unfold add32; rw [if_pos (by omega)]; congr 1; omega
      rw [e]
      simp only
      cases hw : t.pulse i z w with
      | none => exact absurd hw (hpulse _ _)
      | some w1 =>
        simp only
        rw [← Nat.sub_mul]
        have := timerLoop_total hpulse hp hf n (d - (z - a)) (z + p) z c.setIntActive w1 (by omega) (by omega) (by omega)
        rw [Nat.add_sub_cancel_left] at this
        exact this
    · rw [if_neg hd]
      exact Option.some_ne_none _

theorem process_total (hpulse : ∀ ts w, t.pulse i ts w ≠ none)
    (hpurge : ∀ ts w, t.purge i ts w ≠ none) {n : U8} {a z : Nat} {c : CtcChannel} (hc : Ticks c n a z) (ts : Nat)
    (w : W) (ha : a + 1 < 2 ^ 32) (hd : (ts - a) * c.prescaler.factor < 2 ^ 32) (hts : ts + 65536 < 2 ^ 32) :
    c.process t i ts w ≠ none := by
  have hp : 0 < period n c.prescaler.prescale := period_pos n (prescale_pos _)
  have hf := factor_pos c.prescaler
  simp only [CtcChannel.process, hc.restart, hc.mode, hc.lastTs]
  unfold CtcChannel.runTimer
  cases hw : t.purge i ts w with
  | none => exact absurd hw (hpurge _ _)
  | some x =>
    obtain ⟨k, w1⟩ := x
    simp only
    by_cases h : ts > a
    · rw [if_pos h, if_pos hd, hc.units, reload_period n c.prescaler]
      have htot := timerLoop_total hpulse hp hf ((ts - a) * c.prescaler.factor + 2) (ts - a) z a c w1 hc.later
        (by have := Nat.le_mul_of_pos_right (ts - a) hf; omega) (by omega)
      split
      · rename_i e; exact absurd e htot
      · rename_i D C A Y V hx
        obtain ⟨d', a', w2, hx', h3, h4, h5, h6⟩ := timerLoop_spec hp hf _ _ z a c w1 _ hc.later hx
        rw [show a + (ts - a) = ts by omega] at hx' h3
        simp only [Prod.mk.injEq] at hx'
        obtain ⟨e1, e2, e3, e4, e5⟩ := hx'
        rw [e1, e2, ← Nat.sub_mul, Nat.mul_div_cancel _ hf]
        have hle := nextZero_le (z := z) (b := ts) hp
        have hple := period_le n c.prescaler.prescale
        have hnear := hc.near
        have hpr : 256 * c.prescaler.prescale ≤ 65536 := by cases c.prescaler <;> decide
        split
        · rename_i e
          split at e
          · cases e
          · unfold add32 at e
            rw [if_pos (by omega)] at e
            cases e
        · exact Option.some_ne_none _
    · rw [if_neg h]
      unfold add32
      rw [if_pos ha]
      exact Option.some_ne_none _

end Z80.Ral
