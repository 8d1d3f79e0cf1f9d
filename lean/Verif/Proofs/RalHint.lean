import Verif.Proofs.RalTimer
import Verif.Proofs.RalChain

/-!
# Helper lemmas: timers that are looked at only when their time has come
-/

namespace Z80.Ral
open Spec.Ral

variable {W D : Type} {t : Triggers W} {dev : Device D}

/-- The channels by number. -/
def Ctc.ch (s : Ctc W D) : Fin 4 → CtcChannel
  | 0 => s.ch0
  | 1 => s.ch1
  | 2 => s.ch2
  | 3 => s.ch3

/-- The channel that a port selects, if any. -/
def Ctc.selects (s : Ctc W D) (port : U16) : Option (Fin 4) :=
  if port &&& s.matchMask = s.matchBits then
    some (if port &&& s.cs1 = 0 then if port &&& s.cs0 = 0 then 0 else 1 else if port &&& s.cs0 = 0 then 2 else 3)
  else none

/-- Interrupts are enabled, and the channel either asks for one or will get to zero at `z` and be looked at then. -/
def Owes (s : Ctc W D) (k : Fin 4) (n : U8) (z : Nat) : Prop :=
  (s.ch k).intsEnabled = true ∧ ((s.ch k).intActive = true ∨ ∃ a, Ticks (s.ch k) n a z ∧ s.hint ≤ z)

/-- The ports stay where they are. -/
def Ctc.ports (s : Ctc W D) : U16 × U16 × U16 × U16 := (s.matchMask, s.matchBits, s.cs0, s.cs1)

theorem Ctc.ports_selects {s s' : Ctc W D} (h : s'.ports = s.ports) (port : U16) :
    s'.selects port = s.selects port := by
  simp only [Ctc.ports, Prod.mk.injEq] at h
  simp only [Ctc.selects, h.1, h.2.1, h.2.2.1, h.2.2.2]

theorem process_enabled {i : Fin 4} {c c' : CtcChannel} {w w' : W} {ts : Nat} (h : c.process t i ts w = some (c', w')) :
    c'.intsEnabled = c.intsEnabled := by
  have := CtcChannel.process_setup h
  simp only [CtcChannel.setup, Prod.mk.injEq] at this
  exact this.2.2.2.2.2.1

/-- Looking at a channel. -/
theorem process_owes {i : Fin 4} {c c' : CtcChannel} {w w' : W} {n : U8} {ts z : Nat} (he : c.intsEnabled = true)
    (hc : c.intActive = true ∨ ∃ a, Ticks c n a z) (h : c.process t i ts w = some (c', w')) :
    c'.intActive = true ∨ ∃ a, Ticks c' n a z ∧ ts < z := by
  rcases hc with hc | ⟨a, hc⟩
  · exact Or.inl (CtcChannel.process_up t i h hc)
  · obtain ⟨h1, -, h3⟩ := process_ticks hc ts h
    have hp : 0 < period n c.prescaler.prescale := period_pos n (prescale_pos _)
    by_cases hz : max a ts < z
    · rw [nextZero_lt hz] at h1
      exact Or.inr ⟨_, h1, Nat.lt_of_le_of_lt (Nat.le_max_right _ _) hz⟩
    · left
      rw [zeros_cons hp (Nat.le_of_not_lt hz)] at h3
      rw [h3]
      simp [struck, CtcChannel.setIntActive, he]

theorem processChannels_ch {ts : Nat} {s s' : Ctc W D} (h : s.processChannels t ts = some s') :
    s'.ports = s.ports ∧ s'.ieo = s.ieo ∧
      ((ts < s.hint ∧ s' = s) ∨ (s.hint ≤ ts ∧ ∀ k, ∃ w w',
        Ctc.processChannel t k (s.hint == 0) ts (s.ch k) w = some (s'.ch k, w') ∧ s'.hint ≤ (s'.ch k).hint)) := by
  unfold Ctc.processChannels at h
  split at h
  · rename_i hh
    simp only [Option.bind_eq_bind, Option.bind_eq_some_iff] at h
    obtain ⟨⟨c0, w0⟩, h0, ⟨c1, w1⟩, h1, ⟨c2, w2⟩, h2, ⟨c3, w3⟩, h3, h⟩ := h
    cases h
    refine ⟨rfl, rfl, Or.inr ⟨hh, fun k => ?_⟩⟩
    match k with
    | 0 => exact ⟨_, _, h0, by show min (min (min c0.hint c1.hint) c2.hint) c3.hint ≤ c0.hint; omega⟩
    | 1 => exact ⟨_, _, h1, by show min (min (min c0.hint c1.hint) c2.hint) c3.hint ≤ c1.hint; omega⟩
    | 2 => exact ⟨_, _, h2, by show min (min (min c0.hint c1.hint) c2.hint) c3.hint ≤ c2.hint; omega⟩
    | 3 => exact ⟨_, _, h3, by show min (min (min c0.hint c1.hint) c2.hint) c3.hint ≤ c3.hint; omega⟩
  · rename_i hh
    cases h
    exact ⟨rfl, rfl, Or.inl ⟨by omega, rfl⟩⟩

/-- Looking at the channels whose time has come. -/
theorem processChannels_owes {ts z : Nat} {k : Fin 4} {n : U8} {s s' : Ctc W D} (ho : Owes s k n z)
    (h : s.processChannels t ts = some s') : Owes s' k n z ∧ (z ≤ ts → (s'.ch k).intActive = true) := by
  obtain ⟨-, -, h | ⟨hh, h⟩⟩ := processChannels_ch h
  · obtain ⟨hl, rfl⟩ := h
    refine ⟨ho, fun hz => ?_⟩
    rcases ho.2 with h | ⟨a, _, h⟩
    · exact h
    · omega
  · obtain ⟨w, w', hp, hle⟩ := h k
    unfold Ctc.processChannel at hp
    split at hp
    · have he := process_enabled hp
      rcases process_owes ho.1 (ho.2.imp id fun ⟨a, h, _⟩ => ⟨a, h⟩) hp with h1 | ⟨a, h1, h2⟩
      · exact ⟨⟨he.trans ho.1, Or.inl h1⟩, fun _ => h1⟩
      · exact ⟨⟨he.trans ho.1, Or.inr ⟨a, h1, Nat.le_trans hle h1.hint⟩⟩, fun h => by omega⟩
    · rename_i hn
      simp only [Bool.or_eq_true, decide_eq_true_eq, not_or, beq_iff_eq] at hn
      simp only [Option.some.injEq, Prod.mk.injEq] at hp
      obtain ⟨hp, -⟩ := hp
      rw [← hp] at hle
      unfold Owes
      rw [← hp]
      rcases ho.2 with h | ⟨a, h, _⟩
      · exact ⟨⟨ho.1, Or.inl h⟩, fun _ => h⟩
      · have := h.hint
        exact ⟨⟨ho.1, Or.inr ⟨a, h, Nat.le_trans hle this⟩⟩, fun hz => by omega⟩

/-- Nothing of the channel and the hint changes. -/
theorem Owes.congr {s s' : Ctc W D} {k : Fin 4} {n : U8} {z : Nat} (ho : Owes s k n z) (h : s'.ch k = s.ch k)
    (hh : s'.hint = s.hint) : Owes s' k n z := by
  unfold Owes; rw [h, hh]; exact ho

/-- Reading a counter. -/
theorem readIo_owes {port : U16} {ts z : Nat} {k : Fin 4} {n : U8} {s s' : Ctc W D} {v : U8 × Option U16}
    (ho : Owes s k n z) (h : s.readIo t dev port ts = some (v, s')) :
    Owes s' k n z ∧ s'.ports = s.ports := by
  have key : ∀ (j : Fin 4) (c' : CtcChannel) (w' : W) (r : U8), (s.ch j).readCounter t j ts s.triggers = some (r, c', w') →
      s'.ch j = c' → s'.hint = s.hint → (∀ i, i ≠ j → s'.ch i = s.ch i) → Owes s' k n z := by
    intro j c' w' r hr hj hh hi
    simp only [CtcChannel.readCounter, Option.map_eq_some_iff] at hr
    obtain ⟨⟨c1, w1⟩, hp, hr⟩ := hr
    cases hr
    by_cases hk : k = j
    · subst hk
      have he := process_enabled hp
      unfold Owes
      rw [hj, hh]
      rcases process_owes ho.1 (ho.2.imp id fun ⟨a, h, _⟩ => ⟨a, h⟩) hp with h1 | ⟨a, h1, _⟩
      · exact ⟨he.trans ho.1, Or.inl h1⟩
      · refine ⟨he.trans ho.1, ?_⟩
        rcases ho.2 with h2 | ⟨_, _, h2⟩
        · exact Or.inl (CtcChannel.process_up t _ hp h2)
        · exact Or.inr ⟨a, h1, h2⟩
    · exact ho.congr (hi k hk) hh
  unfold Ctc.readIo at h
  split at h
  · split at h <;> split at h
    all_goals
      simp only [Option.map_eq_some_iff] at h
      obtain ⟨⟨r, c, w⟩, hr, h⟩ := h
      cases h
    · exact ⟨key 0 c w r hr rfl rfl (fun i hi => by match i with | 0 => exact absurd rfl hi | 1 => rfl | 2 => rfl | 3 => rfl), rfl⟩
    · exact ⟨key 1 c w r hr rfl rfl (fun i hi => by match i with | 1 => exact absurd rfl hi | 0 => rfl | 2 => rfl | 3 => rfl), rfl⟩
    · exact ⟨key 2 c w r hr rfl rfl (fun i hi => by match i with | 2 => exact absurd rfl hi | 1 => rfl | 0 => rfl | 3 => rfl), rfl⟩
    · exact ⟨key 3 c w r hr rfl rfl (fun i hi => by match i with | 3 => exact absurd rfl hi | 1 => rfl | 2 => rfl | 0 => rfl), rfl⟩
  · simp only [Option.map_eq_some_iff] at h
    obtain ⟨⟨r, d⟩, hr, h⟩ := h
    cases h
    exact ⟨ho.congr (by match k with | 0 => rfl | 1 => rfl | 2 => rfl | 3 => rfl) rfl, rfl⟩

/-- Writing to another channel or device. -/
theorem writeIo_owes {port : U16} {data : U8} {ts z : Nat} {k : Fin 4} {n : U8} {s s' : Ctc W D} {v : Option U16}
    (ho : Owes s k n z) (hk : s.selects port ≠ some k) (h : s.writeIo t dev port data ts = some (v, s')) :
    Owes s' k n z ∧ s'.ports = s.ports := by
  unfold Ctc.selects at hk
  unfold Ctc.writeIo at h
  simp only at h
  split at h
  · rename_i hm
    rw [if_pos hm] at hk
    split at h <;> split at h
    all_goals
      rename_i h1 h0
      simp only [h1, h0, if_true, if_false, ne_eq, Option.some.injEq] at hk
      simp only [Option.map_eq_some_iff] at h
      obtain ⟨⟨r, c, w⟩, hr, h⟩ := h
      simp only [Prod.mk.injEq] at h
      obtain ⟨-, h⟩ := h
      rw [← h]
      refine ⟨ho.congr ?_ ?_, ?_⟩
      · match k with
        | 0 => first | exact absurd rfl hk | (split <;> rfl)
        | 1 => first | exact absurd rfl hk | (split <;> rfl)
        | 2 => first | exact absurd rfl hk | (split <;> rfl)
        | 3 => first | exact absurd rfl hk | (split <;> rfl)
      · split <;> rfl
      · split <;> rfl
  · simp only [Option.map_eq_some_iff] at h
    obtain ⟨⟨r, d⟩, hr, h⟩ := h
    cases h
    exact ⟨ho.congr (by match k with | 0 => rfl | 1 => rfl | 2 => rfl | 3 => rfl) rfl, rfl⟩

theorem second_ticks {i : Fin 4} {n : U8} {a z delta : Nat} {c c' : CtcChannel} {w w' : W} (hc : Ticks c n a z)
    (e : c.nextSecond t i delta w = some (c', w')) :
    delta ≤ a ∧ Ticks c' n (a - delta) (z - delta) ∧ c'.setup = c.setup ∧ c'.current = c.current := by
  simp only [CtcChannel.nextSecond, hc.lastTs] at e
  by_cases h : a ≥ delta
  · rw [if_pos h] at e
    simp only [Option.map_eq_some_iff] at e
    obtain ⟨w1, -, e⟩ := e
    cases e
    have h1 := hc.later
    have h2 := hc.near
    have h3 := hc.hint
    refine ⟨h, ⟨hc.mode, hc.restart, rfl, by omega, ?_, ?_, ?_, ?_⟩, rfl, rfl⟩
    · show z - delta ≤ a - delta + 256 * c.prescaler.prescale
      omega
    · show c.units = (z - delta - (a - delta)) * c.prescaler.factor
      rw [hc.units]; congr 1; omega
    · show c.current = countsTo (z - delta) c.prescaler.prescale (a - delta)
      rw [hc.shown]; unfold countsTo; congr 3; omega
    · show c.hint - delta ≤ z - delta
      omega
  · rw [if_neg h] at e
    cases e

theorem second_enabled {i : Fin 4} {delta : Nat} {c c' : CtcChannel} {w w' : W}
    (h : c.nextSecond t i delta w = some (c', w')) : c'.intsEnabled = c.intsEnabled := by
  simp only [CtcChannel.nextSecond] at h
  split at h
  · cases h
  · simp only [Option.map_eq_some_iff] at h
    obtain ⟨_, -, h⟩ := h
    cases h; rfl

theorem nextSecond_owes {delta z : Nat} {k : Fin 4} {n : U8} {s s' : Ctc W D} (ho : Owes s k n z)
    (h : s.nextSecond t dev delta = some s') :
    Owes s' k n (z - delta) ∧ s'.ports = s.ports ∧ ((s.ch k).intActive = true ∨ delta ≤ z) := by
  simp only [Ctc.nextSecond, Option.bind_eq_bind, Option.bind_eq_some_iff] at h
  obtain ⟨⟨c0, w0⟩, h0, ⟨c1, w1⟩, h1, ⟨c2, w2⟩, h2, ⟨c3, w3⟩, h3, d, hd, h⟩ := h
  cases h
  have key : ∀ (j : Fin 4) (c' : CtcChannel) (w w' : W), (s.ch j).nextSecond t j delta w = some (c', w') → k = j →
      (c'.intsEnabled = true ∧ (c'.intActive = true ∨ ∃ a, Ticks c' n a (z - delta) ∧ s.hint - delta ≤ z - delta)) ∧
        ((s.ch k).intActive = true ∨ delta ≤ z) := by
    intro j c' w w' hj hk
    subst hk
    refine ⟨⟨(second_enabled hj).trans ho.1, ?_⟩, ?_⟩
    · rcases ho.2 with h | ⟨a, h, hh⟩
      · exact Or.inl ((Ctc.nextSecond_int t hj).trans h)
      · exact Or.inr ⟨_, (second_ticks h hj).2.1, by omega⟩
    · rcases ho.2 with h | ⟨a, h, hh⟩
      · exact Or.inl h
      · have := (second_ticks h hj).1
        have := h.later
        exact Or.inr (by omega)
  match k, key with
  | 0, key => have := key 0 _ _ _ h0 rfl; exact ⟨this.1, rfl, this.2⟩
  | 1, key => have := key 1 _ _ _ h1 rfl; exact ⟨this.1, rfl, this.2⟩
  | 2, key => have := key 2 _ _ _ h2 rfl; exact ⟨this.1, rfl, this.2⟩
  | 3, key => have := key 3 _ _ _ h3 rfl; exact ⟨this.1, rfl, this.2⟩

end Z80.Ral
