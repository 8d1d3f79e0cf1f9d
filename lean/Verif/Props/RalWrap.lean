import Verif.Proofs.RalWrap

/-!
# C70: setting back the clock of the example computer
-/

namespace Z80.Ral
open Spec.Ral

/-- A deed `d` T-states earlier. -/
def earlier (d : Nat) (l : List (Nat × Deed)) : List (Nat × Deed) := l.map fun (ts, u) => (ts - d, u)

/-- **C70.** Once per emulated second the clock is set back and all devices are told so. The processor gets the same
from the devices afterwards as it would have got without: the same interrupts with the same vectors at the same times,
the same bytes and wait states; and there is no panic that would not have been without. For this to be so, nothing of
what was before the new start of the clock may still have to be dealt with when the clock is set back. That this is so
whenever the emulator does it is missing; see `C70_refuted`. -/
theorem C70_wrap_partial (bound n : Nat) {I O : Type} (slurp : I → Option U8 × I) (flush : U8 → O → Bool × O)
    (d : Nat) (s : Chain n I O) (hs : Settled d s) :
    ∃ s', (board bound n slurp flush).nextSecond d s = some s' ∧
      ∀ (l : List (Nat × Deed)) (r : List Reply), (∀ p ∈ l, d < p.1 ∧ p.1 < 2 ^ 32 - 1) →
        replies (board bound n slurp flush) l s = some r →
        replies (board bound n slurp flush) (earlier d l) s' = some r := by
  obtain ⟨hh, c0, c1, c2, c3, w0, w1⟩ := hs
  have chan : ∀ {i : Fin 4} {c : CtcChannel} {w : CtcActive n × CtcActive n}, SettledChannel d c →
      ∃ c', c.nextSecond (ralTriggers bound n) i d w =
          ((ralTriggers bound n).nextSecond i d w).map (fun w => (c', w)) ∧ Wrap.Back d c c' := by
    intro i c w hc
    obtain ⟨ps, m, hi, l, x, int, r, cur, aw, et, ie, ia, ri⟩ := c
    cases l with
    | none => exact ⟨_, rfl, hi, x, Wrap.Hints.sub hc.2, rfl, rfl⟩
    | some ts =>
      have hts : d ≤ ts := hc.1 ts rfl
      refine ⟨_, by simp only [CtcChannel.nextSecond, ge_iff_le, hts, if_true]; rfl, hi, x, Wrap.Hints.sub hc.2, rfl, ?_⟩
      simp [Nat.sub_add_cancel hts]
  have clock : ∀ {a : CtcActive n}, SettledClock d a → Wrap.Clocks d a ((a.nextSecond d).nextSecond' d) := by
    rintro a ⟨k1, k2, k3, k4⟩
    refine ⟨k1, ⟨rfl, k3, fun i hi => ?_⟩, rfl, (Nat.sub_add_cancel k2).symm, rfl⟩
    have e : ((a.nextSecond d).nextSecond' d).next.ts i = a.next.ts i - d := if_pos hi
    rw [e, Nat.sub_add_cancel (k4 i hi)]
  obtain ⟨c0', e0, b0⟩ := chan (i := 0) (w := s.triggers) c0
  obtain ⟨c1', e1, b1⟩ := chan (i := 1) (w := (s.triggers.1.nextSecond d, s.triggers.2)) c1
  obtain ⟨c2', e2, b2⟩ := chan (i := 2) (w := (CtcActive.nextSecond' d (s.triggers.1.nextSecond d), s.triggers.2)) c2
  obtain ⟨c3', e3, b3⟩ := chan (i := 3)
    (w := (CtcActive.nextSecond' d (s.triggers.1.nextSecond d), s.triggers.2.nextSecond d)) c3
  have hback : Wrap.CtcBack d (fun w w' => Wrap.Clocks d w.1 w'.1 ∧ Wrap.Clocks d w.2 w'.2) Eq s
      { s with hint := s.hint - d, ch0 := c0', ch1 := c1', ch2 := c2', ch3 := c3',
               triggers := (CtcActive.nextSecond' d (s.triggers.1.nextSecond d),
                 CtcActive.nextSecond' d (s.triggers.2.nextSecond d)) } :=
    ⟨rfl, Wrap.Hints.sub hh, b0, b1, b2, b3, ⟨clock w0, clock w1⟩, rfl⟩
  have main := Wrap.unaware_ctc (Wrap.shifts_ral bound n d) (Wrap.unaware_pio slurp flush d)
  have follow : ∀ (l : List (Nat × Deed)) (s s' : Chain n I O) (r : List Reply),
      Wrap.CtcBack d (fun w w' => Wrap.Clocks d w.1 w'.1 ∧ Wrap.Clocks d w.2 w'.2) Eq s s' →
      (∀ p ∈ l, d < p.1 ∧ p.1 < 2 ^ 32 - 1) → replies (board bound n slurp flush) l s = some r →
      replies (board bound n slurp flush) (earlier d l) s' = some r := by
    intro l
    induction l with
    | nil => intro _ _ r _ _ h; exact h
    | cons p l ih =>
      intro s s' r hback hl h
      obtain ⟨ts, u⟩ := p
      obtain ⟨g1, g2⟩ := hl _ List.mem_cons_self
      simp only at g1 g2
      have hts : ts = ts - d + d := by omega
      simp only [replies] at h
      cases hp : perform (board bound n slurp flush) ts s u with
      | none => rw [hp] at h; cases h
      | some q =>
        obtain ⟨a, x⟩ := q
        rw [hp] at h
        simp only [Option.map_eq_some_iff] at h
        obtain ⟨r', h, rfl⟩ := h
        rw [hts] at hp
        obtain ⟨x', f1, f2⟩ := main u (ts - d) s s' a x (by omega) (by omega) hback hp
        have := ih x x' r' f2 (fun p hp => hl p (List.mem_cons_of_mem _ hp)) h
        simp only [earlier, List.map_cons, replies] at this ⊢
        rw [show perform (board bound n slurp flush) (ts - d) s' u = some (a, x') from f1]
        simp only [this, Option.map_some]
  refine ⟨_, ?_, fun l r => follow l s _ r hback⟩
  simp only [board, Ctc.device, Ctc.nextSecond, Option.bind_eq_bind]
  rw [e0]
  dsimp only [ralTriggers, Option.map_some, Option.bind_some]
  erw [e1]
  dsimp only [ralTriggers, Option.map_some, Option.bind_some]
  erw [e2]
  dsimp only [ralTriggers, Option.map_some, Option.bind_some]
  erw [e3]
  rfl

/-- The devices after deeds one after another. -/
def afterDeeds {D : Type} (dev : Device D) : List (Nat × Deed) → D → Option D
  | [], x => some x
  | (ts, u) :: l, x => match perform dev ts x u with
    | none => none
    | some (_, x) => afterDeeds dev l x

/-- Devices with four cells for pulses, a stream without bytes and a sink that takes all. -/
def plainBoard : Device (Chain 4 Unit Unit) := board 1000 4 (fun _ => (none, ())) fun _ _ => (true, ())

/-- The clock has 10 kHz and the external clock a period of 2000 T-states. Channel 1 waits for channel 0, which is
started so that it gets to zero at the time `p`, about the end of the second. The last instruction of the second is
fetched at 9990 and ends at 10001, which also is the end of the frame. -/
def lastSecond (p : Nat) : List (Nat × Deed) :=
  [(1000, .fetch), (2000, .fetch), (3000, .fetch), (4000, .fetch), (5000, .fetch), (6000, .fetch), (7000, .fetch),
   (8000, .fetch), (8100, .write 5 0x1D), (8110, .write 5 100), (9000, .fetch), (p - 170, .write 4 0x05),
   (p - 161, .write 4 10), (9990, .fetch), (10001, .frame)]

/-- Later the program reads the counter of channel 1. -/
def nextReads : List (Nat × Deed) := [(10020, .fetch), (10605, .read 5), (10608, .read 5), (10609, .read 5)]

/-- **C70 is false** without the hypothesis: if channel 0 gets to zero while the last instruction of a second is
executed, but before the second ends, this is seen by the emulator only after the clock was set back, and its time is
taken to be the start of the new second. A timer that was waiting for it starts late, here by 5 T-states. -/
theorem C70_refuted : ∃ s s', (Chain.new 4 2000 () ()).bind (afterDeeds plainBoard (lastSecond 9995)) = some s ∧
    plainBoard.nextSecond 10000 s = some s' ∧ (∀ p ∈ nextReads, 10000 < p.1 ∧ p.1 < 2 ^ 32 - 1) ∧
    replies plainBoard nextReads s = some [.nothing, .byte 62 none, .byte 62 none, .byte 62 none] ∧
    replies plainBoard (earlier 10000 nextReads) s' = some [.nothing, .byte 63 none, .byte 63 none, .byte 62 none] := by
  have h : ∀ o : Option (Chain 4 Unit Unit), (o.bind fun s => (plainBoard.nextSecond 10000 s).bind fun s' =>
      (replies plainBoard nextReads s).bind fun r => (replies plainBoard (earlier 10000 nextReads) s').map fun r' => (r, r')) =
        some ([.nothing, .byte 62 none, .byte 62 none, .byte 62 none],
          [.nothing, .byte 63 none, .byte 63 none, .byte 62 none]) →
      ∃ s s', o = some s ∧ plainBoard.nextSecond 10000 s = some s' ∧
        replies plainBoard nextReads s = some [.nothing, .byte 62 none, .byte 62 none, .byte 62 none] ∧
        replies plainBoard (earlier 10000 nextReads) s' =
          some [.nothing, .byte 63 none, .byte 63 none, .byte 62 none] := by
    intro o h
    simp only [Option.bind_eq_some_iff, Option.map_eq_some_iff, Prod.mk.injEq] at h
    obtain ⟨s, h1, s', h2, r, h3, r', h4, rfl, rfl⟩ := h
    exact ⟨s, s', h1, h2, h3, h4⟩
  obtain ⟨s, s', h1, h2, h3, h4⟩ := h ((Chain.new 4 2000 () ()).bind (afterDeeds plainBoard (lastSecond 9995))) (by
    decide +kernel)
  exact ⟨s, s', h1, h2, by decide, h3, h4⟩

/-- The hypotheses of `C70_wrap_partial` are met if channel 0 gets to zero at the end of the second: nothing older is
left. The program reads the same before and after. -/
example : ∃ s, (Chain.new 4 2000 () ()).bind (afterDeeds plainBoard (lastSecond 10000)) = some s ∧ Settled 10000 s ∧
    replies plainBoard nextReads s = some [.nothing, .byte 63 none, .byte 63 none, .byte 62 none] := by
  refine ⟨((Chain.new 4 2000 () ()).bind (afterDeeds plainBoard (lastSecond 10000))).get (by decide +kernel),
    (Option.some_get _).symm, ?_, by decide +kernel⟩
  refine ⟨by decide +kernel, ⟨?_, by decide +kernel⟩, ⟨?_, by decide +kernel⟩, ⟨?_, by decide +kernel⟩,
    ⟨?_, by decide +kernel⟩, ⟨by decide +kernel, by decide +kernel, by decide +kernel, by decide +kernel⟩,
    by decide +kernel, by decide +kernel, by decide +kernel, by decide +kernel⟩
  all_goals
    intro ts h
    have key : ∀ o : Option Nat, (∀ x ∈ o, 10000 ≤ x) → o = some ts → 10000 ≤ ts := fun o h e => h ts e
    exact key _ (by decide +kernel) h

end Z80.Ral
