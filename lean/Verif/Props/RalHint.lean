import Verif.Props.RalChain
import Verif.Props.RalTimer

/-!
# C58: timers that are looked at only when their time has come
-/

namespace Z80.Ral
open Spec.Ral

variable {W D : Type} {t : Triggers W} {dev : Device D}

/-- A use of a device. -/
def Use.act {E : Type} (dev : Device E) : Use → E → Option E
  | .ask ts, d => (dev.isIrq ts d).map Prod.snd
  | .ack pc ts, d => (dev.irqData pc ts d).map Prod.snd
  | .reti pc ts, d => dev.reti pc ts d
  | .m1 ts, d => dev.m1 ts d
  | .frameEnd ts, d => dev.frameEnd ts d
  | .nextSecond delta, d => dev.nextSecond delta d
  | .read port ts, d => (dev.readIo port ts d).map Prod.snd
  | .write port data ts, d => (dev.writeIo port data ts d).map Prod.snd

/-- Uses one after another. -/
def Use.acts {E : Type} (dev : Device E) : List Use → E → Option E
  | [], d => some d
  | u :: l, d => match u.act dev d with
    | some d => Use.acts dev l d
    | none => none

/-- The use neither accepts an interrupt nor writes to channel `k`. -/
def Use.spares (s : Ctc W D) (k : Fin 4) : Use → Prop
  | .ack .. => False
  | .write port _ _ => s.selects port ≠ some k
  | _ => True

/-- By how much a use sets the clock back. -/
def Use.back : Use → Nat
  | .nextSecond delta => delta
  | _ => 0

theorem spares_congr {s s' : Ctc W D} (h : s'.ports = s.ports) {k : Fin 4} {u : Use} (hu : u.spares s k) :
    u.spares s' k := by
  cases u <;> try exact hu
  show s'.selects _ ≠ some k
  rw [Ctc.ports_selects h]
  exact hu

theorem act_owes {k : Fin 4} {n : U8} {z : Nat} {s s' : Ctc W D} {u : Use} (ho : Owes s k n z)
    (hu : u.spares s k) (h : u.act (Ctc.device t dev) s = some s') :
    Owes s' k n (z - u.back) ∧ s'.ports = s.ports := by
  cases u with
  | ask ts =>
    simp only [Use.act, Ctc.device, Ctc.isIrq, Option.map_eq_some_iff] at h
    obtain ⟨⟨b, s1⟩, h, e⟩ := h
    cases e
    split at h
    · cases h; exact ⟨ho, rfl⟩
    · simp only [Option.bind_eq_bind, Option.bind_eq_some_iff] at h
      obtain ⟨s2, hs2, h⟩ := h
      have := (processChannels_owes ho hs2).1
      split at h
      · cases h; exact ⟨this, (processChannels_ch hs2).1⟩
      · simp only [Option.bind_eq_some_iff] at h
        obtain ⟨⟨b, d⟩, hd, h⟩ := h
        cases h
        exact ⟨this.congr (by match k with | 0 => rfl | 1 => rfl | 2 => rfl | 3 => rfl) rfl,
          (processChannels_ch hs2).1⟩
  | ack pc ts => exact hu.elim
  | reti pc ts =>
    simp only [Use.act, Ctc.device, Ctc.reti] at h
    split at h
    · cases h
      exact ⟨ho.congr (by match k with | 0 => rfl | 1 => rfl | 2 => rfl | 3 => rfl) rfl, rfl⟩
    · simp only [Option.map_eq_some_iff] at h
      obtain ⟨d, hd, rfl⟩ := h
      exact ⟨ho.congr (by match k with | 0 => rfl | 1 => rfl | 2 => rfl | 3 => rfl) rfl, rfl⟩
  | m1 ts =>
    simp only [Use.act, Ctc.device, Ctc.m1, Option.bind_eq_bind, Option.bind_eq_some_iff] at h
    obtain ⟨s1, hs1, d, hd, h⟩ := h
    cases h
    exact ⟨(processChannels_owes ho hs1).1.congr (by match k with | 0 => rfl | 1 => rfl | 2 => rfl | 3 => rfl) rfl,
      (processChannels_ch hs1).1⟩
  | frameEnd ts =>
    simp only [Use.act, Ctc.device, Ctc.frameEnd, Option.bind_eq_bind, Option.bind_eq_some_iff] at h
    obtain ⟨s1, hs1, d, hd, h⟩ := h
    cases h
    exact ⟨(processChannels_owes ho hs1).1.congr (by match k with | 0 => rfl | 1 => rfl | 2 => rfl | 3 => rfl) rfl,
      (processChannels_ch hs1).1⟩
  | nextSecond delta =>
    obtain ⟨h1, h2, -⟩ := nextSecond_owes ho h
    exact ⟨h1, h2⟩
  | read port ts =>
    simp only [Use.act, Ctc.device, Option.map_eq_some_iff] at h
    obtain ⟨⟨v, s1⟩, h, e⟩ := h
    cases e
    exact readIo_owes ho h
  | write port data ts =>
    simp only [Use.act, Ctc.device, Option.map_eq_some_iff] at h
    obtain ⟨⟨v, s1⟩, h, e⟩ := h
    cases e
    exact writeIo_owes ho hu h

theorem acts_owes {k : Fin 4} {n : U8} : ∀ (l : List Use) {z : Nat} {s s' : Ctc W D}, Owes s k n z →
    (∀ u ∈ l, u.spares s k) → Use.acts (Ctc.device t dev) l s = some s' →
      Owes s' k n (z - (l.map Use.back).sum)
  | [], z, s, s', ho, _, h => by cases h; exact ho
  | u :: l, z, s, s', ho, hu, h => by
    simp only [Use.acts] at h
    split at h
    · rename_i s1 h1
      obtain ⟨i1, i2⟩ := act_owes ho (hu u List.mem_cons_self) h1
      have := acts_owes l i1 (fun v hv => spares_congr i2 (hu v (List.mem_cons_of_mem _ hv))) h
      rw [List.map_cons, List.sum_cons, ← Nat.sub_sub]
      exact this
    · cases h

/-- **C58** (partial). Take a timer with its interrupt enabled that will get to zero at `z` and that the chip means to
look at not later than then. After any uses of the chip that neither accept an interrupt nor write to this channel, the
chip asks for an interrupt when it is asked at `z` or later, unless its interrupt is being served: skipping the channels
until the times they have announced loses nothing. The full claim is that this holds for every timer; it fails for
those that are started while the chip does not mean to look at any channel soon (`C58_refuted_late`). -/
theorem C58_on_time_partial {k : Fin 4} {n : U8} {a z ts : Nat} {l : List Use} {s s' s'' : Ctc W D} {b : Bool}
    (hc : Ticks (s.ch k) n a z) (he : (s.ch k).intsEnabled = true) (hh : s.hint ≤ z) (hl : ∀ u ∈ l, u.spares s k)
    (h : Use.acts (Ctc.device t dev) l s = some s') (hi : s'.ieo = false) (hz : z ≤ ts + (l.map Use.back).sum)
    (e : (Ctc.device t dev).isIrq ts s' = some (b, s'')) : b = true := by
  have ho := acts_owes l ⟨he, Or.inr ⟨a, hc, hh⟩⟩ hl h
  simp only [Ctc.device, Ctc.isIrq, hi, Bool.false_eq_true, if_false, Option.bind_eq_bind, Option.bind_eq_some_iff] at e
  obtain ⟨s1, hs1, e⟩ := e
  have hk := (processChannels_owes ho hs1).2 (by omega)
  have : (s1.ch0.intActive || s1.ch1.intActive || s1.ch2.intActive || s1.ch3.intActive) = true := by
    match k, hk with
    | 0, hk => simp [show s1.ch0.intActive = true from hk]
    | 1, hk => simp [show s1.ch1.intActive = true from hk]
    | 2, hk => simp [show s1.ch2.intActive = true from hk]
    | 3, hk => simp [show s1.ch3.intActive = true from hk]
  rw [if_pos this] at e
  cases e
  rfl

/-- **C58.** Looking at the channels makes the hypothesis hold for each running timer. -/
theorem C58_looked {k : Fin 4} {n : U8} {a z ts : Nat} {s s' : Ctc W D} (hc : Ticks (s.ch k) n a z)
    (hh : s.hint ≤ ts) (h : s.processChannels t ts = some s') :
    ∃ a', Ticks (s'.ch k) n a' (nextZero z (period n (s.ch k).prescaler.prescale) ts) ∧
      s'.hint ≤ nextZero z (period n (s.ch k).prescaler.prescale) ts := by
  obtain ⟨-, -, ⟨h, -⟩ | ⟨-, h⟩⟩ := processChannels_ch h
  · omega
  · obtain ⟨w, w', hp, hle⟩ := h k
    unfold Ctc.processChannel at hp
    split at hp
    · obtain ⟨i1, -, -⟩ := process_ticks hc ts hp
      have : nextZero z (period n (s.ch k).prescaler.prescale) (max a ts) =
          nextZero z (period n (s.ch k).prescaler.prescale) ts := by
        have := hc.later
        by_cases hta : ts ≤ a
        · rw [Nat.max_eq_left hta, nextZero_lt this, nextZero_lt (by omega)]
        · rw [Nat.max_eq_right (by omega)]
      rw [this] at i1
      exact ⟨_, i1, Nat.le_trans hle i1.hint⟩
    · rename_i hn
      simp only [Bool.or_eq_true, decide_eq_true_eq, not_or, beq_iff_eq] at hn
      simp only [Option.some.injEq, Prod.mk.injEq] at hp
      obtain ⟨hp, -⟩ := hp
      have := hc.hint
      rw [← hp] at hle ⊢
      rw [nextZero_lt (by omega)]
      exact ⟨a, hc, Nat.le_trans hle this⟩

/-- A program at 4 MHz, with the external clock of 10 kHz: right after a look at the channels it starts timer 0 with
prescaler 16, the constant given, and its interrupt. -/
def startLate (n : U8) : Option (Chain 4 Unit Unit) := do
  let dev := board 1000 4 (fun _ => (none, ())) fun _ _ => (true, ())
  let s ← Chain.new 4 400 () ()
  let s ← dev.reset 0 s
  let s ← dev.m1 4 s
  let (_, s) ← dev.writeIo 0x04#16 0x87#8 15 s
  let s ← dev.m1 20 s
  let (_, s) ← dev.writeIo 0x04#16 n 31 s
  return s

/-- **C58 is refuted.** The timer is started with constant 4 and gets to zero at 96, but at 100 and even at 199 the chip
does not ask for an interrupt: it does not look at its channels before the next edge of the external clock, at 200. -/
theorem C58_refuted_late : (do
    let dev := board 1000 4 (fun _ => (none, ())) fun _ _ => (true, ())
    let s ← startLate 4
    let (b100, s) ← dev.isIrq 100 s
    let (b199, s) ← dev.isIrq 199 s
    let (b200, s) ← dev.isIrq 200 s
    return (s.ch0.restart, s.ch0.intsEnabled, b100, b199, b200)) = some (some 4#8, true, false, false, true) := by
  decide +kernel

/-- **C58 is refuted.** With constant 1 more zeros have passed until then than the collector of pulses has room for, and
the emulator panics, although it looks at the devices all the time. -/
theorem C58_refuted_panic : (do
    let dev := board 1000 4 (fun _ => (none, ())) fun _ _ => (true, ())
    let s ← startLate 1
    let s ← dev.m1 100 s
    return s.ch0.restart) = some (some 1#8) ∧ (do
    let dev := board 1000 4 (fun _ => (none, ())) fun _ _ => (true, ())
    let s ← startLate 1
    let s ← dev.m1 100 s
    let s ← dev.m1 200 s
    return s.ch0.restart) = none := by
  constructor <;> decide +kernel

/-- **C58 is refuted.** The purge of the external clock is to remove all edges before the given time, but it removes at
most one: after a purge at time 100, of a clock with an edge every 5 T-states, the next rising edge is that of time 15. -/
theorem C58_refuted_purge :
    let a : CtcActive 4 := { hclock := 5, periodTs := 0, edgeHigh := false, next := .new 4 }
    ((a.purge 100).bind fun (_, a) => (a.nextClkTrg true 100).map Prod.fst) = some (.ok 15) := by
  rfl

/-- A program at 100 kHz, with an external clock of 100 Hz, that as the first thing after the start of the computer, when
the clock shows one second (`clock.rs` 28-30, `runner.rs` 89-97), starts counter 0 with the constant given, and its
interrupt. -/
def startCounter (n : U8) : Option (Chain 4 Unit Unit) := do
  let dev := board 1000 4 (fun _ => (none, ())) fun _ _ => (true, ())
  let s ← Chain.new 4 1000 () ()
  let s ← dev.reset 100000 s
  let s ← dev.m1 100004 s
  let (_, s) ← dev.writeIo 0x04#16 0xD7#8 100015 s
  let s ← dev.m1 100019 s
  let (_, s) ← dev.writeIo 0x04#16 n 100030 s
  return s

/-- **C58 is refuted.** The edges of the second before the computer was started are not gone, although there was no such
second: the counter is to count 90 edges, which takes 0.9 seconds, but is at zero at once, and asks for an interrupt. -/
theorem C58_refuted_stale : (do
    let dev := board 1000 4 (fun _ => (none, ())) fun _ _ => (true, ())
    let s ← startCounter 90
    let (b, s) ← dev.isIrq 100030 s
    return (s.ch0.restart, b)) = some (some 90#8, true) := by
  decide +kernel

/-- The hypotheses of `C58_on_time_partial` are met: after a look at the same timer its interrupt comes in time. -/
example : (do
    let dev := board 1000 4 (fun _ => (none, ())) fun _ _ => (true, ())
    let s ← startLate 4
    let s ← dev.m1 200 s
    let (_, s) ← dev.irqData 0x1000#16 206 s
    let s ← Use.acts dev [.m1 210, .reti 0x20#16 214, .m1 220] s
    return (s.ch0.lastTs, s.hint, (dev.isIrq 223 s).map Prod.fst, (dev.isIrq 224 s).map Prod.fst)) =
  some (some 210, 224, some false, some true) := by decide +kernel

end Z80.Ral
