import Verif.Proofs.RalRun
import Verif.Props.RalMemory

/-!
# C62: what a program on the example computer must not do

The emulator of the example computer panics when a program asks for too much of its devices. The theorems say what is
too much: all other programs run for any number of frames, next to any streams, without a panic.
-/

namespace Z80.Ral
open Spec Spec.Ral

section
variable {Q : Type} [FlavourSpec Q] {n : Nat} {I O : Type} {slurp : I → Option U8 × I} {flush : U8 → O → Bool × O}

theorem chain_new {H K G now period : Nat} {stream : I} {sink : O} {s : Chain n I O} (hK : 0 < period / 2 ∧ period / 2 ≤ K)
    (h : Chain.new n period stream sink = some s) : Safe H K G now now s ∧ Fits now (fun _ => 0) s := by
  unfold Chain.new at h
  simp only [Option.bind_eq_bind, Option.bind_eq_some_iff] at h
  obtain ⟨p, _, c0, h0, c2, h2, h⟩ := h
  unfold CtcActive.new at h0 h2
  by_cases hp : period % 2 = 0
  · rw [if_pos hp] at h0 h2
    cases h0
    cases h2
    unfold Ctc.withPortBits at h
    split at h
    · cases h
      have hc : ∀ A low lo x, Chan A H low lo now x CtcChannel.new := fun A low lo x =>
        ⟨by decide, nofun, fun _ => nofun, nofun⟩
      have hw : Wired K now ({ hclock := period / 2, periodTs := 0, edgeHigh := false, next := .new n } : CtcActive n) :=
        ⟨hK, Nat.zero_le _, Nat.zero_le _, nofun⟩
      refine ⟨⟨fun k => ?_, Nat.zero_le _, Nat.zero_le _, hw, hw⟩, Nat.zero_le _, Nat.zero_le _⟩
      match k with
      | 0 | 1 | 2 | 3 => exact hc _ _ _ _
    · cases h
  · rw [if_neg hp] at h0
    cases h0

theorem owned_attach : ∀ (l : List (Nat × Block)) (held : List Nat), (∀ x ∈ l, x.1 ∉ held) → (l.map Prod.fst).Nodup →
    Owned held (l.map fun x => .attach x.1 x.2)
  | [], _, _, _ => trivial
  | x :: l, held, h1, h2 => by
    obtain ⟨h3, h4⟩ := List.nodup_cons.1 h2
    refine ⟨h1 x (List.mem_cons_self ..), owned_attach l _ (fun y hy => ?_) h4⟩
    intro hm
    rcases List.mem_cons.1 hm with e | e
    · exact h3 (List.mem_map.2 ⟨y, hy, e⟩)
    · exact h1 y (List.mem_cons_of_mem _ hy) e

theorem memory_new {rom : List U8} {kilos : Nat} {exroms : List (Nat × Block)} {m m' : Memory} {x : Nat}
    (h : Memory.new rom kilos = some m) (hx : (exroms.map Prod.fst).Nodup) (ha : m.attachExroms exroms = some (x, m')) :
    ∃ s, Maps m' s := by
  obtain ⟨h1, h2⟩ := maps_new rom kilos m h
  have h0 : m.exroms = [] := by
    unfold Memory.new at h
    repeat' split at h
    all_goals first | (cases h; rfl) | cases h
  obtain ⟨xs, m2, e1, e2⟩ := C55_attach_all m exroms (by rw [h0]; decide)
  rw [ha] at e2
  cases e2
  have ho : Owned m.held ((exroms.take (256 - m.exroms.length)).map fun x => .attach x.1 x.2) := by
    rw [h2]
    refine owned_attach _ _ (fun _ _ => List.not_mem_nil) ?_
    rw [List.map_take]
    exact hx.sublist (List.take_sublist _ _)
  obtain ⟨s', _, hs⟩ := (Maps.steps _ h1 ho).2 xs m' e1
  exact ⟨s', hs⟩

/-- C62: a new computer, with any ROM and EX-ROMs in different boxes, any streams, and any clocks that keep within the
given bounds. Whatever program it runs, for any number of frames, interrupted by resets and by non-maskable interrupts:
if at every moment of all that the program asks nothing of the devices that they cannot do, then nothing panics. The
clause `m'.bus.isSome` says it of the devices and the memory. (`bound` is how far the model looks for an edge of the
external clock; the loop in the code has no bound.) -/
theorem C62_new_partial {bound ext fps kilos hz most f k : Nat} {rom : List U8} {exroms : List (Nat × Block)}
    {stream : I} {sink : O} {m : Machine Q (Chain n I O)} (H : Nat)
    (h : Machine.new ext fps n (board bound n slurp flush) rom exroms kilos hz stream sink = some m)
    (hx : (exroms.map Prod.fst).Nodup) (hbig : 2 ^ 32 ≤ bound) (hlong : 65536 ≤ H) (hhalf : hz / ext / 2 ≤ H)
    (hsecond : H + hz / fps + 23 + 22 * most ≤ hz) (hfew : 11 * most ≤ hz / fps)
    (hframe : (H + 2 * (hz / fps + 22 + 11 * most) + 1) * 16 < 2 ^ 32)
    (hroom : 2 * (hz + hz / fps + 22 + 11 * most + hz / ext / 2) + 65539 < 2 ^ 32)
    (hf : hz / fps + 23 ≤ 4 * f) (hk : hz / fps + 4 ≤ 4 * k) (l : List Act) (hl : Sparse most 0 l)
    (hb : ∀ x ∈ watch (board bound n slurp flush) f k l m, Behaves x) :
    ∃ total m', m.acts (board bound n slurp flush) f k l = some (total, m') ∧ m'.bus.isSome = true := by
  unfold Machine.new at h
  simp only [Option.bind_eq_bind] at h
  split at h
  · rename_i hv
    obtain ⟨valid, hval, h⟩ := Option.bind_eq_some_iff.1 h
    split at h
    · rename_i hfps
      simp only [Option.bind_eq_some_iff] at h
      obtain ⟨mem, e1, ⟨x, mem'⟩, e2, chain, e3, h⟩ := h
      simp only at h
      cases h
      obtain ⟨s, hs⟩ := memory_new e1 hx e2
      have hcur : (BitVec.ofNat 32 hz).toNat = hz := by rw [BitVec.toNat_ofNat, Nat.mod_eq_of_lt (by omega)]
      have hdiv : hz / fps ≤ hz := Nat.div_le_self _ _
      have hpos := Nat.zero_le (hz / ext)
      have hpos : 0 < hz / ext / 2 := by
        unfold clockIsValid at hval
        split at hval
        · rename_i hext
          cases hval
          have h10 : hz ≥ ext * 10 := by
            have := hfps.1
            simp only [Bool.and_eq_true, decide_eq_true_eq] at this
            exact this.2
          have : 10 ≤ hz / ext := (Nat.le_div_iff_mul_le hext.1).2 (by omega)
          omega
        · cases hval
      obtain ⟨k1, k2⟩ := chain_new (H := H) (G := hz / fps + 22 + 11 * most) (now := hz) ⟨hpos, Nat.le_refl _⟩ e3
      obtain ⟨d, e4, k3⟩ := reset_safe (bound := bound) (slurp := slurp) (flush := flush) hbig (G := hz / fps + 22 + 11 * most)
        ⟨hlong, hhalf, Nat.le_refl _, by omega, by omega, by omega⟩ k1 k2
      refine acts_safe hbig (F := hz / fps) (hz := hz) (most := most) (H := H) (K := hz / ext / 2)
        hlong hhalf (by omega) rfl (by omega) (by omega) hf hk l 0 _ rfl rfl ?_ hl ?_ hb
      · refine ⟨?_, ?_, ?_, hdiv, ?_, ?_, hfew⟩
        all_goals simp only [Machine.start, hcur]
        all_goals omega
      · refine ⟨hz, { mask := MEMORY_PORT_MASK, bits := MEMORY_PORT_BITS, device := d, memory := mem' }, ?_,
          ⟨?_, s, hs⟩, ?_, ?_, by omega⟩
        · simp only [Machine.start, hcur, Boards.onDevice, Option.bind_some, e4, Option.map_some]
        all_goals simp only [Machine.start, hcur]
        · exact k3
        all_goals omega
    · cases h
  · cases h

/-- C62: the computer with its default clocks and any processor clock up to 2 GHz. -/
theorem C62_default_partial {bound kilos hz : Nat} {rom : List U8} {exroms : List (Nat × Block)} {stream : I} {sink : O}
    {m : Machine Q (Chain n I O)}
    (h : Machine.new 10000 500 n (board bound n slurp flush) rom exroms kilos hz stream sink = some m)
    (hx : (exroms.map Prod.fst).Nodup) (hbig : 2 ^ 32 ≤ bound) (hhz : hz ≤ 2000000000) (l : List Act) (hl : Sparse 18 0 l)
    (hb : ∀ x ∈ watch (board bound n slurp flush) (hz / 500) (hz / 500) l m, Behaves x) :
    ∃ total m', m.acts (board bound n slurp flush) (hz / 500) (hz / 500) l = some (total, m') ∧
      m'.bus.isSome = true := by
  obtain ⟨_, _, _, _, h3, _⟩ := new_started h
  exact C62_new_partial (most := 18) (if hz / 10000 / 2 ≤ 65536 then 65536 else hz / 10000 / 2) h hx hbig
    (by split <;> omega) (by split <;> omega) (by split <;> omega) (by omega) (by split <;> omega) (by omega) (by omega)
    (by omega) l hl hb

end

/-! ### What does panic -/

/-- A computer with 16 kilobytes whose input is empty and whose output takes everything. -/
abbrev exampleBoard : Device (Chain 4 Unit Unit) := board (2 ^ 32) 4 (fun s => (none, s)) (fun _ s => (true, s))

@[inherit_doc exampleBoard] def example1243 (ext fps hz : Nat) (rom : List U8) : Option (Machine NMOS (Chain 4 Unit Unit)) :=
  Machine.new ext fps 4 exampleBoard rom [] 16 hz () ()

/-- What is left of the boards after some frames, if the runner does not panic. -/
def Machine.boardsAfter (m : Machine NMOS (Chain 4 Unit Unit)) (f k : Nat) : Option Bool :=
  (m.acts exampleBoard k k (List.replicate f .step)).map fun x => x.2.bus.isSome

/-- C62 does not hold of all programs. This one has channel 0 of the counter/timer fire every 16 T-states and waits:
```
DI
LD A, 07h
OUT (4), A
LD A, 1
OUT (4), A
HALT
```
The collector of pulses behind the channel has 4 cells. In the first frame of 200 T-states it is full
(`ctc_trigger.rs` 117-125). -/
theorem C62_refuted_pulses : ∃ m, example1243 10000 500 100000
    [0xF3, 0x3E, 0x07, 0xD3, 0x04, 0x3E, 0x01, 0xD3, 0x04, 0x76] = some m ∧ m.boardsAfter 1 200 = some false :=
  Option.map_eq_some_iff.1 (by decide +kernel)

/-- Nor does this one, that selects mode 2 for a parallel port: `LD A, 8Fh`, `OUT (9), A` (`pio.rs` 411). -/
theorem C62_refuted_mode : ∃ m, example1243 10000 500 100000 [0x3E, 0x8F, 0xD3, 0x09, 0x76] = some m ∧
    m.boardsAfter 1 200 = some false :=
  Option.map_eq_some_iff.1 (by decide +kernel)

/-- The bound on the clocks matters as well. `clock_is_valid` accepts 200 Hz for an external clock of 10 Hz, where the
longest time of a timer is more than a second. A program that starts such a timer and does nothing else makes the
computer panic after two seconds (`ctc.rs` 455). -/
theorem C62_refuted_slow : ∃ m, example1243 10 5 200
    [0xF3, 0x3E, 0x27, 0xD3, 0x07, 0x3E, 0x00, 0xD3, 0x07] = some m ∧
    m.boardsAfter 10 100 = some true ∧ m.boardsAfter 11 100 = some false := by
  obtain ⟨m, h1, h2⟩ := Option.map_eq_some_iff.1 (show (example1243 10 5 200
    [0xF3, 0x3E, 0x27, 0xD3, 0x07, 0x3E, 0x00, 0xD3, 0x07]).map
      (fun m => (m.boardsAfter 10 100, m.boardsAfter 11 100)) = some (some true, some false) by decide +kernel)
  exact ⟨m, h1, (Prod.mk.inj h2).1, (Prod.mk.inj h2).2⟩

/-- A call of the devices. -/
inductive Call where
  | reset (ts : Nat)
  | m1 (ts : Nat)
  | read (port : U16) (ts : Nat)
  | write (port : U16) (data : U8) (ts : Nat)
  | frameEnd (ts : Nat)
  | nextSecond (delta : Nat)

/-- What a call does. -/
def Call.on {D : Type} (dev : Device D) (d : D) : Call → Option D
  | .reset ts => dev.reset ts d
  | .m1 ts => dev.m1 ts d
  | .read port ts => (dev.readIo port ts d).map Prod.snd
  | .write port data ts => (dev.writeIo port data ts d).map Prod.snd
  | .frameEnd ts => dev.frameEnd ts d
  | .nextSecond delta => dev.nextSecond delta d

/-- Calls one after another. -/
def calls {D : Type} (dev : Device D) : List Call → D → Option D
  | [], d => some d
  | c :: l, d => match c.on dev d with
    | none => none
    | some d => calls dev l d

/-- Instructions of 20 T-states that leave the devices alone. -/
def waste : Nat → Nat → List Call
  | 0, _ => []
  | k + 1, ts => .m1 ts :: waste k (ts + 20)

/-- The calls made by a program at a clock of 100 kHz with an external clock of 100 Hz: channel 1 is a timer that waits
for its trigger, channel 0 a timer of 16 T-states, which the program reads when it just got to zero, and stops. More than
two seconds later the program reads channel 1, at the end of a frame and of a second. -/
def stalled : List Call :=
  [.reset 100000, .m1 100004, .write 5 0x1F 100010, .m1 100020, .write 5 0 100030, .m1 100040, .write 4 0x07 100050,
    .m1 100060, .write 4 1 100070, .m1 100080, .read 4 100088, .m1 100092, .write 4 0x03 100099] ++
  waste 5000 100110 ++ [.frameEnd 200095, .nextSecond 100000] ++
  waste 5000 100110 ++ [.frameEnd 200095, .nextSecond 100000] ++
  waste 4994 100110 ++ [.m1 200003, .read 5 200010, .frameEnd 200010]

theorem stalled_result : ((Chain.new 4 1000 () ()).bind fun s => (calls exampleBoard stalled s).map fun s' =>
    (s'.ch1.lastTs, (exampleBoard.nextSecond 100000 s').isNone)) = some (some 1, true) := by
  decide +kernel

/-- A timer behind a collector must not wait for its trigger, whatever the clocks. The pulse of channel 0 above is in
the collector, but channel 1 does not learn of it, because its own hint is the end of time (`ctc_trigger.rs` 164) and
nothing forces a look at it. The time of the pulse and the time since when the channel waits get to zero as the seconds
pass (`ctc_trigger.rs` 185-190, `ctc.rs` 458-460). Reading the channel then starts the timer at time 1, and the next
wrap of the second panics (`ctc.rs` 455). -/
theorem C62_refuted_wait : ∃ s s' : Chain 4 Unit Unit, Chain.new 4 1000 () () = some s ∧
    calls exampleBoard stalled s = some s' ∧ s'.ch1.lastTs = some 1 ∧ exampleBoard.nextSecond 100000 s' = none := by
  obtain ⟨s, h1, h⟩ := Option.bind_eq_some_iff.1 stalled_result
  obtain ⟨s', h2, h⟩ := Option.map_eq_some_iff.1 h
  obtain ⟨h3, h4⟩ := Prod.mk.inj h
  exact ⟨s, s', h1, h2, h3, Option.isNone_iff_eq_none.1 h4⟩

/-! ### Examples -/

/-- A program that asks nothing of the devices that they cannot do: channel 0 fires every 1024 T-states, channel 1
counts that, channel 2 is a timer that waits for the external clock, channel 3 is a timer with interrupts, and port B of
the parallel ports is written to. -/
def politeRom : List U8 :=
  [0xF3, 0x3E, 0x07, 0xD3, 0x04, 0x3E, 0x40, 0xD3, 0x04,  -- DI; channel 0: timer, 64 * 16 T-states
   0x3E, 0x57, 0xD3, 0x05, 0x3E, 0x02, 0xD3, 0x05,        -- channel 1: counter, 2
   0x3E, 0x0F, 0xD3, 0x06, 0x3E, 0x20, 0xD3, 0x06,        -- channel 2: timer, waits, 32 * 16 T-states
   0x3E, 0xA7, 0xD3, 0x07, 0xAF, 0xD3, 0x07,              -- channel 3: timer, 256 * 256 T-states, interrupts
   0x3E, 0x0F, 0xD3, 0x0B, 0x3E, 0x21, 0xD3, 0x0A,        -- port B: output
   0x18, 0xFE]                                            -- JR $

theorem polite_behaves : (example1243 1000 500 100000 politeRom).map (fun m =>
    (watch exampleBoard 200 200 [.step, .nmi, .step, .reset, .step] m).all fun x => decide (Behaves x)) = some true := by
  decide +kernel

example : ∃ m, example1243 1000 500 100000 politeRom = some m ∧
    ∀ x ∈ watch exampleBoard 200 200 [.step, .nmi, .step, .reset, .step] m, Behaves x := by
  obtain ⟨m, h1, h2⟩ := Option.map_eq_some_iff.1 polite_behaves
  exact ⟨m, h1, fun x hx => of_decide_eq_true (List.all_eq_true.1 h2 x hx)⟩

example {m : Machine NMOS (Chain 4 Unit Unit)} (h : example1243 1000 500 100000 politeRom = some m)
    (hb : ∀ x ∈ watch exampleBoard 200 200 [.step, .nmi, .step, .reset, .step] m, Behaves x) :
    ∃ total m', m.acts exampleBoard 200 200 [.step, .nmi, .step, .reset, .step] = some (total, m') ∧
      m'.bus.isSome = true :=
  C62_new_partial (most := 18) 65536 h (by decide) (by decide) (by decide) (by decide) (by decide) (by decide)
    (by decide) (by decide) (by decide) (by decide) _ ⟨by decide, by decide, by decide, Nat.zero_le 18⟩ hb

end Z80.Ral
