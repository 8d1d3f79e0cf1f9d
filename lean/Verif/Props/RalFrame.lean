import Verif.Proofs.RalFrame
import Verif.Model.RalBoard

/-!
# C61: the example computer keeps to its schedule

`FrameRunner::step` emulates a frame of `frame` T-states. The theorems are about all programs, processor states and
devices. A device that panics ends the program, here it falls silent and the bus with it.
-/

namespace Z80.Ral
open Spec Spec.Ral

theorem prompt_terminator : Prompt terminator := by
  refine ⟨fun port ts d v ws d' h => ?_, fun port data ts d ws d' h => ?_, fun pc ts d v ws d' h => ?_⟩ <;>
    cases h <;> rfl

theorem Pio.prompt {A B D : Type} (a : PioDev A) (b : PioDev B) {dev : Device D} (hd : Prompt dev) :
    Prompt (Pio.device a b dev) := by
  refine ⟨fun port ts d v ws d' h => ?_, fun port data ts d ws d' h => ?_, fun pc ts d v ws d' h => ?_⟩
  · simp only [Pio.device, Pio.readIo] at h
    repeat' split at h
    all_goals
      obtain ⟨x, h1, h2⟩ := Option.map_eq_some_iff.1 h
      obtain ⟨y, z⟩ := x
      cases h2
    · rfl
    · rfl
    · exact hd.read _ _ _ _ _ _ h1
  · simp only [Pio.device, Pio.writeIo] at h
    repeat' split at h
    all_goals
      obtain ⟨x, h1, h2⟩ := Option.map_eq_some_iff.1 h
      cases h2
    all_goals first | rfl | exact hd.write _ _ _ _ _ _ h1
  · simp only [Pio.device, Pio.irqData] at h
    repeat' split at h
    · cases h; rfl
    · cases h; rfl
    · obtain ⟨x, h1, h2⟩ := Option.map_eq_some_iff.1 h
      obtain ⟨y, z⟩ := x
      cases h2
      exact hd.ack _ _ _ _ _ _ h1

theorem Ctc.prompt {W D : Type} (t : Triggers W) {dev : Device D} (hd : Prompt dev) : Prompt (Ctc.device t dev) := by
  refine ⟨fun port ts d v ws d' h => ?_, fun port data ts d ws d' h => ?_, fun pc ts d v ws d' h => ?_⟩
  · simp only [Ctc.device, Ctc.readIo] at h
    repeat' split at h
    all_goals
      obtain ⟨x, h1, h2⟩ := Option.map_eq_some_iff.1 h
      obtain ⟨y, z⟩ := x
      cases h2
    all_goals first | rfl | exact hd.read _ _ _ _ _ _ h1
  · simp only [Ctc.device, Ctc.writeIo] at h
    repeat' split at h
    all_goals
      obtain ⟨x, h1, h2⟩ := Option.map_eq_some_iff.1 h
      cases h2
    all_goals first | rfl | exact hd.write _ _ _ _ _ _ h1
  · simp only [Ctc.device, Ctc.irqData] at h
    repeat' split at h
    all_goals first | (cases h; rfl) | skip
    obtain ⟨x, h1, h2⟩ := Option.map_eq_some_iff.1 h
    obtain ⟨y, z⟩ := x
    cases h2
    exact hd.ack _ _ _ _ _ _ h1

/-- C61: the devices of the computer never ask for wait states. -/
theorem C61_prompt (bound n : Nat) {I O : Type} (slurp : I → Option U8 × I) (flush : U8 → O → Bool × O) :
    Prompt (board bound n slurp flush) :=
  Ctc.prompt _ (Pio.prompt _ _ prompt_terminator)

variable {Q D : Type} [FlavourSpec Q] {dev : Device D}

/-- C61: whatever the processor runs, next to any devices that ask for no wait states, a started computer emulates any
number of frames, interrupted by any number of resets and by non-maskable interrupts, without a panic of the runner.
The T-states reported by all calls together are those scheduled for the frames, plus at most 22 for an unfinished
instruction, plus 11 for every non-maskable interrupt after the last frame: whatever one frame takes too much, the next
ones take less. The 32-bit clock and the limit never wrap around. -/
theorem C61_pace (hd : Prompt dev) {n k most : Nat} (m : Machine Q D) (l : List Act)
    (hshort : m.frame ≤ m.hz) (hfew : 11 * most ≤ m.frame) (hsecond : 22 + 11 * most ≤ m.hz)
    (hroom : 2 * m.hz + m.frame + 22 + 11 * most < 2 ^ 32) (hn : m.frame + 23 ≤ 4 * n) (hk : m.frame + 4 ≤ 4 * k)
    (hl : Sparse most 0 l) :
    ∃ total m', (m.start dev).acts dev n k l = some (total, m') ∧
      frames l * m.frame ≤ total ∧ total ≤ frames l * m.frame + 22 + 11 * since 0 l ∧
      m'.limit ≤ 2 * m.hz + m.frame ∧ m'.cur.toNat = m'.limit + (total - frames l * m.frame) := by
  have hcur : (m.start dev).cur.toNat = m.hz := by
    show (BitVec.ofNat 32 m.hz).toNat = m.hz
    rw [BitVec.toNat_ofNat, Nat.mod_eq_of_lt (by omega)]
  have hlim : (m.start dev).limit = m.hz := hcur
  obtain ⟨ds, m', h1, ⟨h2, h3, h4, h5, h6, h7, h8⟩, h9, h10, h11⟩ := acts_pace hd (hz := m.hz) hn hk l 0 (m.start dev)
    rfl rfl ⟨by omega, by omega, by show (m.start dev).limit ≤ 2 * m.hz + m.frame; omega, hshort, hsecond, hroom, hfew⟩
    hl
  rw [hcur, hlim] at h11
  exact ⟨ds, m', h1, by omega, by omega, by omega, by omega⟩

/-- C61, in particular: every single frame of a computer that is left alone ends within 22 T-states of its time. -/
theorem C61_frames (hd : Prompt dev) {n k : Nat} (m : Machine Q D) (f : Nat)
    (hshort : m.frame ≤ m.hz) (hsecond : 22 ≤ m.hz) (hroom : 2 * m.hz + m.frame + 22 < 2 ^ 32)
    (hn : m.frame + 23 ≤ 4 * n) (hk : m.frame + 4 ≤ 4 * k) :
    ∃ total m', (m.start dev).acts dev n k (List.replicate f .step) = some (total, m') ∧
      f * m.frame ≤ total ∧ total ≤ f * m.frame + 22 := by
  have h1 : ∀ f, frames (List.replicate f .step) = f ∧ since 0 (List.replicate f .step) = 0 ∧
      Sparse 0 0 (List.replicate f .step) := by
    intro f
    induction f with
    | zero => exact ⟨rfl, rfl, Nat.le_refl _⟩
    | succ f ih => exact ⟨congrArg Nat.succ ih.1, ih.2.1, Nat.le_refl _, ih.2.2⟩
  obtain ⟨total, m', j1, j2, j3, -⟩ := C61_pace hd (most := 0) m (List.replicate f .step) hshort (by omega) (by omega)
    (by omega) hn hk (h1 f).2.2
  rw [(h1 f).1] at j2 j3
  rw [(h1 f).2.1] at j3
  exact ⟨total, m', j1, j2, j3⟩

/-- A computer as `Ral1243::new` makes it. -/
theorem new_started {I O : Type} {ext fps n kilos hz : Nat} {dev : Device (Chain n I O)} {rom : List U8}
    {exroms : List (Nat × Block)} {stream : I} {sink : O} {m : Machine Q (Chain n I O)}
    (h : Machine.new ext fps n dev rom exroms kilos hz stream sink = some m) :
    ∃ b : Machine Q (Chain n I O), m = b.start dev ∧ b.hz = hz ∧ b.frame = hz / fps ∧ hz ≥ ext * 10 ∧ 0 < fps := by
  unfold Machine.new clockIsValid at h
  simp only [Option.bind_eq_bind] at h
  split at h
  · split at h
    · rw [Option.bind_some] at h
      split at h
      · rename_i hv
        simp only [Option.bind_eq_some_iff] at h
        obtain ⟨mem, _, ⟨_, mem'⟩, _, chain, _, h⟩ := h
        have hb := hv.1
        simp only [Bool.and_eq_true, decide_eq_true_eq] at hb
        cases h
        exact ⟨_, rfl, rfl, rfl, hb.2, hv.2⟩
      · cases h
    · cases h
  · cases h

/-- C61: the computer with its default clocks (`EXT_HZ = 10_000`, `FRAME_HZ = 500`), any processor clock up to 2 GHz,
any ROMs and any streams runs any program for any number of frames on schedule, with up to 18 non-maskable interrupts
in every frame. -/
theorem C61_default {I O : Type} {bound n kilos hz : Nat} {slurp : I → Option U8 × I} {flush : U8 → O → Bool × O}
    {rom : List U8} {exroms : List (Nat × Block)} {stream : I} {sink : O} {m : Machine Q (Chain n I O)}
    (h : Machine.new 10000 500 n (board bound n slurp flush) rom exroms kilos hz stream sink = some m)
    (hhz : hz ≤ 2000000000) (l : List Act) (hl : Sparse 18 0 l) :
    ∃ total m', m.acts (board bound n slurp flush) (hz / 500) (hz / 500) l = some (total, m') ∧
      frames l * (hz / 500) ≤ total ∧ total ≤ frames l * (hz / 500) + 22 + 11 * since 0 l := by
  obtain ⟨b, rfl, rfl, h2, h3, _⟩ := new_started h
  obtain ⟨total, m', j1, j2, j3, -⟩ := C61_pace (C61_prompt bound n slurp flush) (n := b.hz / 500) (k := b.hz / 500)
    (most := 18) b l (by omega) (by omega) (by omega) (by omega) (by omega) (by omega) hl
  rw [h2] at j2 j3
  exact ⟨total, m', j1, j2, j3⟩

/-- The bound on the clock matters: `clock_is_valid` accepts 2.1475 GHz, but the first frame panics. -/
theorem C61_fast (n k : Nat) (m : Machine Q D) (h : m.hz = 2147500000) :
    clockIsValid 10000 2147500000 = some true ∧ (m.start dev).step dev n k = none := by
  refine ⟨by decide, ?_⟩
  have : (m.start dev).wrapSecond dev = none := by
    unfold Machine.wrapSecond
    rw [if_neg]
    show ¬ 2 * m.hz < 2 ^ 32
    omega
  unfold Machine.step
  rw [this]
  rfl

/-! ### Examples -/

/-- The default computer exists. -/
example : (Machine.new (Q := NMOS) 10000 500 4 (board 9 4 (fun n : Nat => (none, n)) (fun _ (n : Nat) => (true, n)))
    [0x76] [] 16 100000 0 0).isSome = true := by decide +kernel

example : Sparse 18 0 [.step, .nmi, .nmi, .step, .reset, .nmi, .step, .nmi] := by simp [Sparse]

example : frames [.step, .nmi, .nmi, .step, .reset, .nmi, .step, .nmi] = 3 ∧
    since 0 [.step, .nmi, .nmi, .step, .reset, .nmi, .step, .nmi] = 1 := by decide

end Z80.Ral
