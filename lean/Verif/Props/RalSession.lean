import Verif.Proofs.RalSession

/-!
# C69: debugging keeps to the schedule

Frames, resets, non-maskable interrupts and the commands of the debugger in any order, for all programs, processor
states and devices.
-/

namespace Z80.Ral
open Spec Spec.Ral

variable {Q D : Type} {dev : Device D}

theorem Tally.trivial (dev : Device D) : Tally dev fun _ _ => True :=
  ⟨fun _ _ => ⟨⟩, fun _ _ => ⟨⟩, fun _ _ => ⟨⟩, fun _ _ => ⟨⟩⟩

/-- The count of a device that has not panicked. -/
def Shows (count : D → Nat) (k : Nat) (s : Option (Boards D)) : Prop := ∀ b, s = some b → count b.device = k

theorem shows_device {count : D → Nat} {f : D → Option D} {k k' : Nat} {s : Option (Boards D)} (h : Shows count k s)
    (hf : ∀ d d', f d = some d' → count d = k → count d' = k') : Shows count k' (Boards.onDevice f s) := by
  intro b hb
  obtain ⟨s, rfl, h1⟩ := Option.bind_eq_some_iff.1 hb
  obtain ⟨d, h2, rfl⟩ := Option.map_eq_some_iff.1 h1
  exact hf _ _ h2 (h s rfl)

theorem shows_answer {count : D → Nat} (hc : Counting dev count) {r : Req ralSig} {s s' : Boards D} {x : r.Ans}
    (h : Boards.answer dev r s = some (x, s')) : count s'.device = count s.device := by
  cases r with
  | readIo p t =>
    simp only [Boards.answer] at h
    split at h
    · cases h; rfl
    · obtain ⟨⟨v, d⟩, h1, h2⟩ := Option.map_eq_some_iff.1 h
      cases h2
      exact hc.readIo h1
  | writeIo p v t =>
    simp only [Boards.answer] at h
    split at h
    · cases h; rfl
    · obtain ⟨⟨v, d⟩, h1, h2⟩ := Option.map_eq_some_iff.1 h
      cases h2
      exact hc.writeIo h1
  | isIrq t =>
    obtain ⟨⟨v, d⟩, h1, h2⟩ := Option.map_eq_some_iff.1 h
    cases h2
    exact hc.isIrq h1
  | irqData pc t =>
    obtain ⟨⟨v, d⟩, h1, h2⟩ := Option.map_eq_some_iff.1 h
    cases h2
    exact hc.irqData h1
  | reti a t =>
    obtain ⟨d, h1, h2⟩ := Option.map_eq_some_iff.1 h
    cases h2
    exact hc.reti h1
  | readOpcode pc ir t =>
    obtain ⟨d, h1, h2⟩ := Option.bind_eq_some_iff.1 h
    obtain ⟨⟨v, mem⟩, -, h3⟩ := Option.bind_eq_some_iff.1 h2
    cases h3
    exact hc.m1 h1
  | readMem a t =>
    obtain ⟨v, -, h2⟩ := Option.map_eq_some_iff.1 h
    cases h2
    rfl
  | readMem16 a t =>
    obtain ⟨v, -, h2⟩ := Option.map_eq_some_iff.1 h
    cases h2
    rfl
  | readDebug a =>
    obtain ⟨v, -, h2⟩ := Option.map_eq_some_iff.1 h
    cases h2
    rfl
  | _ => cases h; rfl

theorem Tally.counting {count : D → Nat} (hc : Counting dev count) : Tally dev (Shows count) := by
  refine ⟨fun {k s} r h => ?_, fun t h => shows_device h fun d d' h1 h2 => ?_,
    fun t h => shows_device h fun d d' h1 h2 => ?_, fun t h => shows_device h fun d d' h1 h2 => ?_⟩
  · intro b hb
    unfold Boards.host at hb
    cases hs : s.bind (Boards.answer dev r) with
    | none =>
      rw [hs] at hb
      cases hb
    | some x =>
      obtain ⟨x, s'⟩ := x
      rw [hs] at hb
      cases hb
      obtain ⟨s, rfl, h1⟩ := Option.bind_eq_some_iff.1 hs
      rw [shows_answer hc h1]
      exact h s rfl
  · rw [hc.frameEnd h1, h2]
  · rw [hc.nextSecond h1, h2]
  · rw [hc.reset h1, h2]

/-- `withCount` counts. -/
theorem counting_withCount (dev : Device D) : Counting (withCount dev) Prod.snd := by
  constructor <;> intros <;> rename_i h <;> obtain ⟨x, -, h2⟩ := Option.map_eq_some_iff.1 h <;> cases h2 <;> rfl

theorem prompt_withCount (hd : Prompt dev) : Prompt (withCount dev) := by
  refine ⟨fun port ts d v ws d' h => ?_, fun port data ts d ws d' h => ?_, fun pc ts d v ws d' h => ?_⟩ <;>
    obtain ⟨⟨x, y⟩, h1, h2⟩ := Option.map_eq_some_iff.1 h <;> cases h2
  · exact hd.read _ _ _ _ _ _ h1
  · exact hd.write _ _ _ _ _ _ h1
  · exact hd.ack _ _ _ _ _ _ h1

variable [FlavourSpec Q]

theorem session_pace {P : Nat → Option (Boards D) → Prop} (hT : Tally dev P) (hd : Prompt dev) {n k most : Nat}
    (m : Machine Q D) (l : List Cmd) {search : List U16 → U16 → Machine.Found} (hs : Searches search)
    (hfew : 23 + 11 * most ≤ m.frame) (hshort : 4 * m.frame ≤ m.hz) (hroom : 2 * m.hz + 5 * m.frame < 2 ^ 32)
    (hn : m.frame + 23 ≤ 4 * n) (hk : m.frame + 4 ≤ 4 * k) (hl : Session most 0 l) (h0 : P 0 m.bus) :
    ∃ total m' ended, obeyAll dev search n k l (m.start dev) = some (total, m') ∧ P ended m'.bus ∧
      ended * m.frame ≤ total ∧ total ≤ (ended + 1) * m.frame + 22 + 11 * pending 0 l ∧
      m'.limit ≤ 2 * m.hz + 2 * m.frame ∧ m'.cur.toNat = m'.limit + (total - ended * m.frame) := by
  have hcur : (m.start dev).cur.toNat = m.hz := by
    show (BitVec.ofNat 32 m.hz).toNat = m.hz
    rw [BitVec.toNat_ofNat, Nat.mod_eq_of_lt (by omega)]
  have hlim : (m.start dev).limit = m.hz := hcur
  obtain ⟨total, m', ended, h1, ⟨h2, h3, h4, h5, h6, h7⟩, h8⟩ := obey_due (c := 0) (k := 0) (m := m.start dev) hT hd
    ⟨hfew, hshort, hroom⟩ hn hk hs l hl ⟨rfl, rfl, by omega, by omega, by omega, hT.reset _ h0⟩
  unfold Accounted at h8
  rw [hcur, hlim] at h8
  refine ⟨total, m', ended, h1, h7, by omega, ?_, h6, by omega⟩
  rw [Nat.add_mul, Nat.one_mul]
  omega

/-- C69: whatever the processor runs, next to any devices that ask for no wait states, a started computer obeys any
commands, of the runner and of the debugger, without a panic of either. The T-states reported add up to a whole number
of frames and what the clock is ahead of the limit, which is less than a frame, an instruction and 11 T-states for each
of the last non-maskable interrupts. The 32-bit clock and the limit never wrap around. -/
theorem C69_session (hd : Prompt dev) {n k most : Nat} (m : Machine Q D) (l : List Cmd)
    {search : List U16 → U16 → Machine.Found} (hs : Searches search)
    (hfew : 23 + 11 * most ≤ m.frame) (hshort : 4 * m.frame ≤ m.hz) (hroom : 2 * m.hz + 5 * m.frame < 2 ^ 32)
    (hn : m.frame + 23 ≤ 4 * n) (hk : m.frame + 4 ≤ 4 * k) (hl : Session most 0 l) :
    ∃ total m' ended, obeyAll dev search n k l (m.start dev) = some (total, m') ∧
      ended * m.frame ≤ total ∧ total ≤ (ended + 1) * m.frame + 22 + 11 * pending 0 l ∧
      m'.limit ≤ 2 * m.hz + 2 * m.frame ∧ m'.cur.toNat = m'.limit + (total - ended * m.frame) := by
  obtain ⟨total, m', ended, h1, -, h2⟩ := session_pace (Tally.trivial dev) hd m l hs hfew hshort hroom hn hk hl ⟨⟩
  exact ⟨total, m', ended, h1, h2⟩

/-- C69: the devices are told of the end of exactly these frames: none is forgotten and none is ended twice, however
stepping, running to somewhere and running frames alternate. -/
theorem C69_frames (hd : Prompt dev) {count : D → Nat} (hc : Counting dev count) {n k most : Nat} (m : Machine Q D)
    (l : List Cmd) {search : List U16 → U16 → Machine.Found} (hs : Searches search)
    (hfew : 23 + 11 * most ≤ m.frame) (hshort : 4 * m.frame ≤ m.hz) (hroom : 2 * m.hz + 5 * m.frame < 2 ^ 32)
    (hn : m.frame + 23 ≤ 4 * n) (hk : m.frame + 4 ≤ 4 * k) (hl : Session most 0 l)
    (h0 : ∀ b, m.bus = some b → count b.device = 0) :
    ∃ total m', obeyAll dev search n k l (m.start dev) = some (total, m') ∧
      ∀ b, m'.bus = some b → count b.device * m.frame ≤ total ∧
        total ≤ (count b.device + 1) * m.frame + 22 + 11 * pending 0 l ∧
        m'.cur.toNat = m'.limit + (total - count b.device * m.frame) := by
  obtain ⟨total, m', ended, h1, h2, h3, h4, -, h5⟩ := session_pace (Tally.counting hc) hd m l hs hfew hshort hroom hn hk
    hl h0
  refine ⟨total, m', h1, fun b hb => ?_⟩
  rw [h2 b hb]
  exact ⟨h3, h4, h5⟩

/-- C69: the computer with its default clocks (`EXT_HZ = 10_000`, `FRAME_HZ = 500`), any processor clock up to 2 GHz,
any ROMs and any streams. -/
theorem C69_default {I O : Type} {bound n kilos hz : Nat} {slurp : I → Option U8 × I} {flush : U8 → O → Bool × O}
    {rom : List U8} {exroms : List (Nat × Block)} {stream : I} {sink : O} {m : Machine Q (Chain n I O)}
    (h : Machine.new 10000 500 n (board bound n slurp flush) rom exroms kilos hz stream sink = some m)
    (hhz : hz ≤ 2000000000) {search : List U16 → U16 → Machine.Found} (hs : Searches search) (l : List Cmd)
    (hl : Session 16 0 l) :
    ∃ total m' ended, obeyAll (board bound n slurp flush) search (hz / 500) (hz / 500) l m = some (total, m') ∧
      ended * (hz / 500) ≤ total ∧ total ≤ (ended + 1) * (hz / 500) + 22 + 11 * pending 0 l ∧
      m'.cur.toNat = m'.limit + (total - ended * (hz / 500)) := by
  obtain ⟨b, rfl, rfl, h2, h3, _⟩ := new_started h
  obtain ⟨total, m', ended, j1, j2, j3, -, j4⟩ := C69_session (C61_prompt bound n slurp flush) (n := b.hz / 500)
    (k := b.hz / 500) (most := 16) b l hs (by omega) (by omega) (by omega) (by omega) (by omega) hl
  rw [h2] at j2 j3 j4
  exact ⟨total, m', ended, j1, j2, j3, j4⟩

/-! ### Examples -/

/-- A session. -/
def tour : List Cmd := [.frame, .step, .toBrk [2, 0xFFFF], .toRet, .nmi]

example : Session 2 0 tour ∧ pending 0 tour = 1 := by
  simp [tour, Session, pending]

/-- A computer with a counting device. -/
def withCountRom (rom : List U8) (frame : Nat) : Option (Machine NMOS (Unit × Nat)) :=
  (Memory.new rom 16).map fun memory =>
    { cur := 0, hz := 1000, limit := 0, frame, cpu := Cpu.default,
      bus := some { mask := MEMORY_PORT_MASK, bits := MEMORY_PORT_BITS, device := ((), 0), memory } }

/-- The conditions of `C69_frames` are met by such a computer, and three frames end during the session. -/
example : Prompt (withCount terminator) ∧ Counting (withCount terminator) Prod.snd ∧ Searches linear ∧
    (withCountRom [0x00, 0xCD, 0x06, 0x00, 0x18, 0xFA, 0xC9] 50).map (fun m =>
      (decide (23 + 11 * 2 ≤ m.frame ∧ 4 * m.frame ≤ m.hz ∧ 2 * m.hz + 5 * m.frame < 2 ^ 32),
        m.bus.map (·.device.2),
        (obeyAll (withCount terminator) linear 20 20 tour (m.start (withCount terminator))).map fun x =>
          (x.1, x.2.cur.toNat - x.2.limit, x.2.bus.map (·.device.2)))) =
      some (true, some 0, some (163, 13, some 3)) :=
  ⟨prompt_withCount prompt_terminator, counting_withCount _, linear_searches, by decide +kernel⟩

end Z80.Ral
