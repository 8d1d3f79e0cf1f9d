import Verif.Proofs.RalRunnerDue
import Verif.Props.RalSession
import Verif.Props.RalSafe

/-!
# C78, C79: the thread of the example computer

C78: what the thread does, in what order, for all messages at all times, programs and devices. C79: that it ends.
-/

namespace Z80.Ral.Runner
open Spec Spec.Ral

section
variable {Q D : Type} [Flavour Q] {dev : Device D} {search : List U16 → U16 → Machine.Found} {fps n k j : Nat}

/-- C78: the thread does what the monitor allows. A press of the button of the non-maskable interrupt is neither lost nor
doubled: the interrupt is tried before anything else is executed, refused only as long as the processor cannot be
interrupted, tried again, and cancelled only by Reset. The debugger executes nothing but what it is ordered to, and that
once; the T-states it shows are those of the last order and of the interrupts since; twelve lines follow every header;
nothing happens after Terminate. -/
theorem C78_proper {inbox rest : List (Option Msg)} {m m' : Machine Q D} {log : List (Note Q)}
    (h : run dev search fps n k j inbox m = some (rest, m', log)) : ({} : Watch).Proper log :=
  loop_proper ⟨rfl, rfl, rfl, rfl⟩ h

/-- C78: the messages are taken in the order sent, each once, and the thread ends at Terminate or when the channel is
closed, and not otherwise. -/
theorem C78_messages {inbox rest : List (Option Msg)} {m m' : Machine Q D} {log : List (Note Q)}
    (h : run dev search fps n k j inbox m = some (rest, m', log)) :
    inbox.filterMap id = received log ++ rest.filterMap id ∧
      ((∃ u, log = u ++ [.got .terminate]) ∨ rest = [] ∧ Msg.terminate ∉ received log) :=
  loop_taken h

end

section
variable {Q D : Type} [FlavourSpec Q] {dev : Device D} {search : List U16 → U16 → Machine.Found} {fps n k j most : Nat}

/-- C79, for patient users: whatever the processor runs, next to any devices that ask for no wait states, the thread of a
started computer ends with its messages, and neither the runner nor the debugger panics before. The user presses the
button of the non-maskable interrupt at most `most` times while the debugger waits for something to execute and does not
ask the debugger to run to the end of a subroutine, which may never come. The clock is never further ahead of the limit
than a frame, an instruction and the interrupts, and neither of them wraps around. -/
theorem C79_ends_partial (hd : Prompt dev) (m : Machine Q D) {inbox : List (Option Msg)}
    (hfew : 34 + 11 * most ≤ m.frame) (hshort : 4 * m.frame ≤ m.hz) (hroom : 2 * m.hz + 5 * m.frame < 2 ^ 32)
    (hs : (fps + 4) * m.frame < 2 ^ 32) (hn : m.frame + 23 ≤ 4 * n) (hk : m.frame + 4 ≤ 4 * k)
    (hj : inbox.length < j) (hi : Patient most none inbox) :
    ∃ rest m' log, run dev search fps n k j inbox (m.start dev) = some (rest, m', log) ∧
      m'.limit ≤ m'.cur.toNat ∧ m'.cur.toNat ≤ m'.limit + m.frame + 33 + 11 * most ∧
      m'.limit ≤ 2 * m.hz + 2 * m.frame := by
  have hcur : (m.start dev).cur.toNat = m.hz := by
    show (BitVec.ofNat 32 m.hz).toNat = m.hz
    rw [BitVec.toNat_ofNat, Nat.mod_eq_of_lt (by omega)]
  have hlim : (m.start dev).limit = m.hz := hcur
  obtain ⟨rest, m', log, c, _, h1, ⟨-, -, h2, h3, h4, -⟩, h5⟩ := loop_due (P := fun _ _ => True) (c := 0) (k := 0)
    (search := search) (fps := fps) (request := false) (m := m.start dev) (F := m.frame) (hz := m.hz) (Tally.trivial dev)
    hd ⟨by omega, hshort, hroom⟩ hn hk hs j hj hi ⟨rfl, rfl, by omega, by omega, by omega, ⟨⟩⟩ (by simp)
  exact ⟨rest, m', log, h1, h2, by omega, h4⟩

/-- C79: the computer with its default clocks (`EXT_HZ = 10_000`, `FRAME_HZ = 500`), any processor clock up to 2 GHz,
any ROMs and any streams. -/
theorem C79_default_partial {I O : Type} {bound n kilos hz : Nat} {slurp : I → Option U8 × I} {flush : U8 → O → Bool × O}
    {rom : List U8} {exroms : List (Nat × Block)} {stream : I} {sink : O} {m : Machine Q (Chain n I O)}
    (h : Machine.new 10000 500 n (board bound n slurp flush) rom exroms kilos hz stream sink = some m)
    (hhz : hz ≤ 2000000000) {inbox : List (Option Msg)} (hi : Patient 15 none inbox) :
    ∃ rest m' log, run (board bound n slurp flush) search 500 (hz / 500) (hz / 500) (inbox.length + 1) inbox m =
      some (rest, m', log) := by
  obtain ⟨b, rfl, rfl, h2, h3, _⟩ := new_started h
  obtain ⟨rest, m', log, h4, -⟩ := C79_ends_partial (C61_prompt bound n slurp flush) (search := search) (fps := 500)
    (n := b.hz / 500) (k := b.hz / 500) (j := inbox.length + 1) (most := 15) b (by omega) (by omega) (by omega)
    (by omega) (by omega) (by omega) (by omega) hi
  exact ⟨rest, m', log, h4⟩

end

/-! ### Too many presses -/

section
variable {Q D : Type} [FlavourSpec Q] {dev : Device D} {search : List U16 → U16 → Machine.Found} {fps n k : Nat}

theorem nmi_again {m : Machine Q D} (h : m.cpu.isNmiAllowed = true) : (m.nmi dev).2.cpu.isNmiAllowed = true := by
  have h3 : Z80.nmi (σ := ralSig) m.cpu = Prog.bind (nmiNoCheck m.cpu) fun c => .ret (true, c) := if_pos h
  unfold Machine.nmi
  rw [h3, Prog.run_bind]
  have h1 : isIntAllowed m.cpu.pfx m.cpu.lastEi = true := h
  have h2 : m.cpu.pfx = none := by
    unfold isIntAllowed at h1
    cases hp : m.cpu.pfx with
    | none => rfl
    | some p => rw [hp] at h1; simp at h1
  show isIntAllowed m.cpu.pfx false = true
  rw [h2]
  rfl

/-- Presses of the button in the debugger: each takes 11 T-states and no frame passes. -/
theorem presses (hd : Prompt dev) (l : List (Option Msg)) : ∀ (p lines last : Nat) (m : Machine Q D),
    m.cpu.isNmiAllowed = true → m.cur.toNat + 11 * p < 2 ^ 32 → last + 11 * p < 2 ^ 32 →
    ∃ m' : Machine Q D, m'.cur.toNat = m.cur.toNat + 11 * p ∧ m'.limit = m.limit ∧ m'.hz = m.hz ∧ m'.frame = m.frame ∧
      ∃ f, wait dev search fps n (List.replicate p (some .nmi) ++ some .continue :: l) lines last false m =
        some (false, l, false, m', f)
  | 0, lines, last, m, _, _, _ => ⟨m, rfl, rfl, rfl, rfl, _, rfl⟩
  | p + 1, lines, last, m, ha, hb, hl => by
    obtain ⟨d, h1, h2, h3, h4, h5⟩ := nmi_paces hd m (by omega)
    have h6 := (nmi_allowed (dev := dev) m).2 ha
    have h7 := nmi_again (dev := dev) ha
    generalize hr : m.nmi dev = r at h1 h2 h3 h4 h5 h6 h7
    obtain ⟨ts, m1⟩ := r
    dsimp only at h1 h2 h3 h4 h5 h6 h7
    rcases h1 with ⟨rfl, -⟩ | ⟨rfl, rfl⟩
    · cases h6
    obtain ⟨m', i1, i2, i3, i4, f, i5⟩ := presses hd l p lines (last + 11) m1 h7 (by omega) (by omega)
    refine ⟨m', by omega, i2.trans h3, i3.trans h4, i4.trans h5,
      .got .nmi :: ([] ++ ([.nmi m.cpu (some 11), .preview (last + 11)] ++ f)), ?_⟩
    have ht : top dev true last m = some (false, last + 11, m1, [.nmi m.cpu (some 11), .preview (last + 11)]) := by
      unfold top
      rw [if_pos rfl, hr]
      dsimp only
      rw [show add32 last 11 = some (last + 11) from if_pos (by omega)]
      rfl
    show wait dev search fps n (some .nmi :: (List.replicate p (some .nmi) ++ some .continue :: l)) lines last false m = _
    rw [wait_order (a := .nmi) ⟨nofun, nofun⟩]
    show (top dev true last m).bind _ = _
    rw [ht]
    show (wait dev search fps n (List.replicate p (some .nmi) ++ some .continue :: l) lines (last + 11) false m1).bind _ = _
    rw [i5]
    rfl

/-- C79 is false if the user presses the button of the non-maskable interrupt too often while the debugger waits: the
clock runs ahead by more than two seconds, and the second frame after Continue, when the limit is taken a second back
again, panics. -/
theorem presses_panic (hd : Prompt dev) {m m1 : Machine Q D} {d p j : Nat} (h : m.step dev n k = some (d, m1))
    (ha : m1.cpu.isNmiAllowed = true) (hb : m1.cur.toNat + 11 * p < 2 ^ 32) (hp : 3 * m1.hz < m1.cur.toNat + 11 * p)
    (hl : m1.hz ≤ m1.limit) (hf : m1.limit + m1.frame < 2 * m1.hz) (hz : 2 * m1.hz + 22 < 2 ^ 32) (hn : 6 ≤ n)
    (hk : 1 ≤ k) (l : List (Option Msg)) :
    run dev search fps n k j (some .debugNext :: (List.replicate p (some .nmi) ++ some .continue :: none :: l)) m =
      none := by
  obtain ⟨m2, i1, i2, i3, i4, f, i5⟩ := presses (search := search) (fps := fps) (n := n) hd (none :: l) p 255 0 m1 ha hb
    (by omega)
  have hd1 : debug dev search fps n (List.replicate p (some .nmi) ++ some .continue :: none :: l) false m1 =
      some (false, none :: l, false, m2, .preview 0 :: f) := by
    unfold debug
    show (wait dev search fps n _ 255 0 false m1).bind _ = _
    rw [i5]
    rfl
  /- the first frame after Continue -/
  have hw : m2.wrapSecond dev = some { m2 with cur := m2.cur - BitVec.ofNat 32 m2.hz, limit := m2.limit - m2.hz,
                                                bus := Boards.onDevice (dev.nextSecond m2.hz) m2.bus } := by
    unfold Machine.wrapSecond
    rw [if_pos (by omega), if_pos (by omega), if_pos (by omega)]
  have hcur : (m2.cur - BitVec.ofNat 32 m2.hz).toNat = m2.cur.toNat - m2.hz := by
    rw [BitVec.toNat_sub, BitVec.toNat_ofNat]
    omega
  generalize hm : ({ m2 with cur := m2.cur - BitVec.ofNat 32 m2.hz, limit := m2.limit - m2.hz,
                             bus := Boards.onDevice (dev.nextSecond m2.hz) m2.bus } : Machine Q D) = w at hw
  have w1 : w.cur.toNat = m2.cur.toNat - m2.hz := by rw [← hm]; exact hcur
  have w2 : w.limit = m2.limit - m2.hz := by rw [← hm]
  have w3 : w.hz = m2.hz := by rw [← hm]
  have w4 : w.frame = m2.frame := by rw [← hm]
  obtain ⟨m3, g1, g2, g3, -, -, g4, -⟩ := loop_paces hd (n := n) (by omega) k { w with limit := w.limit + w.frame }
    (by simp only; omega) (by simp only; omega) (by simp only; omega)
  simp only at g2 g3 g4
  have hs2 : ∃ m4 : Machine Q D, (m2.step dev n k).map Prod.snd = some m4 ∧ m4.cur.toNat = m2.cur.toNat - m2.hz ∧
      m4.limit = m2.limit - m2.hz + m2.frame ∧ m4.hz = m2.hz := by
    refine ⟨{ m3 with bus := Boards.onDevice (dev.frameEnd m3.cur.toNat) m3.bus }, ?_, ?_, ?_, ?_⟩
    · unfold Machine.step
      rw [hw]
      show ((add32 w.limit w.frame).bind _).map _ = _
      rw [show add32 w.limit w.frame = some (w.limit + w.frame) from if_pos (by omega)]
      show ((Machine.frameLoop dev n k { w with limit := w.limit + w.frame }).bind _).map _ = _
      rw [g1]
      rfl
    · show m3.cur.toNat = _
      rw [g4 (by omega), w1]
    · show m3.limit = _
      rw [g2, w2, w4]
    · show m3.hz = _
      rw [g3, w3]
  obtain ⟨m4, s1, s2, s3, s4⟩ := hs2
  obtain ⟨⟨d4, m4'⟩, s5, s6⟩ := Option.map_eq_some_iff.1 s1
  obtain rfl : m4' = m4 := s6
  /- the second -/
  have hw4 : m4'.wrapSecond dev = none := by
    unfold Machine.wrapSecond
    rw [if_pos (by omega), if_pos (by omega), if_neg (by omega)]
  have hlast : ∀ j, loop dev search fps n k j l false m4' = none := by
    rintro (_ | j)
    · rfl
    · have h0 : m4'.step dev n k = none := by
        unfold Machine.step
        rw [hw4]
        rfl
      unfold loop retry
      show (m4'.step dev n k).bind _ = none
      rw [h0]
      rfl
  have hnext : ∀ j, loop dev search fps n k j (none :: l) false m2 = none := by
    rintro (_ | j)
    · rfl
    · unfold loop retry
      show (m2.step dev n k).bind _ = none
      rw [s5]
      show (((loop dev search fps n k j l false m4').map _).bind _ : Option _) = none
      rw [hlast]
      rfl
  unfold run
  cases j with
  | zero => rfl
  | succ j =>
    unfold loop retry
    show (m.step dev n k).bind _ = none
    rw [h]
    show (((debug dev search fps n _ false m1).bind _).bind _ : Option _) = none
    rw [hd1]
    show (((loop dev search fps n k j (none :: l) false m2).map _).bind _ : Option _) = none
    rw [hnext]
    rfl

end

/-- C79 is false for a user who presses the button 30000 times while the debugger waits: a computer with a clock of
100 kHz and `HALT` in its ROM panics although it is asked for nothing but two frames afterwards. (Each of the bounds for
the loops within is large enough, as `C79_default_partial` shows.) -/
theorem C79_refuted_presses : ∃ m, example1243 10000 500 100000 [0x76] = some m ∧ ∀ j, run exampleBoard linear 500 200 200 j
    (some .debugNext :: (List.replicate 30000 (some .nmi) ++ [some .continue, none, some .terminate])) m = none := by
  obtain ⟨m, h1, h2⟩ := Option.map_eq_some_iff.1 (show (example1243 10000 500 100000 [0x76]).map (fun m =>
    (m.step exampleBoard 200 200).map fun x => (x.2.cpu.isNmiAllowed, x.2.cur.toNat, x.2.hz, x.2.limit, x.2.frame)) =
      some (some (true, 100200, 100000, 100200, 200)) by decide +kernel)
  obtain ⟨⟨d, m1⟩, h3, h4⟩ := Option.map_eq_some_iff.1 h2
  simp only [Prod.mk.injEq] at h4
  obtain ⟨i1, i2, i3, i4, i5⟩ := h4
  exact ⟨m, h1, fun j => presses_panic (C61_prompt _ _ _ _) h3 i1 (by omega) (by omega) (by omega) (by omega) (by omega)
    (by omega) (by omega) _⟩

/-! ### A subroutine that does not return -/

section
variable {Q D : Type} [FlavourSpec Q] {dev : Device D} {search : List U16 → U16 → Machine.Found} {fps : Nat}

theorem one_found (hs : Searches search) {a : U16} (ha : a ≠ 0xFFFF#16) : search [a] 0xFFFF#16 = .err 1 := by
  have h := hs [a] 0xFFFF#16 (List.pairwise_singleton _ _)
  cases hx : search [a] 0xFFFF#16 with
  | ok i =>
    rw [hx] at h
    have h : [a][i]? = some 0xFFFF#16 := h
    rcases i with _ | i
    · exact absurd (Option.some.inj h) ha
    · cases h
  | err i =>
    rw [hx] at h
    obtain ⟨h1, -, h2⟩ := h
    have h1 : i ≤ 1 := h1
    have : i ≠ 0 := by
      rintro rfl
      have := h2 a (List.mem_singleton.2 rfl)
      have := a.isLt
      rw [BitVec.lt_def] at *
      simp at *
      omega
    rw [show i = 1 by omega]

theorem stuck_one (hs : Searches search) {a : U16} (ha : a ≠ 0xFFFF#16) {limit : Nat} :
    ∀ (n : Nat) (m : Machine Q D), m.cpu.halt = true → m.cpu.iff1 = false → m.cpu.getPc = 0xFFFF#16 →
      Machine.brkLoop dev search [a] limit n 0xFFFF#16 0xFFFF#16 m = none
  | 0, _, _, _, _ => rfl
  | n + 1, m, h1, h2, h3 => by
    obtain ⟨t, m1, h4, h5, h6, h7⟩ := stuck_executed (dev := dev) h1 h2
    unfold Machine.brkLoop
    rw [h4]
    show (if m1.pastLimit limit then if m1.cpu.getPc = _ then _ else _ else _) = none
    rw [h7, h3]
    split
    · rw [if_pos rfl, one_found hs ha]
      exact stuck_one hs ha n _ h5 h6 (h7.trans h3)
    · rw [if_pos (.inl (BitVec.le_refl _)), one_found hs ha]
      exact stuck_one hs ha n _ h5 h6 (h7.trans h3)

/-- `DebugCompletion` at a CALL of 0xFFFF, where there is `HALT` and interrupts are disabled. -/
theorem call_hangs (hs : Searches search) {m m1 m2 : Machine Q D} {t t2 : List (Ev ralSig)} {d : CpuDebug}
    {limit limit1 : Nat} (hw : m.wrapSecond dev = some m) (hl : add32 m.limit m.frame = some limit)
    (he : m.executed dev true = some (t, m1)) (hp : m1.pastLimit limit = false) (hd : lastRecord t none = some d)
    (hdata : lastData t none = none) (hr : wasJustARet d m1.cpu = some false) (hc : wasJustACall d m1.cpu = some true)
    (ha : d.pc + BitVec.ofNat 16 d.code.length ≠ 0xFFFF#16) (hw1 : m1.wrapSecond dev = some m1)
    (hl1 : add32 m1.limit m1.frame = some limit1) (h1 : m1.cpu.getPc = 0xFFFF#16)
    (he2 : m1.executed dev false = some (t2, m2)) (hp2 : m2.pastLimit limit1 = false) (h2 : m2.cpu.halt = true)
    (h3 : m2.cpu.iff1 = false) (h4 : m2.cpu.getPc = 0xFFFF#16) (n : Nat) :
    m.runToCompletion dev search fps n = none := by
  cases n with
  | zero =>
    unfold Machine.runToCompletion Machine.debugStep
    rw [hw]
    show (((add32 m.limit m.frame).bind _).bind _ : Option _) = none
    rw [hl]
    rfl
  | succ n =>
    have hstep : m.debugStep dev (n + 1) = some (some d, m1.cur.toNat - m.cur.toNat, m1) := by
      unfold Machine.debugStep
      rw [hw]
      show (add32 m.limit m.frame).bind _ = _
      rw [hl]
      have : Machine.stepLoop dev m.cpu.getPc (n + 1) limit m.cpu.pfx none m = some (some d, none, m1) := by
        unfold Machine.stepLoop
        rw [he]
        dsimp only [bind, Option.bind]
        rw [hp, hd, hdata]
        rfl
      show (Machine.stepLoop dev m.cpu.getPc (n + 1) limit m.cpu.pfx none m).bind _ = _
      rw [this]
      rfl
    have hrun : m1.runUntilBrkpt dev search (n + 1) [d.pc + BitVec.ofNat 16 d.code.length] = none := by
      unfold Machine.runUntilBrkpt
      rw [hw1]
      show (add32 m1.limit m1.frame).bind _ = _
      rw [hl1]
      have : Machine.brkLoop dev search [d.pc + BitVec.ofNat 16 d.code.length] limit1 (n + 1) 0xFFFF#16 0xFFFF#16 m1 =
          none := by
        unfold Machine.brkLoop
        rw [he2]
        show (if m2.pastLimit limit1 then if m2.cpu.getPc = _ then _ else _ else _) = none
        rw [hp2, h4, if_neg Bool.false_ne_true, if_pos (.inl (BitVec.le_refl _)), one_found hs ha]
        exact stuck_one hs ha n _ h2 h3 h4
      dsimp only [Option.bind, bind]
      rw [h1, one_found hs ha]
      show (Option.bind (Machine.brkLoop dev search [d.pc + BitVec.ofNat 16 d.code.length] limit1 (n + 1) 0xFFFF#16
        0xFFFF#16 m1) _ : Option _) = none
      rw [this]
      rfl
    unfold Machine.runToCompletion
    rw [hstep]
    dsimp only [Option.bind, bind]
    rw [hr, hc]
    dsimp only
    rw [if_neg Bool.false_ne_true, if_pos rfl]
    unfold runFor
    rw [hrun]

end

/-- A computer with 48 kilobytes, `CALL 0xFFFF` in its ROM and `HALT` at the end of its memory. -/
def withEnd : Option (Machine NMOS Unit) :=
  (Memory.new [0xCD, 0xFF, 0xFF] 48).map fun memory =>
    { cur := 0, hz := 100000, limit := 0, frame := 200, cpu := Cpu.default.setSp 0x8000,
      bus := some { mask := MEMORY_PORT_MASK, bits := MEMORY_PORT_BITS, device := (),
                    memory := memory.writeMem 0xFFFF 0x76 } }

/-- C79 is false if the user has the debugger run to the end of a subroutine that halts at 0xFFFF with interrupts
disabled: whatever the bounds of the loops, the order is not carried out, so that the thread does not get to see
Terminate. -/
theorem C79_refuted_hang : ∃ m, withEnd = some m ∧ (∀ (n lines last : Nat) (request : Bool) (l : List (Option Msg)),
    wait terminator linear 500 n (some .debugCompletion :: l) lines last request m = none) ∧
    (wait terminator linear 500 2 [some .debugNext, some .terminate] 255 0 false m).isSome = true := by
  have hwrap : ∀ m : Machine NMOS Unit, m.hz = 100000 → m.cur.toNat < 1000 → m.wrapSecond terminator = some m := by
    intro m h1 h2
    unfold Machine.wrapSecond
    rw [if_pos (by omega), if_neg (by omega)]
  obtain ⟨m, h0, hm⟩ := Option.bind_eq_some_iff.1 (show (withEnd.bind fun m =>
    (m.executed terminator true).bind fun x => (lastRecord x.1 none).bind fun d =>
      (x.2.executed terminator false).map fun y =>
        decide ((m.hz = 100000 ∧ m.cur.toNat = 0 ∧ m.limit = 0 ∧ m.frame = 200) ∧
          (x.2.hz = 100000 ∧ x.2.cur.toNat = 17 ∧ x.2.limit = 0 ∧ x.2.frame = 200 ∧ x.2.cpu.getPc = 0xFFFF#16) ∧
          (y.2.cur.toNat = 21 ∧ y.2.cpu.halt = true ∧ y.2.cpu.iff1 = false ∧ y.2.cpu.getPc = 0xFFFF#16) ∧
          (lastData x.1 none = none ∧ wasJustARet d x.2.cpu = some false ∧ wasJustACall d x.2.cpu = some true ∧
            d.pc + BitVec.ofNat 16 d.code.length = 3#16) ∧
          (wait terminator linear 500 2 [some .debugNext, some .terminate] 255 0 false m).isSome = true)) = some true by
    decide +kernel)
  obtain ⟨⟨t, m1⟩, h1, hm⟩ := Option.bind_eq_some_iff.1 hm
  obtain ⟨d, h2, hm⟩ := Option.bind_eq_some_iff.1 hm
  obtain ⟨⟨t2, m2⟩, h3, hm⟩ := Option.map_eq_some_iff.1 hm
  obtain ⟨⟨a1, a2, a3, a4⟩, ⟨a5, a6, a7, a8, d2⟩, ⟨a9, b2, b3, d3⟩, ⟨b1, c1, c2, d1⟩, e1⟩ := of_decide_eq_true hm
  refine ⟨m, h0, fun n lines last request l => ?_, e1⟩
  rw [wait_order (a := .debugCompletion) ⟨nofun, nofun⟩]
  show ((m.runToCompletion terminator linear 500 n).map _).bind _ = none
  rw [call_hangs linear_searches (hwrap m a1 (by omega)) (limit := 200) (limit1 := 200) (by rw [a3, a4]; rfl) h1
    (by unfold Machine.pastLimit; rw [a6]; rfl) h2 b1 c1 c2 (by rw [d1]; decide)
    (hwrap m1 a5 (by rw [show m1.cur.toNat = 17 from a6]; decide)) (by rw [a7, a8]; rfl) d2 h3 (by unfold Machine.pastLimit; rw [a9]; rfl) b2 b3 d3]
  rfl

/-! ### Examples -/

/-- A session at the keys of the computer: the button, the debugger, the button in it, steps, and the end. -/
def keys : List (Option Msg) :=
  [none, some .nmi, none, some .debugRunIrq, some .debugNext, some .nmi, some .debugNext, some .reset, some .continue,
    none, some .terminate, some .reset]

/-- What kind of thing happened. -/
def Note.kind {Q : Type} : Note Q → Nat
  | .empty => 0
  | .got _ => 1
  | .frame => 2
  | .reset => 3
  | .nmi _ none => 4
  | .nmi _ (some _) => 5
  | .next _ | .completion _ | .toIrq _ => 6
  | .header => 7
  | .line _ => 8
  | .preview _ => 9

/-- The conditions of `C79_ends_partial` are met, `C78_proper` and `C78_messages` are not about nothing, and the message
after Terminate stays where it is. The program is `NOP`, `EI` and a jump back. -/
example : Prompt terminator ∧ Patient 1 none keys ∧ (withRom [0x00, 0xFB, 0x18, 0xFC] 0 200).map (fun m =>
    (decide (34 + 11 * 1 ≤ m.frame ∧ 4 * m.frame ≤ m.hz ∧ 2 * m.hz + 5 * m.frame < 2 ^ 32 ∧
        (500 + 4) * m.frame < 2 ^ 32),
      (run terminator linear 500 60 60 13 keys (m.start terminator)).map fun x => (x.1, x.2.2.map Note.kind))) =
      some (true, some ([some .reset],
        [2, 0, 2, 1, 5, 2, 0, 2, 1, 9, 1, 6, 7, 8, 9, 1, 5, 9, 1, 6, 8, 9, 1, 3, 9, 1, 2, 0, 2, 1])) :=
  ⟨prompt_terminator, by simp [keys, Patient], by decide +kernel⟩

end Z80.Ral.Runner
