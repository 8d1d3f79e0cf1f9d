import Verif.Proofs.RalRomOutput
import Verif.Spec.Alike

/-!
# The interrupt routines of the example computer give the processor back as it was (C88)

`nexts io deb n c (t, m, i)` calls `execute_next` `n` times, on 64K of memory `m` and devices `io` in state `i`; it is
`none` when a call reports something. `abs c` are the registers of `c`.
-/

namespace Z80.Kernel
open Spec Spec.RalRom
variable {w : Nat} {O R I : Type} {Q : Type} [FlavourSpec Q]

/-- The report of the call that executes RETI. -/
def reported (p : Option R) : Out O R := match p with | some x => .reti x | none => .ok

/-- The last call. -/
theorem conclude (io : Handler (tsSig w O R) I) (deb : Bool) {c : Cpu Q} {t t' : BitVec w} {m m' : Mem} {i i2 : I}
    {b : Mach w I} {r' : Regs} {p : Option R × I}
    (g : Reach (FlavourSpec.opt Q) (envOf io) ⟨abs c, m, i, t⟩ b) (bi : b.io = i2)
    (e : step (FlavourSpec.opt Q) (envOf io) b = (⟨r', m', p.2, t'⟩, match p.1 with | some x => .reti x | none => .ok)) :
    ∃ n c1 c' res, nexts io deb n c (t, m, i) = some (c1, b.t, b.mem, i2) ∧
      (executeNext deb c1).run (ramHost io) (b.t, b.mem, i2) = ((res, c'), t', m', p.2) ∧
      outR res = some (reported p.1) ∧ r' = abs c' := by
  subst bi
  obtain ⟨n, c1, g1, g2⟩ := nexts_reach io deb g rfl
  have hb : (⟨abs c1, b.mem, b.io, b.t⟩ : Mach w I) = b := by rw [g2]
  have h := C44_execute_next io deb c1 b.t b.mem b.io
  rw [hb, e] at h
  obtain ⟨h1, h2⟩ := h
  generalize hr : (executeNext deb c1).run (ramHost io) (b.t, b.mem, b.io) = r at h1 h2
  obtain ⟨⟨res, c'⟩, t2, m2, i2⟩ := r
  simp only [Mach.mk.injEq] at h1 h2
  obtain ⟨k1, k2, k3, k4⟩ := h1
  subst k2 k3 k4
  exact ⟨n, c1, c', res, g1, hr, h2, k1.symm⟩

/-- C88: the interrupt of the first counter (vector 0), accepted at any moment of any program, with any contents of
the registers, even in HALT: it counts one frame and goes back. The T-states are those of the acknowledge with its wait
states, and of the routine, which depends on the number of bytes of the counter that turn over. -/
theorem C88_frame (io : Handler (tsSig w O R) I) (deb : Bool) (c : Cpu Q) (t : BitVec w) (m : Mem) (i i1 i2 : I)
    (ws : Option U16) (hm : Rom m) (hok : irqOk (abs c) = true) (him : (abs c).im = 2) (hir : (abs c).i = 1)
    (hs : Room (abs c).sp 6) (hi : io (.isIrq t) i = (true, i1))
    (ha : io (.irqData (resume (abs c)) (t + 2#w)) i1 = ((0, ws), i2)) :
    ∃ n c1 t1 m1 m' c' res,
      let k := carries m
      let T := 71 + (ws.map BitVec.toNat).getD 0 + (24 * k + if k < 3 then 23 else 11)
      let p := io (.reti 0x126 (t + BitVec.ofNat w (T + 12))) i2
      nexts io deb n c (t, m, i) = some (c1, t1, m1, i2) ∧
      (executeNext deb c1).run (ramHost io) (t1, m1, i2) = ((res, c'), t + BitVec.ofNat w (T + 18), m', p.2) ∧
      outR res = some (reported p.1) ∧
      Alike { abs c with pc := resume (abs c), halted := false, iff2 := true } (abs c') ∧
      frames m' = (frames m + 1) % 2 ^ 32 ∧
      ∀ a : U16, ¬ (0x2000 ≤ a.toNat ∧ a.toNat < 0x2004) →
        (∀ j, 1 ≤ j → j ≤ 6 → a ≠ (abs c).sp - BitVec.ofNat 16 j) → m' a = m a := by
  simp only [irqOk, Bool.and_eq_true, beq_iff_eq, Bool.not_eq_true'] at hok
  obtain ⟨⟨h1, h2⟩, h3⟩ := hok
  obtain ⟨b, r', m', g, bi, e, al, fr, rest⟩ := frame_int (o := FlavourSpec.opt Q) (v := envOf io) (abs c) m i i1 i2 t ws
    hm h1 h2 h3 him hir hs hi ha
  obtain ⟨n, c1, c', res, g1, g2, g3, g4⟩ := conclude io deb g bi e
  exact ⟨n, c1, b.t, b.mem, m', c', res, g1, g2, g3, g4 ▸ al, fr, rest⟩

/-- C88: the interrupts of the other counters (vectors 2, 4 and 6) go back at once. -/
theorem C88_none (io : Handler (tsSig w O R) I) (deb : Bool) (c : Cpu Q) (t : BitVec w) (m : Mem) (i i1 i2 : I)
    (vec : U8) (ws : Option U16) (hm : Rom m) (hok : irqOk (abs c) = true) (him : (abs c).im = 2) (hir : (abs c).i = 1)
    (hs : Room (abs c).sp 2) (hv : vec = 2 ∨ vec = 4 ∨ vec = 6) (hi : io (.isIrq t) i = (true, i1))
    (ha : io (.irqData (resume (abs c)) (t + 2#w)) i1 = ((vec, ws), i2)) :
    ∃ n c1 t1 m1 m' c' res,
      let T := 19 + (ws.map BitVec.toNat).getD 0
      let p := io (.reti 0x10F (t + BitVec.ofNat w (T + 12))) i2
      nexts io deb n c (t, m, i) = some (c1, t1, m1, i2) ∧
      (executeNext deb c1).run (ramHost io) (t1, m1, i2) = ((res, c'), t + BitVec.ofNat w (T + 18), m', p.2) ∧
      outR res = some (reported p.1) ∧
      Alike { abs c with pc := resume (abs c), halted := false, iff2 := true } (abs c') ∧
      ∀ a : U16, a ≠ (abs c).sp - 1 → a ≠ (abs c).sp - 2 → m' a = m a := by
  simp only [irqOk, Bool.and_eq_true, beq_iff_eq, Bool.not_eq_true'] at hok
  obtain ⟨⟨h1, h2⟩, h3⟩ := hok
  obtain ⟨b, r', m', g, bi, e, al, rest⟩ := none_int (o := FlavourSpec.opt Q) (v := envOf io) (abs c) m i i1 i2 t vec ws
    hm h1 h2 h3 him hir hs hv hi ha
  obtain ⟨n, c1, c', res, g1, g2, g3, g4⟩ := conclude io deb g bi e
  exact ⟨n, c1, b.t, b.mem, m', c', res, g1, g2, g3, g4 ▸ al, rest⟩

/-- C88: the interrupt of the PIO for a character received (vector 8) while the buffer is full: the character in the
buffer stays, the device keeps the new one, and a flag tells so. The routine enables interrupts two instructions before
its end; the devices are taken not to ask for another one there. -/
theorem C88_input_full (io : Handler (tsSig w O R) I) (deb : Bool) (c : Cpu Q) (t : BitVec w) (m : Mem) (i i1 i2 : I)
    (ws : Option U16) (hm : Rom m) (hok : irqOk (abs c) = true) (him : (abs c).im = 2) (hir : (abs c).i = 1)
    (hs : Room (abs c).sp 6) (hi : io (.isIrq t) i = (true, i1))
    (ha : io (.irqData (resume (abs c)) (t + 2#w)) i1 = ((8, ws), i2)) (hfull : (m 0x2005).getLsbD 1 = true)
    (hn : ∀ t', io (.isIrq t') i2 = (false, i2)) :
    ∃ n c1 t1 m1 m' c' res,
      let T := 102 + (ws.map BitVec.toNat).getD 0
      let p := io (.reti 0x13A (t + BitVec.ofNat w (T + 32))) i2
      nexts io deb n c (t, m, i) = some (c1, t1, m1, i2) ∧
      (executeNext deb c1).run (ramHost io) (t1, m1, i2) = ((res, c'), t + BitVec.ofNat w (T + 38), m', p.2) ∧
      outR res = some (reported p.1) ∧
      Alike { abs c with pc := resume (abs c), halted := false, iff2 := true } (abs c') ∧
      (∀ y, (m' 0x2004, m' 0x2005) = received m y) ∧
      ∀ a : U16, a ≠ 0x2004 → a ≠ 0x2005 → (∀ j, 1 ≤ j → j ≤ 6 → a ≠ (abs c).sp - BitVec.ofNat 16 j) → m' a = m a := by
  simp only [irqOk, Bool.and_eq_true, beq_iff_eq, Bool.not_eq_true'] at hok
  obtain ⟨⟨h1, h2⟩, h3⟩ := hok
  obtain ⟨b, r', m', g, bi, e, al, e4, e5, rest⟩ := input_full (o := FlavourSpec.opt Q) (v := envOf io) (abs c) m i i1 i2 t ws
    hm h1 h2 h3 him hir hs hi ha hfull hn
  obtain ⟨n, c1, c', res, g1, g2, g3, g4⟩ := conclude io deb g bi e
  refine ⟨n, c1, b.t, b.mem, m', c', res, g1, g2, g3, g4 ▸ al, fun y => ?_, rest⟩
  rw [received, if_pos hfull, e4, e5]

/-- C88: the same while the buffer is empty: the character is read from port 8 of the PIO, once, and stored. -/
theorem C88_input_empty (io : Handler (tsSig w O R) I) (deb : Bool) (c : Cpu Q) (t : BitVec w) (m : Mem)
    (i i1 i2 i3 : I) (ws wi : Option U16) (y : U8) (hm : Rom m) (hok : irqOk (abs c) = true) (him : (abs c).im = 2)
    (hir : (abs c).i = 1) (hs : Room (abs c).sp 6) (hi : io (.isIrq t) i = (true, i1))
    (ha : io (.irqData (resume (abs c)) (t + 2#w)) i1 = ((8, ws), i2)) (hempty : (m 0x2005).getLsbD 1 = false)
    (hin : io (.readIo (word (abs c).a 8) (t + BitVec.ofNat w (78 + (ws.map BitVec.toNat).getD 0))) i2 = ((y, wi), i3))
    (hn : ∀ t', io (.isIrq t') i3 = (false, i3)) :
    ∃ n c1 t1 m1 m' c' res,
      let T := 109 + (ws.map BitVec.toNat).getD 0 + (wi.map BitVec.toNat).getD 0
      let p := io (.reti 0x13A (t + BitVec.ofNat w (T + 32))) i3
      nexts io deb n c (t, m, i) = some (c1, t1, m1, i3) ∧
      (executeNext deb c1).run (ramHost io) (t1, m1, i3) = ((res, c'), t + BitVec.ofNat w (T + 38), m', p.2) ∧
      outR res = some (reported p.1) ∧
      Alike { abs c with pc := resume (abs c), halted := false, iff2 := true } (abs c') ∧
      (m' 0x2004, m' 0x2005) = received m y ∧
      ∀ a : U16, a ≠ 0x2004 → a ≠ 0x2005 → (∀ j, 1 ≤ j → j ≤ 6 → a ≠ (abs c).sp - BitVec.ofNat 16 j) → m' a = m a := by
  simp only [irqOk, Bool.and_eq_true, beq_iff_eq, Bool.not_eq_true'] at hok
  obtain ⟨⟨h1, h2⟩, h3⟩ := hok
  obtain ⟨b, r', m', g, bi, e, al, e4, e5, rest⟩ := input_empty (o := FlavourSpec.opt Q) (v := envOf io) (abs c) m i i1 i2 t ws
    hm h1 h2 h3 him hir hs hi ha hempty y wi i3 hin hn
  obtain ⟨n, c1, c', res, g1, g2, g3, g4⟩ := conclude io deb g bi e
  refine ⟨n, c1, b.t, b.mem, m', c', res, g1, g2, g3, g4 ▸ al, ?_, rest⟩
  rw [received, if_neg (by rw [hempty]; decide), e4, e5]

/-- C88: the interrupt of the PIO for a character taken by the device (vector 10) while none waits in the buffer: the
device is no longer busy. -/
theorem C88_output_none (io : Handler (tsSig w O R) I) (deb : Bool) (c : Cpu Q) (t : BitVec w) (m : Mem) (i i1 i2 : I)
    (ws : Option U16) (hm : Rom m) (hok : irqOk (abs c) = true) (him : (abs c).im = 2) (hir : (abs c).i = 1)
    (hs : Room (abs c).sp 6) (hi : io (.isIrq t) i = (true, i1))
    (ha : io (.irqData (resume (abs c)) (t + 2#w)) i1 = ((10, ws), i2)) (hno : (sent m).1 = none)
    (hn : ∀ t', io (.isIrq t') i2 = (false, i2)) :
    ∃ n c1 t1 m1 m' c' res,
      let T := 102 + (ws.map BitVec.toNat).getD 0
      let p := io (.reti 0x174 (t + BitVec.ofNat w (T + 32))) i2
      nexts io deb n c (t, m, i) = some (c1, t1, m1, i2) ∧
      (executeNext deb c1).run (ramHost io) (t1, m1, i2) = ((res, c'), t + BitVec.ofNat w (T + 38), m', p.2) ∧
      outR res = some (reported p.1) ∧
      Alike { abs c with pc := resume (abs c), halted := false, iff2 := true } (abs c') ∧
      m' 0x2005 = (sent m).2 ∧
      ∀ a : U16, a ≠ 0x2005 → (∀ j, 1 ≤ j → j ≤ 6 → a ≠ (abs c).sp - BitVec.ofNat 16 j) → m' a = m a := by
  simp only [irqOk, Bool.and_eq_true, beq_iff_eq, Bool.not_eq_true'] at hok
  obtain ⟨⟨h1, h2⟩, h3⟩ := hok
  have hb : (m 0x2005).getLsbD 2 = false := by
    cases hb : (m 0x2005).getLsbD 2
    · rfl
    · rw [sent, if_pos hb] at hno
      exact nomatch hno
  obtain ⟨b, r', m', g, bi, e, al, e5, rest⟩ := output_none (o := FlavourSpec.opt Q) (v := envOf io) (abs c) m i i1 i2 t ws
    hm h1 h2 h3 him hir hs hi ha hb hn
  obtain ⟨n, c1, c', res, g1, g2, g3, g4⟩ := conclude io deb g bi e
  refine ⟨n, c1, b.t, b.mem, m', c', res, g1, g2, g3, g4 ▸ al, ?_, rest⟩
  rw [sent, if_neg (by rw [hb]; decide), e5]

/-- C88: the same while a character waits: it is written to port 10 of the PIO, once, and the buffer is empty. The
device is taken not to stop the emulation at this write. -/
theorem C88_output_some (io : Handler (tsSig w O R) I) (deb : Bool) (c : Cpu Q) (t : BitVec w) (m : Mem)
    (i i1 i2 i3 : I) (ws wo : Option U16) (y : U8) (hm : Rom m) (hok : irqOk (abs c) = true) (him : (abs c).im = 2)
    (hir : (abs c).i = 1) (hs : Room (abs c).sp 6) (hi : io (.isIrq t) i = (true, i1))
    (ha : io (.irqData (resume (abs c)) (t + 2#w)) i1 = ((10, ws), i2)) (hy : (sent m).1 = some y)
    (hout : io (.writeIo (word y 10) y (t + BitVec.ofNat w (106 + (ws.map BitVec.toNat).getD 0))) i2 = ((none, wo), i3))
    (hn : ∀ t', io (.isIrq t') i3 = (false, i3)) :
    ∃ n c1 t1 m1 m' c' res,
      let T := 109 + (ws.map BitVec.toNat).getD 0 + (wo.map BitVec.toNat).getD 0
      let p := io (.reti 0x174 (t + BitVec.ofNat w (T + 32))) i3
      nexts io deb n c (t, m, i) = some (c1, t1, m1, i3) ∧
      (executeNext deb c1).run (ramHost io) (t1, m1, i3) = ((res, c'), t + BitVec.ofNat w (T + 38), m', p.2) ∧
      outR res = some (reported p.1) ∧
      Alike { abs c with pc := resume (abs c), halted := false, iff2 := true } (abs c') ∧
      m' 0x2005 = (sent m).2 ∧
      ∀ a : U16, a ≠ 0x2005 → (∀ j, 1 ≤ j → j ≤ 6 → a ≠ (abs c).sp - BitVec.ofNat 16 j) → m' a = m a := by
  simp only [irqOk, Bool.and_eq_true, beq_iff_eq, Bool.not_eq_true'] at hok
  obtain ⟨⟨h1, h2⟩, h3⟩ := hok
  have hb : (m 0x2005).getLsbD 2 = true := by
    cases hb : (m 0x2005).getLsbD 2
    · rw [sent, if_neg (by rw [hb]; decide)] at hy
      exact nomatch hy
    · rfl
  rw [sent, if_pos hb] at hy ⊢
  obtain rfl : m 0x2006 = y := Option.some.inj hy
  obtain ⟨b, r', m', g, bi, e, al, e5, rest⟩ := output_some (o := FlavourSpec.opt Q) (v := envOf io) (abs c) m i i1 i2 t ws
    hm h1 h2 h3 him hir hs hi ha hb wo i3 hout hn
  obtain ⟨n, c1, c', res, g1, g2, g3, g4⟩ := conclude io deb g bi e
  exact ⟨n, c1, b.t, b.mem, m', c', res, g1, g2, g3, g4 ▸ al, e5, rest⟩

/-- C88: a non-maskable interrupt while no program of the user runs (bit 1 of the flags at 0x2007 is reset): all
registers come back, IFF1 with the value of IFF2, after 101 T-states, without any call to the devices. -/
theorem C88_nmi (io : Handler (tsSig w O R) I) (deb : Bool) (c : Cpu Q) (t : BitVec w) (m : Mem) (i : I)
    (hm : Rom m) (hok : nmiOk (abs c) = true) (hs : Room (abs c).sp 6) (hb : (m 0x2007).getLsbD 1 = false) :
    let r := (nmi c).run (ramHost io) (t, m, i)
    r.1.1 = true ∧ ∃ n c' m', nexts io deb n r.1.2 r.2 = some (c', t + 101#w, m', i) ∧
      Alike { abs c with pc := resume (abs c), halted := false, iff1 := (abs c).iff2 } (abs c') ∧
      ∀ a : U16, (∀ j, 1 ≤ j → j ≤ 6 → a ≠ (abs c).sp - BitVec.ofNat 16 j) → m' a = m a := by
  intro r
  obtain ⟨k1, k2⟩ := C44_nmi io c t m i
  rw [hok] at k1
  rw [if_pos hok] at k2
  refine ⟨k1, ?_⟩
  simp only [nmiOk, Bool.and_eq_true, beq_iff_eq, Bool.not_eq_true'] at hok
  obtain ⟨r', m', g, al, rest⟩ := nmi_not (o := FlavourSpec.opt Q) (v := envOf io) (abs c) m i t hm hok.1 hok.2 hs hb
  obtain ⟨n, c', g1, g2⟩ := nexts_reach io deb g k2
  exact ⟨n, c', m', g1, g2 ▸ al, rest⟩

/-- C88: `RST 18h`, `RST 20h` and `RST 30h` with interrupts disabled are calls of the routine whose address is in IX,
IY or HL: the address after the instruction is on the stack and nothing else has changed. -/
theorem C88_forward (io : Handler (tsSig w O R) I) (deb : Bool) (c : Cpu Q) (t : BitVec w) (m : Mem) (i : I)
    (hm : Rom m) (h1 : (abs c).iff1 = false) (h2 : (abs c).idx = .hl) (h3 : (abs c).halted = false)
    (h4 : (abs c).ei = false) (hs : Room (abs c).sp 2) (a : U16) (hf : forwards (m (abs c).pc) (abs c) = some a) :
    ∃ n c' m', nexts io deb n c (t, m, i) =
        some (c', t + BitVec.ofNat w (if m (abs c).pc = 0xF7 then 15 else 19), m', i) ∧
      Alike { abs c with sp := (abs c).sp - 2, pc := a } (abs c') ∧
      word (m' ((abs c).sp - 1)) (m' ((abs c).sp - 2)) = (abs c).pc + 1 ∧
      ∀ b : U16, b ≠ (abs c).sp - 1 → b ≠ (abs c).sp - 2 → m' b = m b := by
  obtain ⟨r', n, g, al, hn⟩ := forward (o := FlavourSpec.opt Q) (v := envOf io) (abs c) m i t hm h1 h2 h3 h4 hs a hf
  obtain ⟨k, c', g1, g2⟩ := nexts_reach io deb g rfl
  subst hn
  refine ⟨k, c', _, g1, g2 ▸ al, ?_, fun b b1 b2 => push_at _ _ b1 b2⟩
  have := push_hi m (abs c).sp ((abs c).pc + 1)
  rw [show (abs c).sp - 2 + 1 = (abs c).sp - 1 by bv_omega] at this
  simp only
  rw [this, push_lo, word_hi8_lo8]

/-! A case that meets the hypotheses: the program alone in memory, all of the counter about to turn over; a processor
in HALT, its stack at the end of the memory, and a device that asks for an interrupt until it is acknowledged. -/

/-- Memory with the program; the counter is at its end. -/
def memory : Mem := fun a => if a.toNat < 0x195 then bytes.getD a.toNat 0 else if a.toNat < 0x2004 then 255 else 0

/-- A device that asks once. -/
def ticker : Devices Unit Unit Bool :=
  { readIo := fun _ i => ((0, none), i), writeIo := fun _ _ i => ((none, none), i), isIrq := fun i => (i, i),
    irqData := fun _ _ => ((0, some 2), false), reti := fun _ i => (some (), i) }

/-- A processor waiting in HALT. -/
def waiting : Cpu NMOS :=
  { (Cpu.new : Cpu NMOS) with sp := 0, pc := 0x4000, halt := true, iff1 := true, iff2 := true, im := .mode2, ir := ⟨1, 0⟩ }

theorem C88_rom : Rom memory := by
  intro j hj
  simp only [memory, BitVec.toNat_ofNat, Nat.mod_eq_of_lt (show j < 2 ^ 16 by omega), if_pos hj]

theorem C88_room : Room (abs waiting).sp 6 := by
  intro j h1 h2
  have : j = 1 ∨ j = 2 ∨ j = 3 ∨ j = 4 ∨ j = 5 ∨ j = 6 := by omega
  rcases this with rfl | rfl | rfl | rfl | rfl | rfl <;> decide

/-- The flag for the non-maskable interrupt is reset in this memory. -/
example : nmiOk (abs waiting) = true ∧ (memory 0x2007).getLsbD 1 = false := by decide

/-- `RST 18h` at 0x4000, with 0xABCD in IX. -/
example : ∃ c : Cpu NMOS, let m : Mem := fun a => if a = 0x4000 then 0xDF else memory a
    Rom m ∧ (abs c).iff1 = false ∧ (abs c).idx = .hl ∧ (abs c).halted = false ∧ (abs c).ei = false ∧ Room (abs c).sp 2 ∧
      forwards (m (abs c).pc) (abs c) = some 0xABCD := by
  refine ⟨{ (Cpu.new : Cpu NMOS) with sp := 0, pc := 0x4000, ix := ⟨0xAB, 0xCD⟩ }, ?_, by decide, by decide, by decide,
    by decide, fun j h1 h2 => C88_room j h1 (by omega), by decide⟩
  intro j hj
  show (if BitVec.ofNat 16 j = 0x4000 then 0xDF else memory (BitVec.ofNat 16 j)) = _
  rw [if_neg (fun e => by have := congrArg BitVec.toNat e; rw [BitVec.toNat_ofNat] at this; simp at this; omega)]
  exact C88_rom j hj

/-- A device with a character, that asks until it is acknowledged. -/
def keyboard : Devices Unit Unit Bool :=
  { readIo := fun _ i => ((65, some 1), i), writeIo := fun _ _ i => ((none, none), i), isIrq := fun i => (i, i),
    irqData := fun _ _ => ((8, none), false), reti := fun _ i => (none, i) }

/-- The buffer is empty in this memory: the character is stored and HALT is left. -/
theorem C88_key : ∃ n c1 t1 m1 m' c' res,
    nexts (keyboard.on 32) false n waiting (0, memory, true) = some (c1, t1, m1, false) ∧
    (executeNext false c1).run (ramHost (keyboard.on 32)) (t1, m1, false) = ((res, c'), 148, m', false) ∧
    m' 0x2004 = 65 ∧ m' 0x2005 = 2 := by
  obtain ⟨n, c1, t1, m1, m', c', res, h⟩ := C88_input_empty (keyboard.on 32) false waiting 0 memory true true false false
    none (some 1) 65 C88_rom (by decide) (by decide) (by decide) C88_room rfl rfl (by decide) rfl (fun _ => rfl)
  obtain ⟨g1, g2, _, _, g5, _⟩ := h
  have e : received memory 65 = (65, 2) := by decide
  rw [e] at g5
  exact ⟨n, c1, t1, m1, m', c', res, g1, g2, congrArg Prod.fst g5, congrArg Prod.snd g5⟩

/-- And with a full buffer. -/
example : Rom (fun a => if a = 0x2005 then 2 else memory a) := by
  intro j hj
  show (if BitVec.ofNat 16 j = 0x2005 then 2 else memory (BitVec.ofNat 16 j)) = _
  rw [if_neg (fun e => by have := congrArg BitVec.toNat e; rw [BitVec.toNat_ofNat] at this; simp at this; omega)]
  exact C88_rom j hj

/-- A device that has taken a character, asks until it is acknowledged, and remembers the last one sent to it. -/
def printer : Devices Unit Unit (Bool × Option U8) :=
  { readIo := fun _ i => ((0, none), i), writeIo := fun _ x i => ((none, some 1), (i.1, some x)), isIrq := fun i => (i.1, i),
    irqData := fun _ i => ((10, none), (false, i.2)), reti := fun _ i => (none, i) }

/-- A character waits: it is sent and HALT is left. -/
theorem C88_print : ∃ n c1 t1 m1 m' c' res, let m : Mem := fun a => if a = 0x2005 then 12 else if a = 0x2006 then 65 else memory a
    nexts (printer.on 32) false n waiting (0, m, (true, none)) = some (c1, t1, m1, (false, some 65)) ∧
    (executeNext false c1).run (ramHost (printer.on 32)) (t1, m1, (false, some 65)) = ((res, c'), 148, m', (false, some 65)) ∧
    m' 0x2005 = 8 := by
  have hr : Rom (fun a => if a = 0x2005 then 12 else if a = 0x2006 then 65 else memory a) := by
    intro j hj
    show (if BitVec.ofNat 16 j = 0x2005 then 12 else if BitVec.ofNat 16 j = 0x2006 then 65 else memory (BitVec.ofNat 16 j)) = _
    rw [if_neg (fun e => by have := congrArg BitVec.toNat e; rw [BitVec.toNat_ofNat] at this; simp at this; omega),
      if_neg (fun e => by have := congrArg BitVec.toNat e; rw [BitVec.toNat_ofNat] at this; simp at this; omega)]
    exact C88_rom j hj
  obtain ⟨n, c1, t1, m1, m', c', res, h⟩ := C88_output_some (printer.on 32) false waiting 0 _ (true, none) (true, none)
    (false, none) (false, some 65) none (some 1) 65 hr (by decide) (by decide) (by decide) C88_room rfl rfl (by decide) rfl
    (fun _ => rfl)
  obtain ⟨g1, g2, _, _, g5, _⟩ := h
  exact ⟨n, c1, t1, m1, m', c', res, g1, g2, g5.trans (by decide)⟩

/-- None waits in the memory above. -/
example : (sent memory).1 = none := by decide

theorem C88_witness : ∃ n c1 t1 m1 m' c' res,
    nexts (ticker.on 32) false n waiting (0, memory, true) = some (c1, t1, m1, false) ∧
    (executeNext false c1).run (ramHost (ticker.on 32)) (t1, m1, false) = ((res, c'), 174, m', false) ∧
    outR res = some (.reti ()) ∧ frames memory = 2 ^ 32 - 1 ∧ frames m' = 0 ∧ (abs c').pc = 0x4001 := by
  have fr : frames memory = 2 ^ 32 - 1 := by decide
  obtain ⟨n, c1, t1, m1, m', c', res, h⟩ := C88_frame (ticker.on 32) false waiting 0 memory true true false (some 2)
    C88_rom (by decide) (by decide) (by decide) C88_room rfl rfl
  have hk : carries memory = 3 := by decide
  simp only [hk] at h
  obtain ⟨g1, g2, g3, g4, g5, _⟩ := h
  refine ⟨n, c1, t1, m1, m', c', res, g1, g2, g3, fr, ?_, ?_⟩
  · rw [g5, fr]
  · obtain ⟨_, _, _, e⟩ := g4
    rw [e]
    show resume (abs waiting) = 0x4001
    decide

end Z80.Kernel
