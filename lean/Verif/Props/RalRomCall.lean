import Verif.Spec.RalRomCall
import Verif.Proofs.RalRomCall
import Verif.Props.RalRom

/-!
# Characters come from the system call of the example computer in the order they were received (C89)

`RST 08h` is the call by which a program fetches a character. The devices are taken not to ask for an interrupt while
it runs; interrupts may be enabled or not when it is called.
-/

namespace Z80.Kernel
open Spec Spec.RalRom
variable {w : Nat} {O R I : Type} {Q : Type} [FlavourSpec Q]

theorem waiting_nil {m : U16 → U8} {y : U8} (h : waitingChars m y = []) : (m 0x2005).getLsbD 1 = false := by
  unfold waitingChars at h
  split at h
  · cases h
  · simp_all

theorem waiting_one {m : U16 → U8} {x y : U8} (h : waitingChars m y = [x]) :
    (m 0x2005).getLsbD 1 = true ∧ (m 0x2005).getLsbD 0 = false ∧ m 0x2004 = x := by
  unfold waitingChars at h
  split at h
  · split at h
    · simp at h
    · simp_all
  · cases h

theorem waiting_two {m : U16 → U8} {x y z : U8} (h : waitingChars m y = [x, z]) :
    (m 0x2005).getLsbD 1 = true ∧ (m 0x2005).getLsbD 0 = true ∧ m 0x2004 = x ∧ y = z := by
  unfold waitingChars at h
  split at h
  · split at h
    · simp_all
    · simp at h
  · cases h

/-- C89: no character waits and the caller does not want to wait (carry reset): the zero flag is set and A is as it
was, after 93 T-states. -/
theorem C89_none (io : Handler (tsSig w O R) I) (deb : Bool) (c : Cpu Q) (t : BitVec w) (m : Mem) (i : I) (y : U8)
    (hm : Rom m) (h2 : (abs c).idx = .hl) (h3 : (abs c).halted = false) (hs : Room (abs c).sp 2)
    (hop : m (abs c).pc = 0xCF) (hn : ∀ t', io (.isIrq t') i = (false, i))
    (hq : waitingChars m y = []) (hc : (abs c).f.c = false) :
    ∃ n c' m' f h l, nexts io deb n c (t, m, i) = some (c', t + 93#w, m', i) ∧ f.z = true ∧
      Alike (answered (abs c) (abs c).a f h l) (abs c') ∧
      ∀ a : U16, a ≠ (abs c).sp - 1 → a ≠ (abs c).sp - 2 → m' a = m a := by
  obtain ⟨r', f, g, fz, al⟩ := call_none (o := FlavourSpec.opt Q) (v := envOf io) (abs c) m i t hm h2 h3 hs hop hn
    (waiting_nil hq) hc
  obtain ⟨n, c', g1, g2⟩ := nexts_reach io deb g rfl
  have g2 : r' = abs c' := g2.symm
  subst g2
  exact ⟨n, c', _, f, _, _, g1, fz, al, fun a a1 a2 => push_at _ _ a1 a2⟩

/-- C89: one character waits: A is that character, the zero flag is reset, and none waits any more, after 127
T-states. -/
theorem C89_one (io : Handler (tsSig w O R) I) (deb : Bool) (c : Cpu Q) (t : BitVec w) (m : Mem) (i : I) (x y : U8)
    (hm : Rom m) (h2 : (abs c).idx = .hl) (h3 : (abs c).halted = false) (hs : Room (abs c).sp 2)
    (hop : m (abs c).pc = 0xCF) (hn : ∀ t', io (.isIrq t') i = (false, i)) (hq : waitingChars m y = [x]) :
    ∃ n c' m' f h l, nexts io deb n c (t, m, i) = some (c', t + 127#w, m', i) ∧ f.z = false ∧
      Alike (answered (abs c) x f h l) (abs c') ∧
      (∀ z, waitingChars m' z = []) ∧ m' 0x2005 = m 0x2005 &&& 0xFD ∧
      ∀ a : U16, a ≠ 0x2005 → a ≠ (abs c).sp - 1 → a ≠ (abs c).sp - 2 → m' a = m a := by
  obtain ⟨b1, b0, rfl⟩ := waiting_one hq
  obtain ⟨r', f, g, fz, al⟩ := call_char (o := FlavourSpec.opt Q) (v := envOf io) (abs c) m i t hm h2 h3 hs hop hn b1 b0
  obtain ⟨n, c', g1, g2⟩ := nexts_reach io deb g rfl
  have g2 : r' = abs c' := g2.symm
  subst g2
  refine ⟨n, c', _, f, _, _, g1, fz, al, fun z => ?_, Routine.put_same _ _ _, fun a a5 a1 a2 => ?_⟩
  · rw [waitingChars, if_neg]
    show ¬ (Routine.put _ _ _ _).getLsbD 1 = true
    rw [Routine.put_same, BitVec.getLsbD_and]
    simp
  · show Routine.put _ _ _ a = _
    rw [Routine.put_other _ _ a5, push_at _ _ a1 a2]

/-- C89: two characters wait: A is the first, the second is read from port 8, once, and waits alone now, after 179
T-states and the wait states of the port. -/
theorem C89_two (io : Handler (tsSig w O R) I) (deb : Bool) (c : Cpu Q) (t : BitVec w) (m : Mem) (i i1 : I) (x y : U8)
    (wi : Option U16) (hm : Rom m) (h2 : (abs c).idx = .hl) (h3 : (abs c).halted = false) (hs : Room (abs c).sp 4)
    (hop : m (abs c).pc = 0xCF) (hn : ∀ t', io (.isIrq t') i = (false, i))
    (hin : io (.readIo (word x 8) (t + 129#w)) i = ((y, wi), i1)) (hn1 : ∀ t', io (.isIrq t') i1 = (false, i1))
    (hq : waitingChars m y = [x, y]) :
    ∃ n c' m' f h l, nexts io deb n c (t, m, i) =
        some (c', t + BitVec.ofNat w (179 + (wi.map BitVec.toNat).getD 0), m', i1) ∧ f.z = false ∧
      Alike (answered (abs c) x f h l) (abs c') ∧
      (∀ z, waitingChars m' z = [y]) ∧ m' 0x2005 = m 0x2005 &&& 0xFE ∧
      ∀ a : U16, a ≠ 0x2004 → a ≠ 0x2005 → (∀ j, 1 ≤ j → j ≤ 4 → a ≠ (abs c).sp - BitVec.ofNat 16 j) → m' a = m a := by
  obtain ⟨b1, b0, rfl, _⟩ := waiting_two hq
  obtain ⟨r', f, p, g, fz, al⟩ := call_next (o := FlavourSpec.opt Q) (v := envOf io) (abs c) m i t hm h2 h3 hs hop hn b1 b0
    y wi i1 hin hn1
  obtain ⟨n, c', g1, g2⟩ := nexts_reach io deb g rfl
  have g2 : r' = abs c' := g2.symm
  subst g2
  have s4 : Room ((abs c).sp - 2) 2 := room_sub hs
  have e5 : Routine.put (Routine.push (Routine.put (Routine.push m (abs c).sp ((abs c).pc + 1)) 0x2005 (m 0x2005 &&& 0xFE))
      ((abs c).sp - 2) p) 0x2004 y 0x2005 = m 0x2005 &&& 0xFE := by
    rw [Routine.put_other _ _ (by decide), push_low _ _ s4 (by decide), Routine.put_same]
  refine ⟨n, c', _, f, _, _, g1, fz, al, fun z => ?_, e5, fun a a4 a5 hj => ?_⟩
  · simp only [waitingChars, e5, Routine.put_same, BitVec.getLsbD_and, b1, b0]
    rfl
  · have j1 := hj 1 (by omega) (by omega)
    have j2 := hj 2 (by omega) (by omega)
    have j3 := hj 3 (by omega) (by omega)
    have j4 := hj 4 (by omega) (by omega)
    show Routine.put _ _ _ a = _
    rw [Routine.put_other _ _ a4, push_at _ _ (by bv_omega) (by bv_omega), Routine.put_other _ _ a5,
      push_at _ _ (by bv_omega) (by bv_omega)]

/-- C89: what the interrupt routine of `C88_input_empty` and `C88_input_full` does to the buffer is to put the character
received behind the others, as long as the device had none. -/
theorem C89_received (m m' : U16 → U8) (x y : U8) (h : (m' 0x2004, m' 0x2005) = received m x)
    (h0 : (m 0x2005).getLsbD 0 = false) : waitingChars m' x = waitingChars m y ++ [x] := by
  unfold received at h
  split at h <;> rename_i hb <;> simp only [Prod.mk.injEq] at h <;> obtain ⟨h4, h5⟩ := h <;>
    simp only [waitingChars, h4, h5, BitVec.getLsbD_or, hb, h0] <;> simp

/-! A case that meets the hypotheses: the memory of C88 with a program at 0x4000 and two characters. -/

/-- `RST 08h` at 0x4000; `A` is in the buffer, and the flags are `k`. -/
def typed (k : U8) : Mem := fun a =>
  if a = 0x4000 then 0xCF else if a = 0x2004 then 65 else if a = 0x2005 then k else memory a

theorem C89_rom (k : U8) : Rom (typed k) := by
  intro j hj
  have h (a : U16) (ha : 0x2000 ≤ a.toNat) : BitVec.ofNat 16 j ≠ a := by
    rintro rfl
    rw [BitVec.toNat_ofNat] at ha
    omega
  simp only [typed, if_neg (h 0x4000 (by decide)), if_neg (h 0x2004 (by decide)), if_neg (h 0x2005 (by decide))]
  exact C88_rom j hj

/-- A program with interrupts enabled. -/
def asking : Cpu NMOS := { waiting with halt := false, af := ⟨7, 0⟩ }

/-- A device with the character `B`. -/
def typist : Devices Unit Unit Unit :=
  { readIo := fun _ i => ((66, some 3), i), writeIo := fun _ _ i => ((none, none), i), isIrq := fun i => (false, i),
    irqData := fun _ i => ((8, none), i), reti := fun _ i => (none, i) }

/-- Two characters wait: the program gets the first. -/
theorem C89_witness : ∃ n c' m', nexts (typist.on 32) false n asking (0, typed 3, ()) = some (c', 182, m', ()) ∧
    (abs c').a = 65 ∧ (abs c').f.z = false ∧ (abs c').pc = 0x4001 ∧ ∀ z, waitingChars m' z = [66] := by
  obtain ⟨n, c', m', f, h, l, g1, fz, ⟨_, _, _, al⟩, g4, _⟩ := C89_two (typist.on 32) false asking 0 (typed 3) () () 65 66 (some 3)
    (C89_rom 3) (by decide) (by decide) (fun j h1 h2 => C88_room j h1 (by omega)) (by decide) (fun _ => rfl) rfl
    (fun _ => rfl) (by decide)
  refine ⟨n, c', m', g1, ?_, ?_, ?_, g4⟩ <;> rw [al]
  · rfl
  · exact fz
  · show (abs asking).pc + 1 = 0x4001
    decide

/-- One, and none. -/
example : waitingChars (typed 2) 0 = [65] ∧ waitingChars (typed 0) 0 = [] ∧ (abs asking).f.c = false ∧
    Room (abs asking).sp 2 := ⟨by decide, by decide, by decide, fun j h1 h2 => C88_room j h1 (by omega)⟩

end Z80.Kernel
