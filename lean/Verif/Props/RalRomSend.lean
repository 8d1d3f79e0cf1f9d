import Verif.Proofs.RalRomSend
import Verif.Props.RalRomCall

/-!
# Characters given to the system call of the example computer are sent, each once (C90)

`RST 10h` is the call by which a program sends the character in A (`/repo/examples/ral1243/README.md` 97-100). Bit 3 of
the flags at 0x2005 says that the device is busy, bit 2 that a character waits for it at 0x2006. The devices are taken
not to ask for an interrupt while the call runs; interrupts may be enabled or not when it is made.
-/

namespace Z80.Kernel
open Spec Spec.RalRom
variable {w : Nat} {O R I : Type} {Q : Type} [FlavourSpec Q]

/-- C90: a character waits already and the caller does not want to wait (carry set): the zero flag is reset, nothing is
sent and the one that waits is not disturbed, after 93 T-states. -/
theorem C90_full (io : Handler (tsSig w O R) I) (deb : Bool) (c : Cpu Q) (t : BitVec w) (m : Mem) (i : I)
    (hm : Rom m) (h2 : (abs c).idx = .hl) (h3 : (abs c).halted = false) (hs : Room (abs c).sp 2)
    (hop : m (abs c).pc = 0xD7) (hn : ∀ t', io (.isIrq t') i = (false, i))
    (hb : (m 0x2005).getLsbD 2 = true) (hc : (abs c).f.c = true) :
    ∃ n c' m' f h l, nexts io deb n c (t, m, i) = some (c', t + 93#w, m', i) ∧ f.z = false ∧
      Alike (answered (abs c) (abs c).a f h l) (abs c') ∧
      ∀ a : U16, a ≠ (abs c).sp - 1 → a ≠ (abs c).sp - 2 → m' a = m a := by
  obtain ⟨r', f, g, fz, al⟩ := send_full (o := FlavourSpec.opt Q) (v := envOf io) (abs c) m i t hm h2 h3 hs hop hn hb hc
  obtain ⟨n, c', g1, g2⟩ := nexts_reach io deb g rfl
  have g2 : r' = abs c' := g2.symm
  subst g2
  exact ⟨n, c', _, f, _, _, g1, fz, al, fun a a1 a2 => push_at _ _ a1 a2⟩

/-- C90: the device is busy and nothing waits: the character waits, so that the next interrupt of the device sends it
(`C88_output_some`), and the zero flag is set, after 127 T-states without any write to a device. -/
theorem C90_later (io : Handler (tsSig w O R) I) (deb : Bool) (c : Cpu Q) (t : BitVec w) (m : Mem) (i : I)
    (hm : Rom m) (h2 : (abs c).idx = .hl) (h3 : (abs c).halted = false) (hs : Room (abs c).sp 2)
    (hop : m (abs c).pc = 0xD7) (hn : ∀ t', io (.isIrq t') i = (false, i))
    (hb : (m 0x2005).getLsbD 2 = false) (hb3 : (m 0x2005).getLsbD 3 = true) :
    ∃ n c' m' f h l, nexts io deb n c (t, m, i) = some (c', t + 127#w, m', i) ∧ f.z = true ∧
      Alike (answered (abs c) (abs c).a f h l) (abs c') ∧
      sent m' = (some (abs c).a, m 0x2005) ∧ m' 0x2005 = m 0x2005 ||| 4 ∧
      ∀ a : U16, a ≠ 0x2005 → a ≠ 0x2006 → a ≠ (abs c).sp - 1 → a ≠ (abs c).sp - 2 → m' a = m a := by
  obtain ⟨r', f, g, fz, al⟩ := send_later (o := FlavourSpec.opt Q) (v := envOf io) (abs c) m i t hm h2 h3 hs hop hn hb hb3
  obtain ⟨n, c', g1, g2⟩ := nexts_reach io deb g rfl
  have g2 : r' = abs c' := g2.symm
  subst g2
  have e5 : Routine.put (Routine.put (Routine.push m (abs c).sp ((abs c).pc + 1)) 0x2005 (m 0x2005 ||| 4)) 0x2006 (abs c).a
      0x2005 = m 0x2005 ||| 4 := by
    rw [Routine.put_other _ _ (by decide), Routine.put_same]
  refine ⟨n, c', _, f, _, _, g1, fz, al, ?_, e5, fun a a5 a6 a1 a2 => ?_⟩
  · have h : ∀ y : U8, y.getLsbD 2 = false → (y ||| 4).getLsbD 2 = true ∧ (y ||| 4) &&& 0xFB = y := by decide +kernel
    obtain ⟨k1, k2⟩ := h _ hb
    simp only [sent, e5, Routine.put_same, k1, k2, if_true]
  · show Routine.put _ _ _ a = _
    rw [Routine.put_other _ _ a6, Routine.put_other _ _ a5, push_at _ _ a1 a2]

/-- C90: the device is not busy: the character is written to port 10, once, the device is busy now, and the zero flag is
set, after 142 T-states and the wait states of the port. The device is taken not to stop the emulation at this write. -/
theorem C90_now (io : Handler (tsSig w O R) I) (deb : Bool) (c : Cpu Q) (t : BitVec w) (m : Mem) (i i1 : I)
    (wo : Option U16) (hm : Rom m) (h2 : (abs c).idx = .hl) (h3 : (abs c).halted = false) (hs : Room (abs c).sp 2)
    (hop : m (abs c).pc = 0xD7) (hn : ∀ t', io (.isIrq t') i = (false, i))
    (hout : io (.writeIo (word (abs c).a 10) (abs c).a (t + 105#w)) i = ((none, wo), i1))
    (hn1 : ∀ t', io (.isIrq t') i1 = (false, i1))
    (hb : (m 0x2005).getLsbD 2 = false) (hb3 : (m 0x2005).getLsbD 3 = false) :
    ∃ n c' m' f h l, nexts io deb n c (t, m, i) =
        some (c', t + BitVec.ofNat w (142 + (wo.map BitVec.toNat).getD 0), m', i1) ∧ f.z = true ∧
      Alike (answered (abs c) (abs c).a f h l) (abs c') ∧ m' 0x2005 = m 0x2005 ||| 8 ∧
      ∀ a : U16, a ≠ 0x2005 → a ≠ (abs c).sp - 1 → a ≠ (abs c).sp - 2 → m' a = m a := by
  obtain ⟨r', f, g, fz, al⟩ := send_now (o := FlavourSpec.opt Q) (v := envOf io) (abs c) m i t hm h2 h3 hs hop hn hb hb3
    wo i1 hout hn1
  obtain ⟨n, c', g1, g2⟩ := nexts_reach io deb g rfl
  have g2 : r' = abs c' := g2.symm
  subst g2
  refine ⟨n, c', _, f, _, _, g1, fz, al, Routine.put_same _ _ _, fun a a5 a1 a2 => ?_⟩
  show Routine.put _ _ _ a = _
  rw [Routine.put_other _ _ a5, push_at _ _ a1 a2]

/-! A case that meets the hypotheses: `RST 10h` at 0x4000 in the memory of C88. -/

/-- `RST 10h` at 0x4000; the flags are `k`. -/
def telling (k : U8) : Mem := fun a => if a = 0x4000 then 0xD7 else if a = 0x2005 then k else memory a

theorem C90_rom (k : U8) : Rom (telling k) := by
  intro j hj
  have h (a : U16) (ha : 0x2000 ≤ a.toNat) : BitVec.ofNat 16 j ≠ a := by
    rintro rfl
    rw [BitVec.toNat_ofNat] at ha
    omega
  simp only [telling, if_neg (h 0x4000 (by decide)), if_neg (h 0x2005 (by decide))]
  exact C88_rom j hj

/-- The device is free: it gets the 7 in A. -/
theorem C90_witness : ∃ n c' m',
    nexts (printer.on 32) false n asking (0, telling 0, (false, none)) = some (c', 143, m', (false, some 7)) ∧
    (abs c').f.z = true ∧ (abs c').pc = 0x4001 ∧ m' 0x2005 = 8 := by
  obtain ⟨n, c', m', f, h, l, g1, fz, ⟨_, _, _, al⟩, g4, _⟩ := C90_now (printer.on 32) false asking 0 (telling 0) (false, none)
    (false, some 7) (some 1) (C90_rom 0) (by decide) (by decide) (fun j h1 h2 => C88_room j h1 (by omega)) (by decide)
    (fun _ => rfl) rfl (fun _ => rfl) (by decide) (by decide)
  refine ⟨n, c', m', g1, ?_, ?_, g4.trans (by decide)⟩ <;> rw [al]
  · exact fz
  · show (abs asking).pc + 1 = 0x4001
    decide

/-- The device is busy, and with a character waiting. -/
example : (telling 8 0x2005).getLsbD 2 = false ∧ (telling 8 0x2005).getLsbD 3 = true ∧
    (telling 12 0x2005).getLsbD 2 = true ∧ (abs { asking with af := ⟨7, 1⟩ }).f.c = true := by decide

end Z80.Kernel
