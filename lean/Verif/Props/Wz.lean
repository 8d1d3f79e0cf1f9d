import Verif.Proofs.Wz
import Verif.Props.Bus

/-!
# C41 and C35: MEMPTR, and the X and Y flags of SCF and CCF

On any host. `Spec.wzAfter` is the table of MEMPTR values, `Spec.affects` the table of the
instructions that affect the flags.
-/

set_option linter.constructorNameAsVariable false

namespace Z80
open Spec
variable {Q : Type} [FlavourSpec Q] {σ : Sig}

/-! ### C41 -/

/-- C41: MEMPTR after `execute_instruction` with any opcode, in any state, on any host. -/
theorem C41_execute_instruction {deb : Bool} {op : U8} {c c' : Cpu Q} {t : List (Ev σ)} {x : Res σ}
    (h : (executeInstruction deb op c).Runs t (x, c')) :
    c'.memptr =
      wzAfter (FlavourSpec.opt Q) op (abs c) (opcodesOf t) (bytesOf t) (wordsOf t) := by
  obtain ⟨l, e, h1, h2, h3, _⟩ := drives_path (drive_instruction deb op c) h
  rw [← opcodes_filter, ← bytes_filter, ← words_filter, performs_opcodes h2, performs_bytes h2,
    performs_words h2]
  exact (congrArg Regs.wz h3).trans (ends_path (wzOkOp _ op (abs c)) h1)

/-- C41: MEMPTR after `execute_next`, which may also accept an interrupt or stay halted. -/
theorem C41_execute_next {deb : Bool} {c c' : Cpu Q} {t : List (Ev σ)} {x : Res σ}
    (h : (executeNext deb c).Runs t (x, c')) :
    c'.memptr = wzStep (FlavourSpec.opt Q) (abs c) (ackOf t) (opcodesOf t) (bytesOf t)
      (wordsOf t) := by
  obtain ⟨l, e, h1, h2, h3, _⟩ := drives_path (drive_step deb c) h
  rw [← opcodes_filter, ← bytes_filter, ← words_filter, ← ack_filter, performs_opcodes h2,
    performs_bytes h2, performs_words h2, performs_acks h2]
  exact (congrArg Regs.wz h3).trans (wzOkStep _ (abs c) h1).1

/-- C41: `BIT n,(HL)` shows bits 13 and 11 of MEMPTR in Y and X. -/
theorem C41_bit {deb : Bool} {c c' : Cpu Q} {t : List (Ev σ)} {x : Res σ} (hp : c.pfx = none)
    (h : (executeInstruction deb 0xCB#8 c).Runs t (x, c')) {v : U8} (hv : opcodesOf t = [v])
    {n : Nat} (hd : decodeCb v = .bit n .m) :
    (abs c').f.y = c.memptr.toNat.testBit 13 ∧ (abs c').f.x = c.memptr.toNat.testBit 11 := by
  obtain ⟨l, e, h1, h2, h3, _⟩ := drives_path (drive_instruction deb _ c) h
  rw [← opcodes_filter, performs_opcodes h2] at hv
  have := ends_path (bitOk _ (abs c) (by show ixOf c.pfx = .hl; rw [hp]; rfl)) h1 n
    (by rw [hv]; exact hd)
  rw [h3]
  exact this

/-- `LD A,(nn)` leaves nn + 1 in MEMPTR, `CPIR` that goes on leaves the address of its second
byte, and `BIT 0,(HL)` shows bit 5 and 3 of its high byte. -/
example :
    let c : Cpu NMOS := { Cpu.new with
      memptr := 0x28FF#16, bc := ⟨0, 2⟩, hl := ⟨0, 1⟩, af := ⟨7, 0⟩, pc := 0#16 }
    let go := fun l => ((executeNext false c).run demo (0, program l, ())).1.2
    (go [0x3A, 0x34, 0x12]).memptr = 0x1235#16 ∧ (go [0xED, 0xB1]).memptr = 1#16 ∧
      (abs (go [0xCB, 0x46])).f.y = true ∧ (abs (go [0xCB, 0x46])).f.x = true ∧
      decodeCb 0x46 = .bit 0 .m := by decide +kernel

/-! ### C35 -/

/-- C35: the memory of whether the last instruction affected the flags, after `execute_next`. -/
theorem C35_history {deb : Bool} {c c' : Cpu Q} {t : List (Ev σ)} {x : Res σ}
    (h : (executeNext deb c).Runs t (x, c')) :
    (abs c').q = (abs c).q.map (affectedStep (abs c) (ackOf t) (opcodesOf t) (bytesOf t)) := by
  obtain ⟨l, e, h1, h2, h3, _⟩ := drives_path (drive_step deb c) h
  rw [← opcodes_filter, ← bytes_filter, ← ack_filter, performs_opcodes h2,
    performs_bytes h2, performs_acks h2]
  exact (congrArg Regs.q h3).trans (wzOkStep _ (abs c) h1).2

/-- C35: an accepted NMI counts as an instruction that does not affect the flags. -/
theorem C35_nmi {c c' : Cpu Q} {t : List (Ev σ)} (h : (nmi c).Runs t (true, c')) :
    (abs c').q = (abs c).q.map fun _ => false := by
  unfold nmi at h
  split at h
  · obtain ⟨u, v, a, rfl, h1, h2⟩ := Prog.runs_bind.1 h
    obtain ⟨rfl, h4⟩ := Prog.runs_ret h2
    obtain ⟨l, e, h3, h2, h5⟩ := nmi_path c h1
    cases h4
    have hq : (wake { abs c with iff1 := false, ei := false }.bumpR).q = (abs c).q := by
      unfold wake Regs.bumpR; split <;> rfl
    have h6 : e.1.q = (abs c).q.map fun _ => false :=
      ends_path (P := fun _ e => e.1.q = (abs c).q.map fun _ => false)
        (by unfold nmiCycles
            generalize wake { abs c with iff1 := false, ei := false }.bumpR = w at hq
            simp only [pushCycles, fin, Tree.Ends]
            exact congrArg _ hq) h3
    rw [h5]
    exact h6
  · cases h

/-- The byte that X and Y of SCF and CCF come from: A, or A or F. -/
def xyByte (c : Cpu Q) (affected : Bool) : U8 :=
  if affected then c.af.hi else c.af.hi ||| c.af.lo

/-- Y is bit 5 and X bit 3 of `v`. -/
def showsXY (c : Cpu Q) (v : U8) : Prop := c.af.lo.getLsbD 5 = v.getLsbD 5 ∧ c.af.lo.getLsbD 3 = v.getLsbD 3

theorem xySource_eq {c c1 : Cpu Q} {g : Bool → Bool} (h : (abs c1).q = (abs c).q.map g) :
    xySource (abs c1) = match (abs c).q with
      | some q => xyByte c1 (g q)
      | none => c1.af.hi := by
  have hb : (abs c1).f.byte = c1.af.lo := byte_of _
  unfold xySource
  rw [h]
  rcases (abs c).q with _ | q
  · rfl
  · show (match some (g q) with | some false => _ | _ => _) = xyByte c1 (g q)
    cases g q
    · exact congrArg (c1.af.hi ||| ·) hb
    · rfl

theorem scf_step {deb : Bool} {c c' : Cpu Q} {t : List (Ev σ)} {x : Res σ}
    (h : (executeNext deb c).Runs t (x, c')) {op : U8} {ops : List U8}
    (hop : op = 0x37#8 ∨ op = 0x3F#8) (ha : ackOf t = []) (hl : opcodesOf t = op :: ops) :
    showsXY c' (xySource (abs c)) := by
  obtain ⟨l, e, h1, h2, h3, _⟩ := drives_path (drive_step deb c) h
  rw [← opcodes_filter, performs_opcodes h2] at hl
  rw [← ack_filter, performs_acks h2] at ha
  have h4 := xyStep _ _ h1 hop ha hl
  rw [← h3] at h4
  exact ⟨(BitVec.testBit_toNat _).symm.trans (h4.1.trans (BitVec.testBit_toNat _)),
    (BitVec.testBit_toNat _).symm.trans (h4.2.trans (BitVec.testBit_toNat _))⟩

/-- C35: on NMOS, the X and Y flags of SCF and CCF after any step are those of A if the step
affected the flags and otherwise those of A or F. -/
theorem C35_nmos {deb : Bool} {c c1 c2 : Cpu NMOS} {t u : List (Ev σ)} {x y : Res σ}
    (h : (executeNext deb c).Runs t (x, c1)) (h' : (executeNext deb c1).Runs u (y, c2))
    {op : U8} {ops : List U8} (hop : op = 0x37#8 ∨ op = 0x3F#8) (ha : ackOf u = [])
    (hl : opcodesOf u = op :: ops) :
    showsXY c2 (xyByte c1 (affectedStep (abs c) (ackOf t) (opcodesOf t) (bytesOf t)
      c.flavour.flagsModified)) := by
  have h1 := scf_step h' hop ha hl
  have h2 : xySource (abs c1) = _ := xySource_eq (C35_history h)
  rw [h2] at h1
  exact h1

/-- C35: BM1 behaves in this like NMOS. -/
theorem C35_bm1 {deb : Bool} {c c1 c2 : Cpu BM1} {t u : List (Ev σ)} {x y : Res σ}
    (h : (executeNext deb c).Runs t (x, c1)) (h' : (executeNext deb c1).Runs u (y, c2))
    {op : U8} {ops : List U8} (hop : op = 0x37#8 ∨ op = 0x3F#8) (ha : ackOf u = [])
    (hl : opcodesOf u = op :: ops) :
    showsXY c2 (xyByte c1 (affectedStep (abs c) (ackOf t) (opcodesOf t) (bytesOf t)
      c.flavour.flagsModified)) := by
  have h1 := scf_step h' hop ha hl
  have h2 : xySource (abs c1) = _ := xySource_eq (C35_history h)
  rw [h2] at h1
  exact h1

/-- C35: on CMOS they are always those of A. -/
theorem C35_cmos {deb : Bool} {c c' : Cpu CMOS} {t : List (Ev σ)} {x : Res σ}
    (h : (executeNext deb c).Runs t (x, c')) {op : U8} {ops : List U8}
    (hop : op = 0x37#8 ∨ op = 0x3F#8) (ha : ackOf t = []) (hl : opcodesOf t = op :: ops) :
    showsXY c' c.af.hi := by
  have h1 := scf_step h hop ha hl
  have h2 : xySource (abs c) = c.af.hi := rfl
  rw [h2] at h1
  exact h1

/-- C35: the instructions counted as not affecting the flags leave F alone, except `POP AF` and
`EX AF,AF'`, which load it. -/
theorem C35_not_affecting {deb : Bool} {op : U8} {c c' : Cpu Q} {t : List (Ev σ)} {x : Res σ}
    (h : (executeInstruction deb op c).Runs t (x, c')) (hl : loadsF op = false)
    (ha : affects op (abs c) (opcodesOf t) (bytesOf t) = false) : c'.af.lo = c.af.lo := by
  obtain ⟨l, e, h1, h2, h3, _⟩ := drives_path (drive_instruction deb op c) h
  rw [← opcodes_filter, ← bytes_filter, performs_opcodes h2, performs_bytes h2] at ha
  have h4 := ends_path (fOkOp _ op hl (abs c)) h1 ha
  rw [← h3] at h4
  have h5 : Fl.of c'.af.lo = Fl.of c.af.lo := h4
  rw [← byte_of c'.af.lo, h5, byte_of]

/-- F after an instruction on NMOS with A, F and B given, on memory of zeros but for the two
bytes after the opcode. -/
def flagsAfter (a f b op op2 : U8) : U8 :=
  ((executeInstruction false op { (Cpu.new : Cpu NMOS) with
    af := ⟨a, f⟩, bc := ⟨b, 0⟩, pc := 0#16, hl := ⟨0, 0x80⟩, sp := 0x80#16 }).run
      demo (0, program [op2, 0, 0], ())).1.2.af.lo

/-- Some state in which F changes. -/
def canChange (op op2 : U8) : Bool :=
  [(0#8, 0#8), (0, 0xFF), (0xFF, 0), (0xFF, 0xFF)].any fun (a, f) => flagsAfter a f 1 op op2 != f

/-- C35: the table is exact: every unprefixed instruction counted as affecting the flags does
change them in some state. -/
theorem C35_affecting (op : U8) (hf : f0 (decode op) = true) :
    ∃ a f b op2, flagsAfter a f b op op2 ≠ f := by
  have h := all8_spec (p := fun op => !f0 (decode op) || canChange op 0) (by decide +kernel) op
  simp only [hf, Bool.not_true, Bool.false_or, canChange, List.any_eq_true] at h
  obtain ⟨⟨a, f⟩, _, h⟩ := h
  exact ⟨a, f, 1, 0, by simpa using h⟩

/-- C35: so does every CB instruction counted. -/
theorem C35_affecting_cb (op2 : U8) (hf : fCb (decodeCb op2) = true) :
    ∃ a f b, flagsAfter a f b 0xCB op2 ≠ f := by
  have h := all8_spec (p := fun op2 => !fCb (decodeCb op2) || canChange 0xCB op2)
    (by decide +kernel) op2
  simp only [hf, Bool.not_true, Bool.false_or, canChange, List.any_eq_true] at h
  obtain ⟨⟨a, f⟩, _, h⟩ := h
  exact ⟨a, f, 1, by simpa using h⟩

/-- C35: and every ED instruction counted. -/
theorem C35_affecting_ed (op2 : U8) (hf : fEd (decodeEd op2) = true) :
    ∃ a f b, flagsAfter a f b 0xED op2 ≠ f := by
  have h := all8_spec (p := fun op2 => !fEd (decodeEd op2) || canChange 0xED op2)
    (by decide +kernel) op2
  simp only [hf, Bool.not_true, Bool.false_or, canChange, List.any_eq_true] at h
  obtain ⟨⟨a, f⟩, _, h⟩ := h
  exact ⟨a, f, 1, by simpa using h⟩

/-- `LD A,n` then `SCF` takes X and Y from A or F, `AND A` then `CCF` from A. -/
example :
    let c : Cpu NMOS := { Cpu.new with af := ⟨0x20, 0x28⟩, pc := 0#16 }
    let m := program [0x3E, 0x20, 0x37, 0xA7, 0x3F]
    let go := fun (c : Cpu NMOS) => ((executeNext false c).run demo (0, m, ())).1.2
    (go (go c)).af.lo = 0x29 ∧ (go (go (go (go c)))).af.lo = 0x21 := by decide +kernel

end Z80
