import Verif.Proofs.Frame
import Verif.Props.Bus
import Verif.Proofs.Executed

/-!
# C53 and C54: which registers instructions leave alone, and where they end

On any host. `Spec.changes` is the table of the registers an instruction may change, `Spec.pcAfter` the table of program
counter values.
-/

set_option linter.constructorNameAsVariable false

namespace Z80
open Spec
variable {Q : Type} [FlavourSpec Q] {σ : Sig}

/-- What the getters show of a register. -/
def Obs.loc (o : Obs) : Loc → Nat
  | .a => o.a.toNat | .f => o.f.toNat
  | .b => o.b.toNat | .c => o.c.toNat | .d => o.d.toNat | .e => o.e.toNat | .h => o.h.toNat | .l => o.l.toNat
  | .ixh => o.ixh.toNat | .ixl => o.ixl.toNat | .iyh => o.iyh.toNat | .iyl => o.iyl.toNat
  | .a' => o.a'.toNat | .f' => o.f'.toNat
  | .b' => o.b'.toNat | .c' => o.c'.toNat | .d' => o.d'.toNat | .e' => o.e'.toNat | .h' => o.h'.toNat
  | .l' => o.l'.toNat
  | .sp => o.sp.toNat | .i => o.i.toNat | .r7 => o.r.toNat / 128
  | .iff1 => o.iffs.1.toNat | .iff2 => o.iffs.2.toNat
  | .im => match o.im with | .mode0 => 0 | .mode1 => 1 | .mode2 => 2

theorem loc_abs (c : Cpu Q) (g : Loc) : c.obs.loc g = (abs c).loc g := by
  cases g
  case f => exact congrArg BitVec.toNat (byte_of c.af.lo).symm
  case f' => exact congrArg BitVec.toNat (byte_of c.afAlt.lo).symm
  case im => show (match c.im with | .mode0 => 0 | .mode1 => 1 | .mode2 => 2) = imOf c.im; cases c.im <;> rfl
  all_goals rfl

/-- Both tables for `execute_instruction`. -/
theorem frame_instruction {deb : Bool} {op : U8} {c c' : Cpu Q} {t : List (Ev σ)} {x : Res σ}
    (h : (executeInstruction deb op c).Runs t (x, c')) :
    c'.getPc = pcAfter op (abs c) (opcodesOf t) (bytesOf t) (wordsOf t) ∧
    ∀ g, g ∉ changes op (abs c) (opcodesOf t) (bytesOf t) → c'.obs.loc g = c.obs.loc g := by
  obtain ⟨l, e, h1, h2, h3, _⟩ := drives_path (drive_instruction deb op c) h
  rw [← opcodes_filter, ← bytes_filter, ← words_filter, performs_opcodes h2, performs_bytes h2,
    performs_words h2]
  have h4 := ends_path (frameOp _ op (abs c)) h1
  refine ⟨(congrArg Regs.pc h3).trans h4.1, fun g hg => ?_⟩
  rw [loc_abs, loc_abs, h3]
  exact h4.2 g hg

theorem frame_next {deb : Bool} {c c' : Cpu Q} {t : List (Ev σ)} {x : Res σ}
    (h : (executeNext deb c).Runs t (x, c')) :
    c'.getPc = pcStep (abs c) (ackOf t) (opcodesOf t) (bytesOf t) (wordsOf t) ∧
    ∀ g, g ∉ changesStep (abs c) (ackOf t) (opcodesOf t) (bytesOf t) → c'.obs.loc g = c.obs.loc g := by
  obtain ⟨l, e, h1, h2, h3, _⟩ := drives_path (drive_step deb c) h
  rw [← opcodes_filter, ← bytes_filter, ← words_filter, ← ack_filter, performs_opcodes h2,
    performs_bytes h2, performs_words h2, performs_acks h2]
  have h4 := frameStep _ (abs c) h1
  refine ⟨(congrArg Regs.pc h3).trans h4.1, fun g hg => ?_⟩
  rw [loc_abs, loc_abs, h3]
  exact h4.2 g hg

theorem frame_nmi {c c' : Cpu Q} {t : List (Ev σ)} (h : (nmi c).Runs t (true, c')) :
    c'.getPc = 0x66#16 ∧ ∀ g, g ∉ [Loc.sp, .iff1] → c'.obs.loc g = c.obs.loc g := by
  unfold nmi at h
  split at h
  · obtain ⟨u, v, a, rfl, h1, h2⟩ := Prog.runs_bind.1 h
    obtain ⟨rfl, h4⟩ := Prog.runs_ret h2
    obtain ⟨l, e, h3, h2, h5⟩ := nmi_path c h1
    cases h4
    have h6 := frameNmi (abs c) h3
    refine ⟨(congrArg Regs.pc h5).trans h6.1, fun g hg => ?_⟩
    rw [loc_abs, loc_abs, h5]
    exact h6.2 g hg
  · cases h

theorem frame_irq {deb : Bool} {c c' : Cpu Q} {t : List (Ev σ)} {x : Res σ}
    (h : (irq deb c).Runs t (some x, c')) :
    c'.getPc = pcStep (abs c) (ackOf t) (opcodesOf t) (bytesOf t) (wordsOf t) ∧
    ∀ g, g ∉ changesStep (abs c) (ackOf t) (opcodesOf t) (bytesOf t) → c'.obs.loc g = c.obs.loc g := by
  unfold irq at h
  split at h
  next hi =>
    obtain ⟨hp, hl⟩ : c.pfx = none ∧ c.lastEi = false := by
      simp only [Cpu.isIrqAllowed, isIntAllowed, Bool.and_eq_true, Bool.not_eq_true',
        Option.isNone_iff_eq_none] at hi
      exact hi.2
    obtain ⟨u, v, a, rfl, h1, h2⟩ := Prog.runs_bind.1 h
    obtain ⟨rfl, h4⟩ := Prog.runs_ret h2
    cases h4
    obtain ⟨l, e, h1, h2, h3, _⟩ := drives_path (drive_interrupt deb c hp hl) h1
    rw [List.append_nil]
    rw [← opcodes_filter, ← bytes_filter, ← words_filter, ← ack_filter, performs_opcodes h2,
      performs_bytes h2, performs_words h2, performs_acks h2]
    have h4 := frameIrq _ (abs c) h1
    refine ⟨(congrArg Regs.pc h3).trans h4.1, fun g hg => ?_⟩
    rw [loc_abs, loc_abs, h3]
    exact h4.2 g hg
  · cases h

/-! ### C53 -/

/-- C53: `execute_instruction` with any opcode, in any state, on any host, changes no other registers than those in the
table. -/
theorem C53_execute_instruction {deb : Bool} {op : U8} {c c' : Cpu Q} {t : List (Ev σ)} {x : Res σ}
    (h : (executeInstruction deb op c).Runs t (x, c')) (g : Loc)
    (hg : g ∉ changes op (abs c) (opcodesOf t) (bytesOf t)) : c'.obs.loc g = c.obs.loc g :=
  (frame_instruction h).2 g hg

/-- C53: `execute_next`, which may also accept an interrupt or stay halted. -/
theorem C53_execute_next {deb : Bool} {c c' : Cpu Q} {t : List (Ev σ)} {x : Res σ}
    (h : (executeNext deb c).Runs t (x, c')) (g : Loc)
    (hg : g ∉ changesStep (abs c) (ackOf t) (opcodesOf t) (bytesOf t)) : c'.obs.loc g = c.obs.loc g :=
  (frame_next h).2 g hg

/-- C53: an accepted interrupt request changes the interrupt flip-flops and SP, in mode 0 what the instruction given by
the device changes. -/
theorem C53_irq {deb : Bool} {c c' : Cpu Q} {t : List (Ev σ)} {x : Res σ}
    (h : (irq deb c).Runs t (some x, c')) (g : Loc)
    (hg : g ∉ changesStep (abs c) (ackOf t) (opcodesOf t) (bytesOf t)) : c'.obs.loc g = c.obs.loc g :=
  (frame_irq h).2 g hg

/-- C53: a non-maskable interrupt changes SP and the first interrupt flip-flop. -/
theorem C53_nmi {c c' : Cpu Q} {t : List (Ev σ)} (h : (nmi c).Runs t (true, c')) (g : Loc)
    (hg : g ≠ .sp ∧ g ≠ .iff1) : c'.obs.loc g = c.obs.loc g :=
  (frame_nmi h).2 g (by simp [hg])

/-! ### C54 -/

/-- C54: the program counter after `execute_instruction` with any opcode, in any state, on any host. -/
theorem C54_execute_instruction {deb : Bool} {op : U8} {c c' : Cpu Q} {t : List (Ev σ)} {x : Res σ}
    (h : (executeInstruction deb op c).Runs t (x, c')) :
    c'.getPc = pcAfter op (abs c) (opcodesOf t) (bytesOf t) (wordsOf t) := (frame_instruction h).1

/-- C54: the program counter after `execute_next`, which may also accept an interrupt or stay halted. -/
theorem C54_execute_next {deb : Bool} {c c' : Cpu Q} {t : List (Ev σ)} {x : Res σ}
    (h : (executeNext deb c).Runs t (x, c')) :
    c'.getPc = pcStep (abs c) (ackOf t) (opcodesOf t) (bytesOf t) (wordsOf t) := (frame_next h).1

/-- C54: the program counter after an accepted interrupt request. -/
theorem C54_irq {deb : Bool} {c c' : Cpu Q} {t : List (Ev σ)} {x : Res σ}
    (h : (irq deb c).Runs t (some x, c')) :
    c'.getPc = pcStep (abs c) (ackOf t) (opcodesOf t) (bytesOf t) (wordsOf t) := (frame_irq h).1

/-- C54: the program counter after a non-maskable interrupt. -/
theorem C54_nmi {c c' : Cpu Q} {t : List (Ev σ)} (h : (nmi c).Runs t (true, c')) : c'.getPc = 0x66#16 :=
  (frame_nmi h).1

/-- C54: an instruction that is no jump, call or return, `HALT` or repeated instruction ends its length after its
beginning. The prefix before it, if there is one, is a step of its own. -/
theorem C54_straight {deb : Bool} {c c' : Cpu Q} {t : List (Ev σ)} {x : Res σ}
    (h : (executeNext deb c).Runs t (x, c')) {op : U8} {ops : List U8} (ha : ackOf t = [])
    (ho : opcodesOf t = op :: ops) (hs : straight op (ops.headD 0) = true) :
    c'.getPc = c.getPc + BitVec.ofNat 16 (length c.getPrefix.isSome op (ops.headD 0)) := by
  have h1 := C54_execute_next h
  rw [ha, ho] at h1
  refine h1.trans ((pc_straight hs).trans ?_)
  have e : decide ((abs c).idx ≠ .hl) = c.getPrefix.isSome := by
    show decide (ixOf c.getPrefix ≠ .hl) = c.getPrefix.isSome
    rcases c.getPrefix with _ | _ | _ <;> rfl
  rw [e]
  rfl

/-! ### The table of registers is exact -/

/-- States in which the registers have various values. -/
def samples : List (Cpu NMOS) :=
  let c : Cpu NMOS := { (Cpu.new : Cpu NMOS) with
    af := ⟨0x5A, 0x00⟩, bc := ⟨0x12, 0x83⟩, de := ⟨0x24, 0x95⟩, hl := ⟨0x31, 0xA6⟩,
    afAlt := ⟨0xFF, 0xFF⟩, bcAlt := ⟨0xFF, 0xFF⟩, deAlt := ⟨0xFF, 0xFF⟩, hlAlt := ⟨0xFE, 0xFE⟩,
    ix := ⟨0x43, 0xB7⟩, iy := ⟨0x55, 0xC8⟩, sp := 0x6180#16, ir := ⟨0x77, 0x13⟩, r := 0x13, pc := 0x10#16,
    iff1 := false, iff2 := true, im := .mode0 }
  [c,
   { c with af := ⟨0xA5, 0xFF⟩, bc := ⟨0xFF, 0xFF⟩, ir := ⟨0, 0xFF⟩, r := 0xFF, iff1 := true, im := .mode1 },
   { c with
      af := ⟨0xFF, 0x01⟩, bc := ⟨0xFF, 0⟩, de := ⟨0xFF, 0xFF⟩, hl := ⟨0xFF, 0xFF⟩, sp := 0xFFFF#16, iff2 := false
      ix := ⟨0xFF, 0xFF⟩, iy := ⟨0xFF, 0xFF⟩ },
   { c with
      af := ⟨0x80, 0x00⟩, bc := ⟨0, 0⟩, de := ⟨0, 0⟩, hl := ⟨0, 0⟩, sp := 0#16, iff1 := true, iff2 := false
      ix := ⟨0, 0⟩, iy := ⟨0, 0⟩ },
   { c with
      af := ⟨0x80, 0xFF⟩, bc := ⟨0x7F, 0x80⟩, de := ⟨0x80, 0x7F⟩, hl := ⟨0x80, 0x80⟩, iff1 := true, iff2 := true
      ix := ⟨0x80, 0x80⟩, iy := ⟨0x80, 0x80⟩ }]

/-- The state after an instruction on NMOS, with the given byte after the opcode in memory. -/
def ranWith (c : Cpu NMOS) (op op2 : U8) : Cpu NMOS :=
  ((executeInstruction false op c).run demo
    (0, fun a => if a = 0x10#16 then op2 else if a = 0x11#16 then 0x22#8 else a.setWidth 8 ^^^ 0x5A#8, ())).1.2

/-- Some sample in which the instruction changes the register. -/
def moves (p : Option Prefix) (op op2 : U8) (g : Loc) : Bool :=
  samples.any fun c => (ranWith { c with pfx := p } op op2).obs.loc g != c.obs.loc g

theorem moves_spec {p : Option Prefix} {op op2 : U8} {g : Loc} (h : moves p op op2 g = true) :
    ∃ c : Cpu NMOS, c.getPrefix = p ∧ (ranWith c op op2).obs.loc g ≠ c.obs.loc g := by
  simp only [moves, List.any_eq_true, bne_iff_ne] at h
  obtain ⟨c, _, h⟩ := h
  refine ⟨{ c with pfx := p }, rfl, fun he => h (he.trans ?_)⟩
  cases g <;> rfl

/-- C53: the table is exact: whatever an instruction without CB or ED may change by the table, with or without a prefix, it
changes in some state. -/
theorem C53_exact (p : Option Prefix) (op : U8) {g : Loc} (hg : g ∈ changes0 (ixOf p) (decode op)) :
    ∃ c : Cpu NMOS, c.getPrefix = p ∧ (ranWith c op 0x22#8).obs.loc g ≠ c.obs.loc g := by
  refine moves_spec ?_
  have h : ∀ p ∈ [none, some .xdd, some .yfd], all8 (fun op =>
      (changes0 (ixOf p) (decode op)).all fun g => moves p op 0x22#8 g) = true := by decide +kernel
  refine List.all_eq_true.1 (all8_spec (h p ?_) op) g hg
  rcases p with _ | _ | _ <;> simp

/-- C53: the same of instructions after CB. -/
theorem C53_exact_cb (op2 : U8) {g : Loc} (hg : g ∈ changesCb (decodeCb op2)) :
    ∃ c : Cpu NMOS, c.getPrefix = none ∧ (ranWith c 0xCB#8 op2).obs.loc g ≠ c.obs.loc g :=
  moves_spec (List.all_eq_true.1 (all8_spec (p := fun op2 =>
    (changesCb (decodeCb op2)).all fun g => moves none 0xCB#8 op2 g) (by decide +kernel) op2) g hg)

/-- C53: the same of instructions after ED. -/
theorem C53_exact_ed (op2 : U8) {g : Loc} (hg : g ∈ changesEd (decodeEd op2)) :
    ∃ c : Cpu NMOS, c.getPrefix = none ∧ (ranWith c 0xED#8 op2).obs.loc g ≠ c.obs.loc g :=
  moves_spec (List.all_eq_true.1 (all8_spec (p := fun op2 =>
    (changesEd (decodeEd op2)).all fun g => moves none 0xED#8 op2 g) (by decide +kernel) op2) g hg)

/-- `LDIR` goes on at its own first byte and leaves A alone, `JR` to itself, `CALL` through the end of memory, an
instruction with a displacement. -/
example :
    let c : Cpu NMOS := { Cpu.new with bc := ⟨0, 2⟩, hl := ⟨0, 1⟩, af := ⟨7, 0⟩, pc := 0#16, sp := 0x100#16 }
    let go := fun l => ((executeNext false c).run demo (0, program l, ())).1.2
    (go [0xED, 0xB0]).getPc = 0#16 ∧ Loc.a ∉ changesStep (abs c) [] [0xED, 0xB0] [0xED] ∧
      (go [0x18, 0xFE]).getPc = 0#16 ∧ (go [0xCD, 0x34, 0x12]).getPc = 0x1234#16 ∧
      ((executeInstruction false 0x34#8 { c with pfx := some .xdd }).run demo (0, program [5], ())).1.2.getPc = 1#16 := by
  decide +kernel

end Z80
