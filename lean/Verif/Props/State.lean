import Verif.Proofs.Ctl
import Verif.Proofs.Runs

/-!
# C09, C10, C12: registers, exchanges and reset

`Obs` lists everything that the getters of the crate show; the laws say how each setter changes
the list.
-/

namespace Z80
variable {Q : Type} {σ : Sig}

/-- Everything the getters of the crate show. -/
structure Obs where
  a : U8
  f : U8
  b : U8
  c : U8
  d : U8
  e : U8
  h : U8
  l : U8
  ixh : U8
  ixl : U8
  iyh : U8
  iyl : U8
  a' : U8
  f' : U8
  b' : U8
  c' : U8
  d' : U8
  e' : U8
  h' : U8
  l' : U8
  pc : U16
  sp : U16
  memptr : U16
  i : U8
  r : U8
  iffs : Bool × Bool
  im : IntMode
  halt : Bool
  afterEi : Bool
  pfx : Option Prefix
deriving DecidableEq

/-- Read everything through the getters. -/
def Cpu.obs (c : Cpu Q) : Obs where
  a := c.getReg .A none
  f := c.getFlags
  b := c.getReg .B none
  c := c.getReg .C none
  d := c.getReg .D none
  e := c.getReg .E none
  h := c.getReg .H none
  l := c.getReg .L none
  ixh := c.getReg .H (some .xdd)
  ixl := c.getReg .L (some .xdd)
  iyh := c.getReg .H (some .yfd)
  iyl := c.getReg .L (some .yfd)
  a' := (c.getAltReg2 .AF).1
  f' := (c.getAltReg2 .AF).2
  b' := (c.getAltReg2 .BC).1
  c' := (c.getAltReg2 .BC).2
  d' := (c.getAltReg2 .DE).1
  e' := (c.getAltReg2 .DE).2
  h' := (c.getAltReg2 .HL).1
  l' := (c.getAltReg2 .HL).2
  pc := c.getPc
  sp := c.getSp
  memptr := c.getMemptr
  i := c.getI
  r := c.getR
  iffs := c.getIffs
  im := c.getIm
  halt := c.isHalt
  afterEi := c.isAfterEi
  pfx := c.getPrefix

/-! ## C09 -/

/-- The entry of the list an 8-bit register name with a prefix stands for. -/
def Obs.put8 (o : Obs) (r : Reg8) (p : Option Prefix) (v : U8) : Obs :=
  match r, p with
  | .A, _ => { o with a := v }
  | .B, _ => { o with b := v }
  | .C, _ => { o with c := v }
  | .D, _ => { o with d := v }
  | .E, _ => { o with e := v }
  | .H, none => { o with h := v }
  | .L, none => { o with l := v }
  | .H, some .xdd => { o with ixh := v }
  | .L, some .xdd => { o with ixl := v }
  | .H, some .yfd => { o with iyh := v }
  | .L, some .yfd => { o with iyl := v }

/-- The entry read for an 8-bit register name with a prefix. -/
def Obs.get8 (o : Obs) (r : Reg8) (p : Option Prefix) : U8 :=
  match r, p with
  | .A, _ => o.a
  | .B, _ => o.b
  | .C, _ => o.c
  | .D, _ => o.d
  | .E, _ => o.e
  | .H, none => o.h
  | .L, none => o.l
  | .H, some .xdd => o.ixh
  | .L, some .xdd => o.ixl
  | .H, some .yfd => o.iyh
  | .L, some .yfd => o.iyl

/-- The entries of a register pair. -/
def Obs.put16 (o : Obs) (r : StkReg16) (hi lo : U8) : Obs :=
  match r with
  | .BC => { o with b := hi, c := lo }
  | .DE => { o with d := hi, e := lo }
  | .HL => { o with h := hi, l := lo }
  | .AF => { o with a := hi, f := lo }

/-- The entries read for a register pair. -/
def Obs.get16 (o : Obs) : StkReg16 → U8 × U8
  | .BC => (o.b, o.c)
  | .DE => (o.d, o.e)
  | .HL => (o.h, o.l)
  | .AF => (o.a, o.f)

/-- The entries read for an alternative register pair. -/
def Obs.getAlt (o : Obs) : StkReg16 → U8 × U8
  | .BC => (o.b', o.c')
  | .DE => (o.d', o.e')
  | .HL => (o.h', o.l')
  | .AF => (o.a', o.f')

/-- The entries of an index register. -/
def Obs.putIx (o : Obs) (p : Prefix) (hi lo : U8) : Obs :=
  match p with
  | .xdd => { o with ixh := hi, ixl := lo }
  | .yfd => { o with iyh := hi, iyl := lo }

/-- The entries read for an index register. -/
def Obs.getIx (o : Obs) : Prefix → U8 × U8
  | .xdd => (o.ixh, o.ixl)
  | .yfd => (o.iyh, o.iyl)

theorem bytes_word (v : U16) : 256 * (hi8 v).toNat + (lo8 v).toNat = v.toNat := by
  have e : word (hi8 v) (lo8 v) = v := by
    simp only [word, hi8, lo8]
    exact BitVec.extractLsb'_append_extractLsb'_eq_extractLsb' (by rfl) |>.trans (by simp)
  rw [← word_nat, e]

/-- C09: reading an 8-bit register gives its entry. -/
theorem C09_get_reg (c : Cpu Q) (r : Reg8) (p : Option Prefix) : c.getReg r p = c.obs.get8 r p := by
  cases r <;> first | rfl | (rcases p with _ | _ | _ <;> rfl)
/-- C09: setting an 8-bit register changes its entry and nothing else. -/
theorem C09_set_reg (c : Cpu Q) (r : Reg8) (p : Option Prefix) (v : U8) :
    (c.setReg r p v).obs = c.obs.put8 r p v := by
  cases r <;> first | rfl | (rcases p with _ | _ | _ <;> rfl)
/-- C09: what was set is read back. -/
theorem C09_set_get_reg (c : Cpu Q) (r : Reg8) (p : Option Prefix) (v : U8) :
    (c.setReg r p v).getReg r p = v := by
  cases r <;> first | rfl | (rcases p with _ | _ | _ <;> rfl)
/-- C09: accumulator and flags. -/
theorem C09_acc_flags (c : Cpu Q) (v : U8) :
    c.getAcc = c.obs.a ∧ (c.setAcc v).obs = { c.obs with a := v } ∧
    c.getFlags = c.obs.f ∧ (c.setFlags v).obs = { c.obs with f := v } := ⟨rfl, rfl, rfl, rfl⟩
/-- C09: register pairs are read as two bytes and, high byte first, as a word. -/
theorem C09_get_reg16 (c : Cpu Q) (r : StkReg16) :
    c.getReg2 r = c.obs.get16 r ∧
    (c.getReg16 r).toNat = 256 * (c.obs.get16 r).1.toNat + (c.obs.get16 r).2.toNat := by
  refine ⟨by cases r <;> rfl, ?_⟩
  rw [show c.getReg16 r = word (c.obs.get16 r).1 (c.obs.get16 r).2 from by cases r <;> rfl, word_nat]
/-- C09: alternative register pairs. -/
theorem C09_get_alt (c : Cpu Q) (r : StkReg16) :
    c.getAltReg2 r = c.obs.getAlt r ∧
    (c.getAltReg16 r).toNat = 256 * (c.obs.getAlt r).1.toNat + (c.obs.getAlt r).2.toNat := by
  refine ⟨by cases r <;> rfl, ?_⟩
  rw [show c.getAltReg16 r = word (c.obs.getAlt r).1 (c.obs.getAlt r).2 from by cases r <;> rfl,
    word_nat]
/-- C09: setting a register pair from two bytes. -/
theorem C09_set_reg2 (c : Cpu Q) (r : StkReg16) (hi lo : U8) :
    (c.setReg2 r hi lo).obs = c.obs.put16 r hi lo := by
  cases r <;> rfl
/-- C09: setting a register pair from a word stores its high and low byte. -/
theorem C09_set_reg16 (c : Cpu Q) (r : StkReg16) (v : U16) : ∃ hi lo : U8,
    256 * hi.toNat + lo.toNat = v.toNat ∧ (c.setReg16 r v).obs = c.obs.put16 r hi lo :=
  ⟨hi8 v, lo8 v, bytes_word v, by cases r <;> rfl⟩
/-- C09: what was set in a register pair is read back. -/
theorem C09_set_get_reg16 (c : Cpu Q) (r : StkReg16) (v : U16) : (c.setReg16 r v).getReg16 r = v := by
  apply BitVec.eq_of_toNat_eq
  rw [(C09_get_reg16 _ r).2]
  obtain ⟨hi, lo, h, e⟩ := C09_set_reg16 c r v
  rw [e, ← h]
  cases r <;> rfl
/-- C09: index registers. -/
theorem C09_get_index (c : Cpu Q) (p : Prefix) :
    c.getIndex2 p = c.obs.getIx p ∧
    (c.getIndex16 p).toNat = 256 * (c.obs.getIx p).1.toNat + (c.obs.getIx p).2.toNat := by
  refine ⟨by cases p <;> rfl, ?_⟩
  rw [show c.getIndex16 p = word (c.obs.getIx p).1 (c.obs.getIx p).2 from by cases p <;> rfl, word_nat]
/-- C09: setting an index register. -/
theorem C09_set_index (c : Cpu Q) (p : Prefix) (hi lo : U8) (v : U16) :
    (c.setIndex2 p hi lo).obs = c.obs.putIx p hi lo ∧
    (∃ hi lo : U8, 256 * hi.toNat + lo.toNat = v.toNat ∧ (c.setIndex16 p v).obs = c.obs.putIx p hi lo) ∧
    (c.setIndex16 p v).getIndex16 p = v := by
  refine ⟨by cases p <;> rfl, ⟨hi8 v, lo8 v, bytes_word v, by cases p <;> rfl⟩, ?_⟩
  apply BitVec.eq_of_toNat_eq
  rw [(C09_get_index _ p).2, ← bytes_word v]
  cases p <;> rfl
/-- C09: the other setters change their entry and nothing else. -/
theorem C09_set_other (c : Cpu Q) (v : U16) (x y : Bool) (m : IntMode) (i : U8) :
    (c.setPc v).obs = { c.obs with pc := v } ∧
    (c.setSp v).obs = { c.obs with sp := v } ∧
    (c.setMemptr v).obs = { c.obs with memptr := v } ∧
    (c.setI i).obs = { c.obs with i := i } ∧
    (c.setIffs x y).obs = { c.obs with iffs := (x, y) } ∧
    (c.setIm m).obs = { c.obs with im := m } ∧
    c.doHalt.obs = { c.obs with halt := true } ∧
    c.restoreIff1.obs = { c.obs with iffs := (c.obs.iffs.2, c.obs.iffs.2) } ∧
    c.disableInterrupts.obs = { c.obs with iffs := (false, false) } ∧
    c.enableInterrupts.obs = { c.obs with iffs := (true, true), afterEi := true } :=
  ⟨rfl, rfl, rfl, rfl, rfl, rfl, rfl, rfl, rfl, rfl⟩
/-- C09: R is read back as set, and the refresh address combines I and R. -/
theorem C09_set_r (c : Cpu Q) (v : U8) :
    (c.setR v).obs = { c.obs with r := v } ∧
    c.getIr.toNat = 256 * c.obs.i.toNat + c.obs.r.toNat := by
  refine ⟨?_, ?_⟩
  · have : (c.setR v).getR = v := rOf_self _ _
    simp only [Cpu.obs, Obs.mk.injEq]
    refine ⟨rfl, rfl, rfl, rfl, rfl, rfl, rfl, rfl, rfl, rfl, rfl, rfl, rfl, rfl, rfl, rfl, rfl,
      rfl, rfl, rfl, rfl, rfl, rfl, rfl, this, rfl, rfl, rfl, rfl, rfl⟩
  · rw [show c.getIr = word c.obs.i c.obs.r from getIr_eq c, word_nat]

/-- C09: the laws are not vacuous: the list tells states apart. -/
example (c : Cpu Q) : (c.setReg .H (some .xdd) (c.getReg .H (some .xdd) + 1)).obs ≠ c.obs := by
  intro h
  have := congrArg Obs.ixh h
  rw [C09_set_reg] at this
  exact absurd this (by
    show c.ix.hi + 1 ≠ c.ix.hi
    simp)

/-! ## C10 -/

/-- The list after EX AF,AF'. -/
def Obs.exAf (o : Obs) : Obs := { o with a := o.a', f := o.f', a' := o.a, f' := o.f }
/-- The list after EXX. -/
def Obs.exX (o : Obs) : Obs :=
  { o with b := o.b', c := o.c', d := o.d', e := o.e', h := o.h', l := o.l',
           b' := o.b, c' := o.c, d' := o.d, e' := o.e, h' := o.h, l' := o.l }
/-- The list after EX DE,HL. -/
def Obs.exDeHl (o : Obs) : Obs := { o with d := o.h, e := o.l, h := o.d, l := o.e }

/-- C10: the method `ex_af_af`. -/
theorem C10_api_ex_af_af (c : Cpu Q) : c.exAfAf.obs = c.obs.exAf ∧ c.exAfAf.exAfAf = c := ⟨rfl, rfl⟩
/-- C10: the method `exx`. -/
theorem C10_api_exx (c : Cpu Q) : c.exx.obs = c.obs.exX ∧ c.exx.exx = c := ⟨rfl, rfl⟩

section
variable [Flavour Q]

theorem exec_plain_eq (code : U8) (hI : decodeI code = some .plain) (deb : Bool) (c : Cpu Q) :
    executeInstruction (σ := σ) deb code c =
      (executePlain code
        { (Cpu.load { c with lastEi := false, halt := false,
                             flavour := Flavour.beginInstruction c.flavour } deb : St Q) with
          pfx := none }).bind
        fun r => .ret (r.1.toRes, r.2.store) := by
  have h : ∀ s : St Q, executeCode (σ := σ) code s = executePlain code
      { s with cpu := { s.cpu with flavour := Flavour.beginInstruction s.cpu.flavour },
               pfx := none } := by
    intro s
    obtain ⟨cpu, flags, pc, pfx, deb⟩ := s
    cases pfx with
    | none => rfl
    | some p =>
      show executeIndexed p code _ = _
      unfold executeIndexed
      rw [hI]
      rfl
  unfold executeInstruction
  show Prog.bind (executeCode code _) _ = _
  rw [h]
  rfl

/-- C10: the instructions, executed in any state with any host: they call nothing but the
debugger, return `Ok`, and exchange exactly the documented pairs. -/
theorem C10_ex_af_af (deb : Bool) (c : Cpu Q) :
    (executeInstruction (σ := σ) deb 0x08 c).wp fun t r => r.1 = .ok ∧
      r.2.obs = { c.obs.exAf with afterEi := false, halt := false, pfx := none } ∧
      t.length = if deb then 1 else 0 := by
  rw [exec_plain_eq _ (by decide +kernel)]
  cases deb
  · exact ⟨rfl, rfl, rfl⟩
  · exact fun _ => ⟨rfl, rfl, rfl⟩

/-- C10: EXX. -/
theorem C10_exx (deb : Bool) (c : Cpu Q) :
    (executeInstruction (σ := σ) deb 0xD9 c).wp fun t r => r.1 = .ok ∧
      r.2.obs = { c.obs.exX with afterEi := false, halt := false, pfx := none } ∧
      t.length = if deb then 1 else 0 := by
  rw [exec_plain_eq _ (by decide +kernel)]
  cases deb
  · exact ⟨rfl, rfl, rfl⟩
  · exact fun _ => ⟨rfl, rfl, rfl⟩

/-- C10: EX DE,HL. -/
theorem C10_ex_de_hl (deb : Bool) (c : Cpu Q) :
    (executeInstruction (σ := σ) deb 0xEB c).wp fun t r => r.1 = .ok ∧
      r.2.obs = { c.obs.exDeHl with afterEi := false, halt := false, pfx := none } ∧
      t.length = if deb then 1 else 0 := by
  rw [exec_plain_eq _ (by decide +kernel)]
  cases deb
  · exact ⟨rfl, rfl, rfl⟩
  · exact fun _ => ⟨rfl, rfl, rfl⟩

/-- C10: executing any of the three twice restores everything. -/
theorem C10_twice (code : U8) (hc : code = 0x08 ∨ code = 0xD9 ∨ code = 0xEB) (d1 d2 : Bool)
    (c c' c'' : Cpu Q) (t u : List (Ev σ)) (e e' : Res σ)
    (h : (executeInstruction d1 code c).Runs t (e, c'))
    (h' : (executeInstruction d2 code c').Runs u (e', c'')) :
    c''.obs = { c.obs with afterEi := false, halt := false, pfx := none } := by
  rcases hc with rfl | rfl | rfl
  · have h1 := (Prog.runs_wp h (C10_ex_af_af d1 c)).2.1
    have h2 := (Prog.runs_wp h' (C10_ex_af_af d2 c')).2.1
    simp only [] at h1 h2
    rw [h2, h1]; rfl
  · have h1 := (Prog.runs_wp h (C10_exx d1 c)).2.1
    have h2 := (Prog.runs_wp h' (C10_exx d2 c')).2.1
    simp only [] at h1 h2
    rw [h2, h1]; rfl
  · have h1 := (Prog.runs_wp h (C10_ex_de_hl d1 c)).2.1
    have h2 := (Prog.runs_wp h' (C10_ex_de_hl d2 c')).2.1
    simp only [] at h1 h2
    rw [h2, h1]; rfl

/-- C10: such runs exist from every state. -/
example (c : Cpu Q) : ∃ c' c'' : Cpu Q, ∃ e e' : Res σ,
    (executeInstruction (σ := σ) false 0xD9 c).Runs [] (e, c') ∧
    (executeInstruction (σ := σ) false 0xD9 c').Runs [] (e', c'') := by
  have h : ∀ c : Cpu Q, ∃ c' : Cpu Q, ∃ e : Res σ,
      (executeInstruction (σ := σ) false 0xD9 c).Runs [] (e, c') := by
    intro c
    rw [exec_plain_eq _ (by decide +kernel)]
    exact ⟨_, _, .ret _⟩
  obtain ⟨c', e, h1⟩ := h c
  obtain ⟨c'', e', h2⟩ := h c'
  exact ⟨c', c'', e, e', h1, h2⟩

/-! ## C12 -/

/-- C12: `reset` leads from every state to the state of a new CPU, for every flavour whose
`reset` leads to one state. -/
theorem C12_reset (h : ∀ q q' : Q, Flavour.reset q = Flavour.reset q') (c : Cpu Q) :
    c.reset = Cpu.new := by
  simp only [Cpu.new, Cpu.reset, h c.flavour (Cpu.default : Cpu Q).flavour]
omit [Flavour Q] in
/-- C12: NMOS. -/
theorem C12_nmos (c : Cpu NMOS) : c.reset = Cpu.new := C12_reset (fun _ _ => rfl) c
omit [Flavour Q] in
/-- C12: CMOS. -/
theorem C12_cmos (c : Cpu CMOS) : c.reset = Cpu.new := C12_reset (fun _ _ => rfl) c
omit [Flavour Q] in
/-- C12: BM1. -/
theorem C12_bm1 (c : Cpu BM1) : c.reset = Cpu.new := C12_reset (fun _ _ => rfl) c

/-- C12: the state after a reset. -/
theorem C12_values (c : Cpu Q) : c.reset.obs =
    { a := 0xFF, f := 0xFF, b := 0, c := 0, d := 0, e := 0, h := 0, l := 0, ixh := 0, ixl := 0,
      iyh := 0, iyl := 0, a' := 0xFF, f' := 0xFF, b' := 0, c' := 0, d' := 0, e' := 0, h' := 0,
      l' := 0, pc := 0, sp := 0xFFFF, memptr := 0, i := 0, r := 0, iffs := (false, false),
      im := .mode0, halt := false, afterEi := false, pfx := none } := by
  simp only [Cpu.obs, Obs.mk.injEq]
  refine ⟨?_, ?_, ?_, ?_, ?_, ?_, ?_, ?_, ?_, ?_, ?_, ?_, ?_, ?_, ?_, ?_, ?_, ?_, ?_, ?_, ?_, ?_,
    ?_, ?_, ?_, ?_, ?_, ?_, ?_, ?_⟩ <;> first | rfl | (show (0#8 &&& 0x80#8) ||| (0#8 &&& 0x7F#8) = 0#8; decide)

/-- C12: interrupts are not accepted after a reset until they are enabled, NMI is. -/
theorem C12_interrupts (c : Cpu Q) :
    c.reset.isIrqAllowed = false ∧ c.reset.isNmiAllowed = true := ⟨rfl, rfl⟩

end
end Z80
