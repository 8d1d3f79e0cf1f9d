import Verif.Proofs.Executed
import Verif.Props.Int
import Verif.Props.Alu

/-!
# C01-C08 as executed instructions, on any host

What `execute_instruction` does with the opcodes of the arithmetic, logic, rotate and bit
instructions: data accesses in order (`traffic t`), and everything the getters show afterwards
(`Cpu.obs`). `execute_instruction` is called with PC past the first opcode byte.
-/

set_option linter.constructorNameAsVariable false

namespace Z80
open Spec

variable {Q : Type} [FlavourSpec Q] {σ : Sig}

/-- Source operand of an 8-bit arithmetic or logic instruction. -/
inductive Source
  | reg (r : Reg8)
  | mem
  | imm

/-- Opcode of the instruction with number `y` (ADD, ADC, SUB, SBC, AND, XOR, OR, CP). -/
def Source.opcode (y : Nat) : Source → U8
  | .reg r => 0x80#8 + BitVec.ofNat 8 (8 * y) + r.toCode
  | .mem => 0x86#8 + BitVec.ofNat 8 (8 * y)
  | .imm => 0xC6#8 + BitVec.ofNat 8 (8 * y)

/-- HL, or the index register when a prefix is pending. -/
def Obs.ptr (o : Obs) : U16 :=
  match o.pfx with
  | none => word o.h o.l
  | some .xdd => word o.ixh o.ixl
  | some .yfd => word o.iyh o.iyl

/-- `o.Memory l a o'`: the address of the operand `(HL)`, `(IX+d)` or `(IY+d)` is `a`, its
displacement takes the accesses `l`, and leaves PC and MEMPTR as in `o'`. -/
inductive Obs.Memory (o : Obs) : List Access → U16 → Obs → Prop
  | hl (h : o.pfx = none) : Memory o [] o.ptr o
  | index (h : o.pfx ≠ none) (d : U8) : Memory o [.read o.pc d] (o.ptr + disp d)
      { o with pc := o.pc + 1, memptr := o.ptr + disp d }

/-- `o.Operand s l v o'`: the operand `s` has the value `v`, which takes the accesses `l`, and leaves
PC and MEMPTR as in `o'`. -/
inductive Obs.Operand (o : Obs) : Source → List Access → U8 → Obs → Prop
  | reg (r) : Operand o (.reg r) [] (o.get8 r o.pfx) o
  | mem {l a o'} (h : o.Memory l a o') (v) : Operand o .mem (l ++ [.read a v]) v o'
  | imm (v) : Operand o .imm [.read o.pc v] v { o with pc := o.pc + 1 }

/-- The accesses of an operand tell its value. -/
theorem operand_unique {o o1 o2 : Obs} {s : Source} {l : List Access} {v w : U8}
    (h : o.Operand s l v o1) (h' : o.Operand s l w o2) : v = w := by
  cases h with
  | reg r => cases h'; rfl
  | imm v => cases h'; rfl
  | mem h v =>
    generalize hk : _ ++ [Access.read _ v] = k at h'
    cases h' with
    | mem h' w =>
      have := congrArg List.getLast? hk
      simp only [List.getLast?_concat, Option.some.injEq, Access.read.injEq] at this
      exact this.2

/-- The end of an instruction: no prefix pending, not after EI, not halted. -/
def Obs.done (o : Obs) : Obs := { o with pfx := none, afterEi := false, halt := false }

/-- Registers A and F set. -/
def Obs.setAF (o : Obs) (p : U8 × Fl) : Obs := { o with a := p.1, f := p.2.byte }

/-- Decoded operand. -/
def reg8Of : Reg8 → Spec.R
  | .B => .b | .C => .c | .D => .d | .E => .e | .H => .h | .L => .l | .A => .a

theorem shown_get (r : Regs) (g : Reg8) : r.shown.get8 g r.shown.pfx = r.get r.idx (reg8Of g) := by
  obtain ⟨⟩ := r
  rename_i idx _
  cases g <;> cases idx <;> rfl

theorem decode_alu {y : Nat} (hy : y < 8) : ∀ s : Source, decode (s.opcode y) =
    match s with
    | .reg r => .aluR (Spec.alu y) (reg8Of r)
    | .mem => .aluR (Spec.alu y) .m
    | .imm => .aluN (Spec.alu y) := by
  have h : ∀ y < 8, (∀ r ∈ [Reg8.B, .C, .D, .E, .H, .L, .A], decode (Source.opcode y (.reg r)) = .aluR (Spec.alu y) (reg8Of r)) ∧
      decode (Source.opcode y .mem) = .aluR (Spec.alu y) .m ∧
      decode (Source.opcode y .imm) = .aluN (Spec.alu y) := by decide +kernel
  intro s
  cases s with
  | reg r => exact (h y hy).1 r (by cases r <;> decide)
  | mem => exact (h y hy).2.1
  | imm => exact (h y hy).2.2

theorem alu_executed {y : Nat} (hy : y < 8) (s : Source) {deb : Bool} {c c' : Cpu Q}
    {t : List (Ev σ)} {e : Res σ}
    (h : (executeInstruction deb (s.opcode y) c).Runs t (e, c')) :
    e = .ok ∧ ∃ v o, c.obs.Operand s (traffic t) v o ∧
      c'.obs = (o.setAF (aluOp (Spec.alu y) c.getAcc v (Fl.of c.getFlags))).done := by
  rw [obs_shown c]
  refine executed_ok (P := fun _ l s' => ∃ v o, (abs c).shown.Operand s l v o ∧
    s' = (o.setAF (aluOp (Spec.alu y) (abs c).a v (abs c).f)).done) ?_ h
  generalize abs c = r
  generalize FlavourSpec.opt Q = op
  have hd := decode_alu hy s
  unfold opCycles
  rw [hd]
  cases s with
  | reg g =>
    have hg := shown_get r g
    cases g <;> exact And.intro rfl ⟨_, _, .reg _, by rw [hg]; rfl⟩
  | mem =>
    obtain ⟨⟩ := r
    rename_i idx _
    cases idx with
    | hl => exact fun v => ⟨rfl, v, _, .mem (.hl rfl) v, rfl⟩
    | ix => exact fun d v => ⟨rfl, v, _, .mem (.index (show some Prefix.xdd ≠ none from nofun) d) v, rfl⟩
    | iy => exact fun d v => ⟨rfl, v, _, .mem (.index (show some Prefix.yfd ≠ none from nofun) d) v, rfl⟩
  | imm => exact fun v => ⟨rfl, v, _, .imm v, rfl⟩

/-- C01: `ADD A,s` and `ADC A,s` executed, with a register, a memory or an immediate operand. -/
theorem C01_executed (carry : Bool) (s : Source) {deb : Bool} {c c' : Cpu Q} {t : List (Ev σ)}
    {e : Res σ}
    (h : (executeInstruction deb (s.opcode (if carry then 1 else 0)) c).Runs t (e, c')) :
    e = .ok ∧ ∃ v o, c.obs.Operand s (traffic t) v o ∧
      c'.obs = (o.setAF (add8 c.getAcc v (carry && (Fl.of c.getFlags).c))).done := by
  cases carry with
  | false => exact alu_executed (y := 0) (by decide) s h
  | true => exact alu_executed (y := 1) (by decide) s h

/-- C02: `SUB s` and `SBC A,s` executed. -/
theorem C02_executed (carry : Bool) (s : Source) {deb : Bool} {c c' : Cpu Q} {t : List (Ev σ)}
    {e : Res σ}
    (h : (executeInstruction deb (s.opcode (if carry then 3 else 2)) c).Runs t (e, c')) :
    e = .ok ∧ ∃ v o, c.obs.Operand s (traffic t) v o ∧
      c'.obs = (o.setAF (sub8 c.getAcc v (carry && (Fl.of c.getFlags).c))).done := by
  cases carry with
  | false => exact alu_executed (y := 2) (by decide) s h
  | true => exact alu_executed (y := 3) (by decide) s h

/-- C02: `CP s` executed: A is kept. -/
theorem C02_executed_cp (s : Source) {deb : Bool} {c c' : Cpu Q} {t : List (Ev σ)} {e : Res σ}
    (h : (executeInstruction deb (s.opcode 7) c).Runs t (e, c')) :
    e = .ok ∧ ∃ v o, c.obs.Operand s (traffic t) v o ∧
      c'.obs = ({ o with a := c.getAcc, f := (cp8 c.getAcc v).byte } : Obs).done :=
  alu_executed (y := 7) (by decide) s h

/-- C05: `AND s`, `XOR s`, `OR s` executed. -/
theorem C05_executed (s : Source) {deb : Bool} {c c' : Cpu Q} {t : List (Ev σ)} {e : Res σ} :
    ((executeInstruction deb (s.opcode 4) c).Runs t (e, c') → e = .ok ∧ ∃ v o,
      c.obs.Operand s (traffic t) v o ∧ c'.obs = (o.setAF (and8 c.getAcc v)).done) ∧
    ((executeInstruction deb (s.opcode 5) c).Runs t (e, c') → e = .ok ∧ ∃ v o,
      c.obs.Operand s (traffic t) v o ∧ c'.obs = (o.setAF (xor8 c.getAcc v)).done) ∧
    ((executeInstruction deb (s.opcode 6) c).Runs t (e, c') → e = .ok ∧ ∃ v o,
      c.obs.Operand s (traffic t) v o ∧ c'.obs = (o.setAF (or8 c.getAcc v)).done) :=
  ⟨alu_executed (y := 4) (by decide) s, alu_executed (y := 5) (by decide) s,
    alu_executed (y := 6) (by decide) s⟩

/-! ### Instructions without operands -/

theorem plain_executed {code : U8} {f : Regs → Regs} {deb : Bool} {c c' : Cpu Q} {t : List (Ev σ)}
    {e : Res σ}
    (h : (executeInstruction deb code c).Runs t (e, c'))
    (hf : ∀ (o : Opt) r, (opCycles (O := σ.O) (R := σ.R) o code r).Ends fun l x =>
      x.2.2 = .ok ∧ l = [] ∧ x.1.shown = (f r).shown) :
    e = .ok ∧ traffic t = [] ∧ c'.obs = (f (abs c)).shown := by
  refine executed_ok (P := fun _ l s => l = [] ∧ s = (f (abs c)).shown) ?_ h
  refine ends_mono (hf _ _) fun l x ⟨h1, h2, h3⟩ => ⟨h1, ?_, h3⟩
  rw [h2]
  rfl

/-- C05: `CPL`, `SCF` and `CCF` executed. Which of A and A or F supplies X and Y of `SCF` and `CCF` is
the subject of C35. -/
theorem C05_executed_cpl_scf_ccf {deb : Bool} {c c' : Cpu Q} {t : List (Ev σ)} {e : Res σ} :
    ((executeInstruction deb 0x2F#8 c).Runs t (e, c') → e = .ok ∧ traffic t = [] ∧
      c'.obs = (c.obs.setAF (cpl8 c.getAcc (Fl.of c.getFlags))).done) ∧
    ((executeInstruction deb 0x37#8 c).Runs t (e, c') → e = .ok ∧ traffic t = [] ∧
      ∃ q, (q = c.getAcc ∨ q = c.getAcc ||| c.getFlags) ∧
      c'.obs = ({ c.obs with f := (scf8 q (Fl.of c.getFlags)).byte } : Obs).done) ∧
    ((executeInstruction deb 0x3F#8 c).Runs t (e, c') → e = .ok ∧ traffic t = [] ∧
      ∃ q, (q = c.getAcc ∨ q = c.getAcc ||| c.getFlags) ∧
      c'.obs = ({ c.obs with f := (ccf8 q (Fl.of c.getFlags)).byte } : Obs).done) := by
  have hq : xySource (abs c) = c.getAcc ∨ xySource (abs c) = c.getAcc ||| c.getFlags := by
    have hb : (abs c).f.byte = c.getFlags := byte_of _
    unfold xySource
    rw [hb]
    split
    · exact .inr rfl
    · exact .inl rfl
  rw [obs_shown c]
  refine ⟨fun h => ?_, fun h => ?_, fun h => ?_⟩
  · exact plain_executed (f := fun r =>
      { r.setAF (cpl8 r.a r.f) with idx := .hl, ei := false, halted := false })
      h fun o r => And.intro rfl ⟨rfl, rfl⟩
  · obtain ⟨h1, h2, h3⟩ := plain_executed (f := fun r =>
      { r with f := scf8 (xySource r) r.f, idx := .hl, ei := false, halted := false })
      h fun o r => And.intro rfl ⟨rfl, rfl⟩
    exact ⟨h1, h2, _, hq, h3⟩
  · obtain ⟨h1, h2, h3⟩ := plain_executed (f := fun r =>
      { r with f := ccf8 (xySource r) r.f, idx := .hl, ei := false, halted := false })
      h fun o r => And.intro rfl ⟨rfl, rfl⟩
    exact ⟨h1, h2, _, hq, h3⟩

/-- C06: `DAA` executed. -/
theorem C06_executed {deb : Bool} {c c' : Cpu Q} {t : List (Ev σ)} {e : Res σ}
    (h : (executeInstruction deb 0x27#8 c).Runs t (e, c')) : e = .ok ∧ traffic t = [] ∧
      c'.obs = (c.obs.setAF (daa8 c.getAcc (Fl.of c.getFlags))).done := by
  rw [obs_shown c]
  exact plain_executed (f := fun r =>
    { r.setAF (daa8 r.a r.f) with idx := .hl, ei := false, halted := false })
    h fun o r => And.intro rfl ⟨rfl, rfl⟩

/-- C07: the accumulator rotates executed. -/
theorem C07_executed_acc {deb : Bool} {c c' : Cpu Q} {t : List (Ev σ)} {e : Res σ} {code : U8} {k : Sh}
    (hk : (code, k) ∈ [(0x07#8, Sh.rlc), (0x0F#8, .rrc), (0x17#8, .rl), (0x1F#8, .rr)])
    (h : (executeInstruction deb code c).Runs t (e, c')) : e = .ok ∧ traffic t = [] ∧
      c'.obs = (c.obs.setAF (k.accOp c.getAcc (Fl.of c.getFlags))).done := by
  rw [obs_shown c]
  refine plain_executed (f := fun r =>
    { r.setAF (k.accOp r.a r.f) with idx := .hl, ei := false, halted := false }) h ?_
  simp only [List.mem_cons, List.not_mem_nil, or_false, Prod.mk.injEq] at hk
  rcases hk with ⟨rfl, rfl⟩ | ⟨rfl, rfl⟩ | ⟨rfl, rfl⟩ | ⟨rfl, rfl⟩ <;>
    exact fun o r => And.intro rfl ⟨rfl, rfl⟩

/-! ### Instructions with a second opcode byte -/

/-- A further opcode byte has been fetched: PC and R moved on. -/
def Obs.fetched (o : Obs) : Obs := { o with pc := o.pc + 1, r := Spec.refresh o.r 1 }

theorem shown_bump (r : Regs) : (({ r with ei := false, halted := false } : Regs).bumpR.skip 1).shown =
    { r.shown.fetched with afterEi := false, halt := false } := by
  rw [bumpR_refresh]
  rfl

/-- Instructions with the first byte ED that return `Ok`. -/
theorem ed_executed {code : U8} {deb : Bool} {c c' : Cpu Q} {t : List (Ev σ)} {e : Res σ}
    {P : List Access → Obs → Prop}
    (h : (executeInstruction deb 0xED#8 c).Runs t (e, c')) (hc : opcodesOf t = [code])
    (hP : ∀ o : Opt, (endCycles (fEd (decodeEd code)) (edCycles (O := σ.O) (R := σ.R) o (decodeEd code)
        (({ abs c with ei := false, halted := false } : Regs).bumpR.skip 1))).Ends fun l x =>
      x.2.2 = .ok ∧ P (l.filterMap Cyc.access?) x.1.shown) :
    e = .ok ∧ P (traffic t) c'.obs := by
  have he : (opCycles (O := σ.O) (R := σ.R) (FlavourSpec.opt Q) 0xED#8 (abs c)).Ends fun l x =>
      (Spec.opcodes l).head? = some code → x.2.2 = .ok ∧ P (l.filterMap Cyc.access?) x.1.shown := by
    refine fun b => ends_iff.2 fun l x hp hb => ?_
    obtain rfl := Option.some.inj hb
    exact (ends_path (hP _) hp :)
  obtain ⟨r, o, h1, h2, h3⟩ := executed
    (P := fun ops l r o => ops.head? = some code → o = .ok ∧ P l r.shown) he h
  obtain ⟨rfl, h5⟩ := h1 (by rw [hc]; rfl)
  exact ⟨outS_ok h3, h2 ▸ h5⟩

theorem cb_cycles {O R : Type} {o : Opt} {r : Regs} (h : r.idx = .hl) :
    opCycles (O := O) (R := R) o 0xCB#8 r =
      let r1 := ({ r with ei := false, halted := false } : Regs).bumpR
      .m1 r1.pc r1.ir fun c => endCycles (fCb (decodeCb c)) (cbCycles (decodeCb c) (r1.skip 1)) := by
  obtain ⟨⟩ := r
  subst h
  rfl

theorem xcb_cycles {O R : Type} {o : Opt} {r : Regs} (h : r.idx ≠ .hl) :
    opCycles (O := O) (R := R) o 0xCB#8 r =
      let r1 : Regs := { r with ei := false, halted := false }
      .rd r1.pc fun d => .rd (r1.pc + 1) fun c => .idle (r1.pc + 1) 2
        (endCycles (fCb (decodeCb c)) (xcbCycles (decodeCb c) (r.xhl r.idx + disp d)
          { r1.skip 2 with wz := r.xhl r.idx + disp d })) := by
  obtain ⟨⟩ := r
  rename_i idx _
  cases idx
  · exact absurd rfl h
  · rfl
  · rfl

/-- Instructions with the first byte CB and no prefix pending. -/
theorem cb_executed {code : U8} {deb : Bool} {c c' : Cpu Q} {t : List (Ev σ)} {e : Res σ}
    {P : List Access → Obs → Prop} (hp : c.getPrefix = none)
    (h : (executeInstruction deb 0xCB#8 c).Runs t (e, c')) (hc : opcodesOf t = [code])
    (hP : (endCycles (fCb (decodeCb code)) (cbCycles (O := σ.O) (R := σ.R) (decodeCb code)
        (({ abs c with ei := false, halted := false } : Regs).bumpR.skip 1))).Ends fun l x =>
      x.2.2 = .ok ∧ P (l.filterMap Cyc.access?) x.1.shown) :
    e = .ok ∧ P (traffic t) c'.obs := by
  have he : (opCycles (O := σ.O) (R := σ.R) (FlavourSpec.opt Q) 0xCB#8 (abs c)).Ends fun l x =>
      (Spec.opcodes l).head? = some code → x.2.2 = .ok ∧ P (l.filterMap Cyc.access?) x.1.shown := by
    have hx : (abs c).idx = .hl := by
      show ixOf c.pfx = _
      rw [show c.pfx = none from hp]
      rfl
    rw [cb_cycles hx]
    refine fun b => ends_iff.2 fun l x hp hb => ?_
    obtain rfl := Option.some.inj hb
    exact (ends_path hP hp :)
  obtain ⟨r, o, h1, h2, h3⟩ := executed
    (P := fun ops l r o => ops.head? = some code → o = .ok ∧ P l r.shown) he h
  obtain ⟨rfl, h5⟩ := h1 (by rw [hc]; rfl)
  exact ⟨outS_ok h3, h2 ▸ h5⟩

/-- Instructions with the first byte CB and a prefix pending: the displacement and the last byte are
data reads. -/
theorem xcb_executed {code d : U8} {deb : Bool} {c c' : Cpu Q} {t : List (Ev σ)} {e : Res σ}
    {P : List Access → Obs → Prop} (hp : c.getPrefix ≠ none)
    (h : (executeInstruction deb 0xCB#8 c).Runs t (e, c')) {l : List Access}
    (hc : traffic t = .read c.getPc d :: .read (c.getPc + 1) code :: l)
    (hP : (endCycles (fCb (decodeCb code)) (xcbCycles (O := σ.O) (R := σ.R) (decodeCb code)
        (c.obs.ptr + disp d) { ({ abs c with ei := false, halted := false } : Regs).skip 2 with
          wz := c.obs.ptr + disp d })).Ends fun l x =>
      x.2.2 = .ok ∧ P (l.filterMap Cyc.access?) x.1.shown) :
    e = .ok ∧ P l c'.obs := by
  have he : (opCycles (O := σ.O) (R := σ.R) (FlavourSpec.opt Q) 0xCB#8 (abs c)).Ends fun l x =>
      ∃ d' code' l', l.filterMap Cyc.access? = .read c.getPc d' :: .read (c.getPc + 1) code' :: l' ∧
        (d' = d → code' = code → x.2.2 = .ok ∧ P l' x.1.shown) := by
    have hq : c.obs.ptr = (abs c).xhl (abs c).idx := by
      rw [obs_shown]
      unfold Obs.ptr
      show (match pfxOfIx (ixOf c.getPrefix) with | none => _ | some .xdd => _ | some .yfd => _) =
        (abs c).xhl (ixOf c.getPrefix)
      rcases c.getPrefix with _ | _ | _ <;> rfl
    have hx : (abs c).idx ≠ .hl := by
      show ixOf c.getPrefix ≠ _
      rcases hq : c.getPrefix with _ | _ | _
      · exact absurd hq hp
      · exact nofun
      · exact nofun
    rw [hq] at hP
    rw [xcb_cycles hx]
    refine fun d' code' => ends_iff.2 fun l x hp => ⟨d', code', l.filterMap Cyc.access?, rfl, ?_⟩
    rintro rfl rfl
    dsimp only at hp
    cases hp with
    | idle hp => exact (ends_path hP hp :)
  obtain ⟨r, o, h1, h2, h3⟩ := executed
    (P := fun _ l r o => ∃ d' code' l', l = .read c.getPc d' :: .read (c.getPc + 1) code' :: l' ∧
        (d' = d → code' = code → o = .ok ∧ P l' r.shown)) he h
  obtain ⟨d', code', l', h4, h5⟩ := h1
  rw [hc] at h4
  simp only [List.cons.injEq, Access.read.injEq, true_and] at h4
  obtain ⟨rfl, rfl, rfl⟩ := h4
  obtain ⟨rfl, h6⟩ := h5 rfl rfl
  exact ⟨outS_ok h3, h2 ▸ h6⟩

/-- C02: `NEG` and its copies executed. -/
theorem C02_executed_neg {y : Nat} (hy : y < 8) {deb : Bool} {c c' : Cpu Q} {t : List (Ev σ)} {e : Res σ}
    (h : (executeInstruction deb 0xED#8 c).Runs t (e, c'))
    (hc : opcodesOf t = [0x44#8 + BitVec.ofNat 8 (8 * y)]) :
    e = .ok ∧ traffic t = [] ∧ c'.obs = (c.obs.fetched.setAF (neg8 c.getAcc)).done := by
  refine ed_executed (P := fun l s => l = [] ∧ s = (c.obs.fetched.setAF (neg8 c.getAcc)).done) h hc ?_
  have hd : ∀ y < 8, decodeEd (0x44#8 + BitVec.ofNat 8 (8 * y)) = .neg := by decide +kernel
  rw [hd y hy, bumpR_refresh, obs_shown]
  exact fun o => And.intro rfl ⟨rfl, rfl⟩

/-- A 16-bit operand: a register pair. -/
inductive Pair
  | bc | de | hl | sp

/-- Number of the pair in an opcode. -/
def Pair.code : Pair → Nat
  | .bc => 0 | .de => 1 | .hl => 2 | .sp => 3

/-- Value of the pair, where `p` stands for HL. -/
def Obs.pair (o : Obs) (p : U16) : Pair → U16
  | .bc => word o.b o.c
  | .de => word o.d o.e
  | .hl => p
  | .sp => o.sp

/-- HL, or the index register when a prefix is pending, set. -/
def Obs.setPtr (o : Obs) (v : U16) : Obs :=
  match o.pfx with
  | none => { o with h := hi8 v, l := lo8 v }
  | some .xdd => { o with ixh := hi8 v, ixl := lo8 v }
  | some .yfd => { o with iyh := hi8 v, iyl := lo8 v }

/-- C04: `ADD HL,ss`, `ADD IX,ss` and `ADD IY,ss` executed. -/
theorem C04_executed (k : Pair) {deb : Bool} {c c' : Cpu Q} {t : List (Ev σ)} {e : Res σ}
    (h : (executeInstruction deb (0x09#8 + BitVec.ofNat 8 (16 * k.code)) c).Runs t (e, c')) :
    let p := add16 c.obs.ptr (c.obs.pair c.obs.ptr k) (Fl.of c.getFlags)
    e = .ok ∧ traffic t = [] ∧
      c'.obs = ({ c.obs.setPtr p.1 with f := p.2.byte, memptr := c.obs.ptr + 1 } : Obs).done := by
  intro p
  have hp : p = add16 (abs c).shown.ptr ((abs c).shown.pair (abs c).shown.ptr k) (abs c).f := by
    rw [← obs_shown]
    rfl
  rw [hp, obs_shown c]
  refine executed_ok (P := fun _ l s => l = [] ∧ s = _) ?_ h
  generalize abs c = r
  obtain ⟨⟩ := r
  rename_i idx _
  cases k <;> cases idx <;> exact And.intro rfl ⟨rfl, rfl⟩

/-- C04: `ADC HL,ss` and `SBC HL,ss` executed; a DD or FD before them has no effect. -/
theorem C04_executed_carry (k : Pair) {deb : Bool} {c c' : Cpu Q} {t : List (Ev σ)} {e : Res σ}
    (h : (executeInstruction deb 0xED#8 c).Runs t (e, c')) (sub : Bool)
    (hc : opcodesOf t = [BitVec.ofNat 8 ((if sub then 0x42 else 0x4A) + 16 * k.code)]) :
    let hl := word c.obs.h c.obs.l
    let p := (if sub then sbc16 else adc16) hl (c.obs.pair hl k) (Fl.of c.getFlags).c
    e = .ok ∧ traffic t = [] ∧
      c'.obs = ({ c.obs.fetched with h := hi8 p.1, l := lo8 p.1, f := p.2.byte, memptr := hl + 1 } : Obs).done := by
  intro hl p
  refine ed_executed (P := fun l s => l = [] ∧ s = _) h hc ?_
  have hp : p = (if sub then sbc16 else adc16) (word (abs c).shown.h (abs c).shown.l)
      ((abs c).shown.pair (word (abs c).shown.h (abs c).shown.l) k) (abs c).f.c := by
    rw [← obs_shown]
    rfl
  have hhl : hl = word (abs c).shown.h (abs c).shown.l := by rw [← obs_shown]
  rw [hp, hhl, obs_shown c, bumpR_refresh]
  generalize abs c = r
  cases k <;> cases sub <;> exact fun o => And.intro rfl ⟨rfl, rfl⟩

/-! ### INC and DEC -/

/-- C03: `INC r` and `DEC r` executed, of registers (with a prefix: halves of IX and IY). -/
theorem C03_executed (dec : Bool) (g : Reg8) {deb : Bool} {c c' : Cpu Q} {t : List (Ev σ)} {e : Res σ}
    (h : (executeInstruction deb (BitVec.ofNat 8 (if dec then 5 else 4) + 8 * g.toCode) c).Runs t (e, c')) :
    let p := (if dec then dec8 else inc8) (c.obs.get8 g c.getPrefix) (Fl.of c.getFlags)
    e = .ok ∧ traffic t = [] ∧
      c'.obs = ({ c.obs.put8 g c.getPrefix p.1 with f := p.2.byte } : Obs).done := by
  intro p
  have hp : p = (if dec then dec8 else inc8) ((abs c).shown.get8 g (abs c).shown.pfx) (abs c).f := by
    rw [← obs_shown]
    rfl
  have hx : c.getPrefix = (abs c).shown.pfx := by
    rw [← obs_shown]
    rfl
  rw [hp, hx, obs_shown c]
  refine executed_ok (P := fun _ l s => l = [] ∧ s = _) ?_ h
  generalize abs c = r
  obtain ⟨⟩ := r
  rename_i idx _
  cases g <;> cases dec <;> cases idx <;> exact And.intro rfl ⟨rfl, rfl⟩

/-- C03: `INC (HL)`, `DEC (HL)` and the indexed forms executed. -/
theorem C03_executed_mem (dec : Bool) {deb : Bool} {c c' : Cpu Q} {t : List (Ev σ)} {e : Res σ}
    (h : (executeInstruction deb (if dec then 0x35#8 else 0x34#8) c).Runs t (e, c')) :
    e = .ok ∧ ∃ l a v o, c.obs.Memory l a o ∧
      let p := (if dec then dec8 else inc8) v (Fl.of c.getFlags)
      traffic t = l ++ [.read a v, .write a p.1] ∧ c'.obs = ({ o with f := p.2.byte } : Obs).done := by
  rw [obs_shown c]
  refine executed_ok (P := fun _ l' s => ∃ l a v o, (abs c).shown.Memory l a o ∧
      let p := (if dec then dec8 else inc8) v (abs c).f
      l' = l ++ [.read a v, .write a p.1] ∧ s = ({ o with f := p.2.byte } : Obs).done) ?_ h
  generalize abs c = r
  obtain ⟨⟩ := r
  rename_i idx _
  cases dec <;> cases idx with
    | hl => exact fun v => ⟨rfl, _, _, v, _, .hl rfl, rfl, rfl⟩
    | ix => exact fun d v => ⟨rfl, _, _, v, _, .index (show some Prefix.xdd ≠ none from nofun) d, rfl, rfl⟩
    | iy => exact fun d v => ⟨rfl, _, _, v, _, .index (show some Prefix.yfd ≠ none from nofun) d, rfl, rfl⟩

/-! ### CB -/

/-- Rotations, shifts, RES and SET. -/
inductive Modify
  | rot (y : Nat)
  | res (n : Nat)
  | set (n : Nat)

/-- Field values that occur in opcodes. -/
def Modify.Valid : Modify → Prop
  | .rot y => y < 8
  | .res n => n < 8
  | .set n => n < 8

/-- Opcode base. -/
def Modify.code : Modify → Nat
  | .rot y => 8 * y
  | .res n => 0x80 + 8 * n
  | .set n => 0xC0 + 8 * n

/-- The result and the flags. -/
def Modify.result (m : Modify) (v : U8) (f : Fl) : U8 × Fl :=
  match m with
  | .rot y => (Spec.rot y).op v f.c
  | .res n => (res8 n v, f)
  | .set n => (set8 n v, f)

/-- Number of the operand in an opcode: a register, or memory. -/
def targetCode : Option Reg8 → Nat
  | none => 6
  | some g => g.toCode.toNat

/-- The copy of the result in a register, if any. -/
def Obs.copy (o : Obs) (g : Option Reg8) (v : U8) : Obs :=
  match g with
  | none => o
  | some g => o.put8 g none v

/-- Decoded operand. -/
def targetOf : Option Reg8 → Spec.R
  | none => .m
  | some g => reg8Of g

/-- All operands. -/
def targets : List (Option Reg8) := [none, some .B, some .C, some .D, some .E, some .H, some .L, some .A]

theorem mem_targets (g : Option Reg8) : g ∈ targets := by
  rcases g with _ | g
  · decide
  · cases g <;> decide

theorem decode_modify {m : Modify} (hm : m.Valid) (g : Option Reg8) :
    decodeCb (BitVec.ofNat 8 (m.code + targetCode g)) =
      match m with
      | .rot y => .rot (Spec.rot y) (targetOf g)
      | .res n => .res n (targetOf g)
      | .set n => .set n (targetOf g) := by
  have h : ∀ g ∈ targets, ∀ y < 8,
      decodeCb (BitVec.ofNat 8 (8 * y + targetCode g)) = .rot (Spec.rot y) (targetOf g) ∧
      decodeCb (BitVec.ofNat 8 (0x80 + 8 * y + targetCode g)) = .res y (targetOf g) ∧
      decodeCb (BitVec.ofNat 8 (0xC0 + 8 * y + targetCode g)) = .set y (targetOf g) := by decide +kernel
  cases m with
  | rot y => exact (h g (mem_targets g) y hm).1
  | res y => exact (h g (mem_targets g) y hm).2.1
  | set y => exact (h g (mem_targets g) y hm).2.2

/-- C07, C08: rotations, shifts, RES and SET of a register. -/
theorem modify_reg {m : Modify} (hm : m.Valid) (g : Reg8) {deb : Bool} {c c' : Cpu Q}
    {t : List (Ev σ)} {e : Res σ} (hp : c.getPrefix = none)
    (h : (executeInstruction deb 0xCB#8 c).Runs t (e, c'))
    (hc : opcodesOf t = [BitVec.ofNat 8 (m.code + targetCode (some g))]) :
    let p := m.result (c.obs.get8 g none) (Fl.of c.getFlags)
    e = .ok ∧ traffic t = [] ∧
      c'.obs = ({ c.obs.fetched.put8 g none p.1 with f := p.2.byte } : Obs).done := by
  intro p
  refine cb_executed (P := fun l s => l = [] ∧ s = _) hp h hc ?_
  have hq : p = m.result ((abs c).shown.get8 g none) (abs c).f := by
    rw [← obs_shown]
    rfl
  rw [hq, obs_shown c, bumpR_refresh, decode_modify hm]
  generalize abs c = r
  cases m <;> cases g <;> exact And.intro rfl ⟨rfl, rfl⟩

/-- C07, C08: rotations, shifts, RES and SET of `(HL)`. -/
theorem modify_mem {m : Modify} (hm : m.Valid) {deb : Bool} {c c' : Cpu Q}
    {t : List (Ev σ)} {e : Res σ} (hp : c.getPrefix = none)
    (h : (executeInstruction deb 0xCB#8 c).Runs t (e, c'))
    (hc : opcodesOf t = [BitVec.ofNat 8 (m.code + 6)]) :
    e = .ok ∧ ∃ v, let p := m.result v (Fl.of c.getFlags)
      traffic t = [.read (word c.obs.h c.obs.l) v, .write (word c.obs.h c.obs.l) p.1] ∧
      c'.obs = ({ c.obs.fetched with f := p.2.byte } : Obs).done := by
  refine cb_executed (P := fun l s => ∃ v, let p := m.result v (abs c).f
    l = [.read (word c.obs.h c.obs.l) v, .write (word c.obs.h c.obs.l) p.1] ∧
    s = ({ c.obs.fetched with f := p.2.byte } : Obs).done) hp h hc ?_
  have hd := decode_modify hm none
  unfold targetCode at hd
  rw [obs_shown c, bumpR_refresh, hd]
  generalize abs c = r
  cases m <;> exact fun v => ⟨rfl, v, rfl, rfl⟩

/-- C07, C08: rotations, shifts, RES and SET of `(IX+d)` and `(IY+d)`, with the copy in a register. -/
theorem modify_index {m : Modify} (hm : m.Valid) (g : Option Reg8) {deb : Bool} {c c' : Cpu Q}
    {t : List (Ev σ)} {e : Res σ} (hp : c.getPrefix ≠ none)
    (h : (executeInstruction deb 0xCB#8 c).Runs t (e, c')) {d : U8} {l : List Access}
    (hc : traffic t = .read c.getPc d ::
      .read (c.getPc + 1) (BitVec.ofNat 8 (m.code + targetCode g)) :: l) :
    e = .ok ∧ ∃ v, let p := m.result v (Fl.of c.getFlags)
      l = [.read (c.obs.ptr + disp d) v, .write (c.obs.ptr + disp d) p.1] ∧
      c'.obs = ({ c.obs.copy g p.1 with
        pc := c.getPc + 2, memptr := c.obs.ptr + disp d, f := p.2.byte } : Obs).done := by
  refine xcb_executed (P := fun l s => ∃ v, let p := m.result v (abs c).f
    l = [.read (c.obs.ptr + disp d) v, .write (c.obs.ptr + disp d) p.1] ∧
    s = ({ c.obs.copy g p.1 with
      pc := c.getPc + 2, memptr := c.obs.ptr + disp d, f := p.2.byte } : Obs).done) hp h hc ?_
  rw [decode_modify hm]
  generalize c.obs.ptr + disp d = a
  rw [obs_shown c, show c.getPc = (abs c).pc from rfl]
  generalize abs c = r
  cases m <;> rcases g with _ | g
  all_goals first
    | exact fun v => ⟨rfl, v, rfl, rfl⟩
    | (cases g <;> exact fun v => ⟨rfl, v, rfl, rfl⟩)

/-- C07: the rotations and shifts after CB, of a register, of `(HL)`, and of `(IX+d)` or `(IY+d)` with
the copy in a register. -/
theorem C07_executed {y : Nat} (hy : y < 8) {deb : Bool} {c c' : Cpu Q} {t : List (Ev σ)} {e : Res σ}
    (h : (executeInstruction deb 0xCB#8 c).Runs t (e, c')) :
    (∀ g : Reg8, c.getPrefix = none → opcodesOf t = [BitVec.ofNat 8 (8 * y) + g.toCode] →
      let p := (Spec.rot y).op (c.obs.get8 g none) (Fl.of c.getFlags).c
      e = .ok ∧ traffic t = [] ∧
        c'.obs = ({ c.obs.fetched.put8 g none p.1 with f := p.2.byte } : Obs).done) ∧
    (c.getPrefix = none → opcodesOf t = [BitVec.ofNat 8 (8 * y + 6)] →
      e = .ok ∧ ∃ v, let p := (Spec.rot y).op v (Fl.of c.getFlags).c
        traffic t = [.read (word c.obs.h c.obs.l) v, .write (word c.obs.h c.obs.l) p.1] ∧
        c'.obs = ({ c.obs.fetched with f := p.2.byte } : Obs).done) ∧
    (∀ (g : Option Reg8) (d : U8) (l : List Access), c.getPrefix ≠ none →
      traffic t = .read c.getPc d :: .read (c.getPc + 1) (BitVec.ofNat 8 (8 * y + targetCode g)) :: l →
      e = .ok ∧ ∃ v, let p := (Spec.rot y).op v (Fl.of c.getFlags).c
        l = [.read (c.obs.ptr + disp d) v, .write (c.obs.ptr + disp d) p.1] ∧
        c'.obs = ({ c.obs.copy g p.1 with
          pc := c.getPc + 2, memptr := c.obs.ptr + disp d, f := p.2.byte } : Obs).done) := by
  have hm : (Modify.rot y).Valid := hy
  refine ⟨fun g hp hc => modify_reg hm g hp h (hc.trans ?_), fun hp hc => modify_mem hm hp h hc,
    fun g d l hp hc => modify_index hm g hp h hc⟩
  show _ = [BitVec.ofNat 8 (8 * y + g.toCode.toNat)]
  rw [BitVec.ofNat_add, BitVec.ofNat_toNat, BitVec.setWidth_eq]

/-- C08: `RES` and `SET` executed: no flag changes. -/
theorem C08_executed (set : Bool) {n : Nat} (hn : n < 8) {deb : Bool} {c c' : Cpu Q} {t : List (Ev σ)}
    {e : Res σ} (h : (executeInstruction deb 0xCB#8 c).Runs t (e, c')) :
    let base := if set then 0xC0 else 0x80
    let op := if set then set8 n else res8 n
    (∀ g : Reg8, c.getPrefix = none → opcodesOf t = [BitVec.ofNat 8 (base + 8 * n + g.toCode.toNat)] →
      e = .ok ∧ traffic t = [] ∧
        c'.obs = (c.obs.fetched.put8 g none (op (c.obs.get8 g none))).done) ∧
    (c.getPrefix = none → opcodesOf t = [BitVec.ofNat 8 (base + 8 * n + 6)] →
      e = .ok ∧ ∃ v, traffic t = [.read (word c.obs.h c.obs.l) v, .write (word c.obs.h c.obs.l) (op v)] ∧
        c'.obs = c.obs.fetched.done) ∧
    (∀ (g : Option Reg8) (d : U8) (l : List Access), c.getPrefix ≠ none →
      traffic t = .read c.getPc d ::
        .read (c.getPc + 1) (BitVec.ofNat 8 (base + 8 * n + targetCode g)) :: l →
      e = .ok ∧ ∃ v, l = [.read (c.obs.ptr + disp d) v, .write (c.obs.ptr + disp d) (op v)] ∧
        c'.obs = ({ c.obs.copy g (op v) with
          pc := c.getPc + 2, memptr := c.obs.ptr + disp d } : Obs).done) := by
  have hf : (Fl.of c.getFlags).byte = c.obs.f := byte_of _
  have hr : ∀ o : Obs, o.f = c.obs.f → ({ o with f := (Fl.of c.getFlags).byte } : Obs) = o := by
    intro o ho
    rw [hf, ← ho]
  have hput : ∀ (o : Obs) g v, (o.put8 g none v).f = o.f := by
    intro o g v
    cases g <;> rfl
  have hcopy : ∀ (o : Obs) g v, (o.copy g v).f = o.f := by
    intro o g v
    rcases g with _ | g
    · rfl
    · exact hput o g v
  have hw : ∀ (g : Option Reg8) (d v : U8), ({ c.obs.copy g v with
      pc := c.getPc + 2, memptr := c.obs.ptr + disp d, f := (Fl.of c.getFlags).byte } : Obs) =
      { c.obs.copy g v with pc := c.getPc + 2, memptr := c.obs.ptr + disp d } := by
    intro g d v
    exact hr { c.obs.copy g v with pc := c.getPc + 2, memptr := c.obs.ptr + disp d } (hcopy _ _ _)
  cases set with
  | false =>
    have hm : (Modify.res n).Valid := hn
    refine ⟨fun g hp hc => ?_, fun hp hc => ?_, fun g d l hp hc => ?_⟩
    · obtain ⟨h1, h2, h3⟩ := modify_reg hm g hp h hc
      exact ⟨h1, h2, h3.trans (congrArg Obs.done (hr _ (hput _ _ _)))⟩
    · obtain ⟨h1, v, h2, h3⟩ := modify_mem hm hp h hc
      exact ⟨h1, v, h2, h3.trans (congrArg Obs.done (hr c.obs.fetched rfl))⟩
    · obtain ⟨h1, v, h2, h3⟩ := modify_index hm g hp h hc
      exact ⟨h1, v, h2, h3.trans (congrArg Obs.done (hw g d _))⟩
  | true =>
    have hm : (Modify.set n).Valid := hn
    refine ⟨fun g hp hc => ?_, fun hp hc => ?_, fun g d l hp hc => ?_⟩
    · obtain ⟨h1, h2, h3⟩ := modify_reg hm g hp h hc
      exact ⟨h1, h2, h3.trans (congrArg Obs.done (hr _ (hput _ _ _)))⟩
    · obtain ⟨h1, v, h2, h3⟩ := modify_mem hm hp h hc
      exact ⟨h1, v, h2, h3.trans (congrArg Obs.done (hr c.obs.fetched rfl))⟩
    · obtain ⟨h1, v, h2, h3⟩ := modify_index hm g hp h hc
      exact ⟨h1, v, h2, h3.trans (congrArg Obs.done (hw g d _))⟩

/-- C08: `BIT` executed. X and Y come from the register, from the high byte of MEMPTR for `(HL)`, and
from the high byte of the address for `(IX+d)` and `(IY+d)`. -/
theorem C08_executed_bit {n : Nat} (hn : n < 8) {deb : Bool} {c c' : Cpu Q} {t : List (Ev σ)}
    {e : Res σ} (h : (executeInstruction deb 0xCB#8 c).Runs t (e, c')) :
    let carry := (Fl.of c.getFlags).c
    (∀ g : Reg8, c.getPrefix = none → opcodesOf t = [BitVec.ofNat 8 (0x40 + 8 * n + g.toCode.toNat)] →
      e = .ok ∧ traffic t = [] ∧
        c'.obs = ({ c.obs.fetched with
          f := (bit8 n (c.obs.get8 g none) (c.obs.get8 g none) carry).byte } : Obs).done) ∧
    (c.getPrefix = none → opcodesOf t = [BitVec.ofNat 8 (0x40 + 8 * n + 6)] →
      e = .ok ∧ ∃ v, traffic t = [.read (word c.obs.h c.obs.l) v] ∧
        c'.obs = ({ c.obs.fetched with f := (bit8 n v (hi8 c.getMemptr) carry).byte } : Obs).done) ∧
    (∀ (g : Option Reg8) (d : U8) (l : List Access), c.getPrefix ≠ none →
      traffic t = .read c.getPc d ::
        .read (c.getPc + 1) (BitVec.ofNat 8 (0x40 + 8 * n + targetCode g)) :: l →
      e = .ok ∧ ∃ v, l = [.read (c.obs.ptr + disp d) v] ∧
        c'.obs = ({ c.obs with
          pc := c.getPc + 2, memptr := c.obs.ptr + disp d, f := (bit8 n v (hi8 (c.obs.ptr + disp d)) carry).byte } : Obs).done) := by
  intro carry
  have hd : ∀ g ∈ targets, ∀ n < 8,
      decodeCb (BitVec.ofNat 8 (0x40 + 8 * n + targetCode g)) = .bit n (targetOf g) := by decide +kernel
  have hcy : carry = (abs c).f.c := rfl
  refine ⟨fun g hp hc => ?_, fun hp hc => ?_, fun g d l hp hc => ?_⟩
  · refine cb_executed (P := fun l s => l = [] ∧ s = _) hp h hc ?_
    have hg := hd (some g) (mem_targets _) n hn
    unfold targetCode at hg
    rw [hg, hcy, obs_shown c, bumpR_refresh]
    generalize abs c = r
    cases g <;> exact And.intro rfl ⟨rfl, rfl⟩
  · refine cb_executed (P := fun l s => ∃ v, l = [.read (word c.obs.h c.obs.l) v] ∧
      s = ({ c.obs.fetched with f := (bit8 n v (hi8 c.getMemptr) carry).byte } : Obs).done) hp h hc ?_
    have hg := hd none (mem_targets _) n hn
    unfold targetCode at hg
    rw [hg, hcy, obs_shown c, bumpR_refresh, show c.getMemptr = (abs c).wz from rfl]
    generalize abs c = r
    exact fun v => ⟨rfl, v, rfl, rfl⟩
  · refine xcb_executed (P := fun l s => ∃ v, l = [.read (c.obs.ptr + disp d) v] ∧
      s = ({ c.obs with
          pc := c.getPc + 2, memptr := c.obs.ptr + disp d, f := (bit8 n v (hi8 (c.obs.ptr + disp d)) carry).byte } : Obs).done) hp h hc ?_
    rw [hd g (mem_targets _) n hn]
    generalize c.obs.ptr + disp d = a
    rw [hcy, obs_shown c, show c.getPc = (abs c).pc from rfl]
    generalize abs c = r
    rcases g with _ | g
    · exact fun v => ⟨rfl, v, rfl, rfl⟩
    · cases g <;> exact fun v => ⟨rfl, v, rfl, rfl⟩

/-- C08: `RLD` and `RRD` executed. -/
theorem C08_executed_rld_rrd (right : Bool) {deb : Bool} {c c' : Cpu Q} {t : List (Ev σ)} {e : Res σ}
    (h : (executeInstruction deb 0xED#8 c).Runs t (e, c'))
    (hc : opcodesOf t = [if right then 0x67#8 else 0x6F#8]) :
    let hl := word c.obs.h c.obs.l
    e = .ok ∧ ∃ v, let x := (if right then rrd8 else rld8) c.getAcc v (Fl.of c.getFlags).c
      traffic t = [.read hl v, .write hl x.2.1] ∧
      c'.obs = ({ c.obs.fetched with a := x.1, f := x.2.2.byte, memptr := hl + 1 } : Obs).done := by
  intro hl
  refine ed_executed (P := fun l s => ∃ v, let x := (if right then rrd8 else rld8) (abs c).a v (abs c).f.c
    l = [.read hl v, .write hl x.2.1] ∧
      s = ({ c.obs.fetched with a := x.1, f := x.2.2.byte, memptr := hl + 1 } : Obs).done) h hc ?_
  have hhl : hl = word (abs c).shown.h (abs c).shown.l := by rw [← obs_shown]
  rw [hhl, obs_shown c, bumpR_refresh]
  generalize abs c = r
  cases right <;> exact fun o v => ⟨rfl, v, rfl, rfl⟩

/-! ### Decimal arithmetic -/

/-- C06: `ADD` or `ADC` of two packed decimal bytes followed by `DAA`, as two executed instructions:
A holds the decimal sum modulo 100 and the carry flag tells whether it exceeds 99. -/
theorem C06_executed_add (carry : Bool) (s : Source) {deb : Bool} {c c1 c' : Cpu Q} {t u : List (Ev σ)}
    {e e' : Res σ} {m n : Nat} (hm : m < 100) (hn : n < 100) (ha : c.getAcc = bcd m)
    (h : (executeInstruction deb (s.opcode (if carry then 1 else 0)) c).Runs t (e, c1))
    {o : Obs} (hv : c.obs.Operand s (traffic t) (bcd n) o)
    (h' : (executeInstruction deb 0x27#8 c1).Runs u (e', c')) :
    let k := (carry && (Fl.of c.getFlags).c).toNat
    c'.getAcc = bcd ((m + n + k) % 100) ∧ (Fl.of c'.getFlags).c = decide (100 ≤ m + n + k) := by
  obtain ⟨-, v, o', hv', h1⟩ := C01_executed carry s h
  obtain rfl : v = bcd n := operand_unique hv' hv
  rw [ha] at h1
  have h2 := (C06_executed h').2.2
  have ha1 : c1.getAcc = _ := congrArg Obs.a h1
  have hf1 : Fl.of c1.getFlags = (add8 (bcd m) (bcd n) (carry && (Fl.of c.getFlags).c)).2 :=
    (congrArg (fun o : Obs => Fl.of o.f) h1).trans (of_byte _)
  have ha2 : c'.getAcc = _ := congrArg Obs.a h2
  have hf2 : c'.getFlags = _ := congrArg Obs.f h2
  have hb := bcd_table.1 ⟨m, hm⟩ ⟨n, hn⟩ (carry && (Fl.of c.getFlags).c)
  intro k
  rw [ha2, hf2]
  show (daa8 c1.getAcc (Fl.of c1.getFlags)).1 = _ ∧ (Fl.of (daa8 c1.getAcc (Fl.of c1.getFlags)).2.byte).c = _
  rw [of_byte, ha1, hf1]
  exact hb

/-- C06: `SUB` or `SBC` of two packed decimal bytes followed by `DAA`. -/
theorem C06_executed_sub (carry : Bool) (s : Source) {deb : Bool} {c c1 c' : Cpu Q} {t u : List (Ev σ)}
    {e e' : Res σ} {m n : Nat} (hm : m < 100) (hn : n < 100) (ha : c.getAcc = bcd m)
    (h : (executeInstruction deb (s.opcode (if carry then 3 else 2)) c).Runs t (e, c1))
    {o : Obs} (hv : c.obs.Operand s (traffic t) (bcd n) o)
    (h' : (executeInstruction deb 0x27#8 c1).Runs u (e', c')) :
    let k := (carry && (Fl.of c.getFlags).c).toNat
    c'.getAcc = bcd ((100 + m - n - k) % 100) ∧ (Fl.of c'.getFlags).c = decide (m < n + k) := by
  obtain ⟨-, v, o', hv', h1⟩ := C02_executed carry s h
  obtain rfl : v = bcd n := operand_unique hv' hv
  rw [ha] at h1
  have h2 := (C06_executed h').2.2
  have ha1 : c1.getAcc = _ := congrArg Obs.a h1
  have hf1 : Fl.of c1.getFlags = (sub8 (bcd m) (bcd n) (carry && (Fl.of c.getFlags).c)).2 :=
    (congrArg (fun o : Obs => Fl.of o.f) h1).trans (of_byte _)
  have ha2 : c'.getAcc = _ := congrArg Obs.a h2
  have hf2 : c'.getFlags = _ := congrArg Obs.f h2
  have hb := bcd_table.2 ⟨m, hm⟩ ⟨n, hn⟩ (carry && (Fl.of c.getFlags).c)
  intro k
  rw [ha2, hf2]
  show (daa8 c1.getAcc (Fl.of c1.getFlags)).1 = _ ∧ (Fl.of (daa8 c1.getAcc (Fl.of c1.getFlags)).2.byte).c = _
  rw [of_byte, ha1, hf1]
  exact hb

/-! ### Cases -/

/-- `ADC A,(IX-2)` after its prefix, `CP n`, `INC IYL`, `SBC HL,DE`, `RL (IX+3)` with the copy in B,
`BIT 7,(HL)`, `RLD`: what is read and written, and A and F after it. -/
example :
    let c : Cpu NMOS := { Cpu.new with
      af := ⟨0x7F, 1⟩, hl := ⟨0x10, 0x00⟩, de := ⟨0, 1⟩, ix := ⟨0x20, 0x00⟩, memptr := 0x2800#16, pc := 1#16 }
    let go := fun (c : Cpu NMOS) op l =>
      ((executeInstruction false op c).trace demo (0, program (0 :: l), ()),
        ((executeInstruction false op c).run demo (0, program (0 :: l), ())).1.2)
    let x := { c with pfx := some .xdd }
    traffic (go x 0x8E [0xFE]).1 = [.read 1 0xFE, .read 0x1FFE 0] ∧ (go x 0x8E [0xFE]).2.af = ⟨0x80, 0x94⟩ ∧
    traffic (go c 0xFE [0x28]).1 = [.read 1 0x28] ∧ (go c 0xFE [0x28]).2.af = ⟨0x7F, 0x2A⟩ ∧
    (go { c with pfx := some .yfd } 0x2C []).2.iy.lo = 1#8 ∧
    opcodesOf (go c 0xED [0x52]).1 = [0x52] ∧ (go c 0xED [0x52]).2.hl = ⟨0x0F, 0xFE⟩ ∧
    traffic (go x 0xCB [0x03, 0x10]).1 = [.read 1 0x03, .read 2 0x10, .read 0x2003 0, .write 0x2003 1] ∧
    (go x 0xCB [0x03, 0x10]).2.bc.hi = 1#8 ∧
    opcodesOf (go c 0xCB [0x7E]).1 = [0x7E] ∧ (go c 0xCB [0x7E]).2.af.lo = 0x7D#8 ∧
    traffic (go c 0xED [0x6F]).1 = [.read 0x1000 0, .write 0x1000 0x0F] ∧
    (go c 0xED [0x6F]).2.af.hi = 0x70#8 := by decide +kernel

end Z80
