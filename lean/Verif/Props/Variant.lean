import Verif.Proofs.Variant
import Verif.Props.Bus

/-!
# C34: variants of the processor differ only where documented

`Q` and `Q'` are any two of NMOS, CMOS and BM1. States correspond when they are alike in everything
but the memory for the X and Y flags of SCF and CCF, which not every variant has.
-/

set_option linter.constructorNameAsVariable false

namespace Z80
open Spec
variable {Q Q' : Type} [FlavourSpec Q] [FlavourSpec Q'] {σ : Sig}

/-- Two processors in corresponding states. -/
def Corr (c : Cpu Q) (c' : Cpu Q') : Prop := (abs c).noQ = (abs c').noQ

/-- Corresponding states are alike in all registers, interrupt state and pending prefix. -/
theorem corr_iff {c : Cpu Q} {c' : Cpu Q'} : Corr c c' ↔
    (c.af = c'.af ∧ c.bc = c'.bc ∧ c.de = c'.de ∧ c.hl = c'.hl ∧ c.afAlt = c'.afAlt ∧
      c.bcAlt = c'.bcAlt ∧ c.deAlt = c'.deAlt ∧ c.hlAlt = c'.hlAlt ∧ c.ix = c'.ix ∧ c.iy = c'.iy) ∧
    (c.pc = c'.pc ∧ c.sp = c'.sp ∧ c.memptr = c'.memptr ∧ c.ir.hi = c'.ir.hi ∧ c.getR = c'.getR) ∧
    (c.im = c'.im ∧ c.iff1 = c'.iff1 ∧ c.iff2 = c'.iff2 ∧ c.halt = c'.halt ∧
      c.lastEi = c'.lastEi ∧ c.pfx = c'.pfx) := by
  have hf : ∀ a b : U8, Fl.of a = Fl.of b ↔ a = b := fun a b =>
    ⟨fun h => by rw [← byte_of a, h, byte_of], fun h => by rw [h]⟩
  have hi : ∀ a b : IntMode, imOf a = imOf b ↔ a = b := by
    intro a b; cases a <;> cases b <;> decide
  have hx : ∀ a b : Option Prefix, ixOf a = ixOf b ↔ a = b := by
    intro a b
    rcases a with _ | _ | _ <;> rcases b with _ | _ | _ <;> decide
  have hr : ∀ a b : RegPair, a = b ↔ a.hi = b.hi ∧ a.lo = b.lo := by
    intro a b; cases a; cases b; simp
  have h1 : ∀ {P : Type} [FlavourSpec P] (c : Cpu P), (c.load false).flags = c.af.lo := fun _ => rfl
  have h2 : ∀ {P : Type} [FlavourSpec P] (c : Cpu P), (c.load false).cpu = c := fun _ => rfl
  have h3 : ∀ {P : Type} [FlavourSpec P] (c : Cpu P), (c.load false).pc = c.pc := fun _ => rfl
  have h4 : ∀ {P : Type} [FlavourSpec P] (c : Cpu P), (c.load false).pfx = c.pfx := fun _ => rfl
  unfold Corr Regs.noQ abs absS
  simp only [Regs.mk.injEq, h1, h2, h3, h4, hf, hi, hx, hr]
  constructor
  · intro h; simp_all
  · intro h; simp_all

/-- C34: `execute_instruction` on two variants in corresponding states makes the same calls and ends
in corresponding states, unless the instruction is one of those in `varies`. -/
theorem C34_execute_instruction {op : U8} {c1 c1' : Cpu Q} {c2 : Cpu Q'} (hc : Corr c1 c2)
    {t : List (Ev σ)} {x : Res σ} (h : (executeInstruction false op c1).Runs t (x, c1'))
    (hv : varies (op :: opcodesOf t) = false) :
    ∃ c2', (executeInstruction false op c2).Runs t (x, c2') ∧ Corr c1' c2' := by
  have ha := varOp (O := σ.O) (R := σ.R) (FlavourSpec.opt Q) (FlavourSpec.opt Q') op hc 1
  rw [hideQ_eq] at ha
  refine drives_agree (drive_instruction false op c1) (drive_instruction false op c2)
    (erase_quiet_instruction op c1) (erase_quiet_instruction op c2)
    (fun l l' hb => ?_) ha h fun l hl hb => ?_
  · have : op :: codes 1 (l ++ l') = (op :: codes 1 l) ++ codes 1 l' :=
      congrArg _ List.filterMap_append
    rw [this]
    exact varies_append hb
  · have h1 : codes 1 l = opcodesOf t := by
      rw [← performs_codes hl]
      exact congrArg (t.filterMap ·) (funext fun ⟨r, _⟩ => by cases r <;> rfl)
    rw [h1, hv] at hb
    cases hb

/-- C34: `execute_next`. -/
theorem C34_execute_next {c1 c1' : Cpu Q} {c2 : Cpu Q'} (hc : Corr c1 c2) {t : List (Ev σ)}
    {x : Res σ} (h : (executeNext false c1).Runs t (x, c1'))
    (hv : varies (codesOf (imOf c1.im) t) = false) :
    ∃ c2', (executeNext false c2).Runs t (x, c2') ∧ Corr c1' c2' := by
  have ha := varStep (O := σ.O) (R := σ.R) (FlavourSpec.opt Q) (FlavourSpec.opt Q') hc
  rw [hideQ_eq] at ha
  refine drives_agree (drive_step false c1) (drive_step false c2)
    (erase_quiet_next c1) (erase_quiet_next c2) (fun l l' hb => ?_) ha h fun l hl hb => ?_
  · have : codes (abs c1).im (l ++ l') = codes (abs c1).im l ++ codes (abs c1).im l' :=
      List.filterMap_append
    rw [this]
    exact varies_append hb
  · have h1 : codes (abs c1).im l = codesOf (imOf c1.im) t := (performs_codes hl).symm
    rw [h1, hv] at hb
    cases hb

/-- C34: `irq`. -/
theorem C34_irq {c1 c1' : Cpu Q} {c2 : Cpu Q'} (hc : Corr c1 c2) {t : List (Ev σ)}
    {x : Option (Res σ)} (h : (irq false c1).Runs t (x, c1'))
    (hv : varies (codesOf (imOf c1.im) t) = false) :
    ∃ c2', (irq false c2).Runs t (x, c2') ∧ Corr c1' c2' := by
  have hq : c2.isIrqAllowed = c1.isIrqAllowed := by
    rw [irqAllowed_eq, irqAllowed_eq, noQ_eq hc]; rfl
  unfold irq at h ⊢
  rw [hq]
  split at h
  · rename_i hi
    have hi2 := hi
    rw [← hq] at hi2
    rw [irqAllowed_eq] at hi hi2
    rw [if_pos (by rw [irqAllowed_eq]; exact hi)]
    obtain ⟨u, v, a, rfl, h1, h2⟩ := Prog.runs_bind.1 h
    obtain ⟨rfl, h3⟩ := Prog.runs_ret h2
    cases h3
    rw [List.append_nil] at hv ⊢
    have ha := varIrq (O := σ.O) (R := σ.R) (FlavourSpec.opt Q) (FlavourSpec.opt Q') hc
    rw [hideQ_eq] at ha
    have he : ∀ {P : Type} [FlavourSpec P] (c : Cpu P),
        (irqNoCheck (σ := σ) false c).erase = irqNoCheck false c := fun c => by
      rw [← erase_irq, erase_erase]
    obtain ⟨c2', h4, h5⟩ := drives_agree (drive_interrupt false c1 (irq_pre hi).1 (irq_pre hi).2)
      (drive_interrupt false c2 (irq_pre hi2).1 (irq_pre hi2).2) (he c1) (he c2)
      (fun l l' hb => by
        have : codes (abs c1).im (l ++ l') = codes (abs c1).im l ++ codes (abs c1).im l' :=
          List.filterMap_append
        rw [this]
        exact varies_append hb) ha h1 (fun l hl hb => by
        have h1 : codes (abs c1).im l = codesOf (imOf c1.im) u := (performs_codes hl).symm
        rw [h1, hv] at hb
        cases hb)
    exact ⟨c2', Prog.runs_bind.2 ⟨u, [], _, (List.append_nil u).symm, h4, .ret _⟩, h5⟩
  · rename_i hi
    rw [if_neg hi]
    obtain ⟨rfl, h3⟩ := Prog.runs_ret h
    cases h3
    exact ⟨c2, .ret _, hc⟩

/-- C34: `nmi`. -/
theorem C34_nmi {c1 c1' : Cpu Q} {c2 : Cpu Q'} (hc : Corr c1 c2) {t : List (Ev σ)} {b : Bool}
    (h : (nmi c1).Runs t (b, c1')) : ∃ c2', (nmi c2).Runs t (b, c2') ∧ Corr c1' c2' := by
  obtain ⟨_, _, _, _, _, _, h8, h9⟩ := corr_iff.1 hc
  unfold nmi at h ⊢
  rw [← h8, ← h9]
  split at h
  · obtain ⟨u, v, a, rfl, h1, h2⟩ := Prog.runs_bind.1 h
    obtain ⟨rfl, h3⟩ := Prog.runs_ret h2
    injection h3 with h3 h3'
    subst h3; subst h3'
    rename_i hi
    rw [if_pos hi]
    have he : ∀ {P : Type} [FlavourSpec P] (c : Cpu P),
        (nmiNoCheck (σ := σ) c).erase = nmiNoCheck c := fun c => rfl
    have h4 : ((nmiNoCheck c1).erase.map abs).Runs u (abs c1') :=
      Prog.runs_map.2 ⟨_, (he c1).symm ▸ h1, rfl⟩
    rw [drive_nmi] at h4
    obtain ⟨e, h5, h6⟩ := Prog.runs_map.1 h4
    have ha : (nmiCycles (O := σ.O) (R := σ.R) (abs c1)).Agree (fun e e' => hideQ e = hideQ e')
        (fun _ => False) (nmiCycles (abs c2)) := by
      refine agree_of_map _ ?_
      have hw : (wake { abs c1 with iff1 := false, ei := false }.bumpR).noQ =
          (wake { abs c2 with iff1 := false, ei := false }.bumpR).noQ := by
        rw [noQ_eq hc]; unfold wake Regs.bumpR; dsimp only; split <;> rfl
      unfold nmiCycles
      generalize wake { abs c1 with iff1 := false, ei := false }.bumpR = w at *
      generalize wake { abs c2 with iff1 := false, ei := false }.bumpR = w' at *
      rw [noQ_eq hw]
      rfl
    rcases agree_runs (fun _ _ h => h) ha h5 with ⟨_, _, _, hf⟩ | ⟨e', h7, h8⟩
    · exact absurd hf id
    have h9 : ((nmiNoCheck c2).erase.map abs).Runs u e'.1 := by
      rw [drive_nmi]; exact Prog.runs_map.2 ⟨_, h7, rfl⟩
    obtain ⟨c2', h10, h11⟩ := Prog.runs_map.1 h9
    rw [he] at h10
    refine ⟨c2', Prog.runs_bind.2 ⟨u, [], _, rfl, h10, .ret _⟩, ?_⟩
    unfold Corr
    rw [h6, ← h11]
    exact congrArg Prod.fst h8
  · obtain ⟨rfl, h3⟩ := Prog.runs_ret h
    cases h3
    rename_i hi
    rw [if_neg hi]
    exact ⟨c2, .ret _, hc⟩

/-- Executing step after step without any of the instructions on which variants differ; the host
calls and the result of each step. -/
inductive Plain : Cpu Q → List (List (Ev σ) × Res σ) → Cpu Q → Prop
  | nil (c) : Plain c [] c
  | cons {c c' c'' t x l} (h : (executeNext false c).Runs t (x, c'))
      (hv : varies (codesOf (imOf c.im) t) = false) (hl : Plain c' l c'') : Plain c ((t, x) :: l) c''

/-- C34: programs without these instructions cannot tell the variants apart. -/
theorem C34_program {c1 c1' : Cpu Q} {l : List (List (Ev σ) × Res σ)} (h : Plain c1 l c1')
    {c2 : Cpu Q'} (hc : Corr c1 c2) : ∃ c2', Plain c2 l c2' ∧ Corr c1' c2' := by
  induction h generalizing c2 with
  | nil c => exact ⟨c2, .nil _, hc⟩
  | cons h hv _ ih =>
    obtain ⟨c2', h1, h2⟩ := C34_execute_next hc h hv
    obtain ⟨c2'', h3, h4⟩ := ih h2
    refine ⟨c2'', .cons h1 ?_ h3, h4⟩
    rw [← (corr_iff.1 hc).2.2.1]
    exact hv

/-! ### The exceptions -/

/-- C34: SCF and CCF differ in X and Y only. -/
theorem C34_scf_ccf {op : U8} (hop : op = 0x37#8 ∨ op = 0x3F#8) {c1 c1' : Cpu Q} {c2 : Cpu Q'}
    (hc : Corr c1 c2) {t : List (Ev σ)} {x : Res σ}
    (h : (executeInstruction false op c1).Runs t (x, c1')) :
    ∃ c2', (executeInstruction false op c2).Runs t (x, c2') ∧ (abs c1').noXY = (abs c2').noXY :=
  drives_agree (drive_instruction false op c1) (drive_instruction false op c2)
    (erase_quiet_instruction op c1) (erase_quiet_instruction op c2) (fun _ _ h => h)
    (varScf _ _ hop hc) h fun _ _ h => h

/-- C34: `LD (BC),A`, `LD (DE),A`, `LD (nn),A` and `OUT (n),A` differ in MEMPTR only. -/
theorem C34_store_a {op : U8} (hop : op = 0x02#8 ∨ op = 0x12#8 ∨ op = 0x32#8 ∨ op = 0xD3#8)
    {c1 c1' : Cpu Q} {c2 : Cpu Q'} (hc : Corr c1 c2) {t : List (Ev σ)} {x : Res σ}
    (h : (executeInstruction false op c1).Runs t (x, c1')) :
    ∃ c2', (executeInstruction false op c2).Runs t (x, c2') ∧ (abs c1').noWz = (abs c2').noWz :=
  drives_agree (drive_instruction false op c1) (drive_instruction false op c2)
    (erase_quiet_instruction op c1) (erase_quiet_instruction op c2) (fun _ _ h => h)
    (varStoreA _ _ hop hc) h fun _ _ h => h

/-- C34: on NMOS and CMOS they do not differ at all. -/
theorem C34_store_a_zilog {op : U8} (hop : op = 0x02#8 ∨ op = 0x12#8 ∨ op = 0x32#8 ∨ op = 0xD3#8)
    {c1 c1' : Cpu NMOS} {c2 : Cpu CMOS} (hc : Corr c1 c2) {t : List (Ev σ)} {x : Res σ}
    (h : (executeInstruction false op c1).Runs t (x, c1')) :
    ∃ c2', (executeInstruction false op c2).Runs t (x, c2') ∧ Corr c1' c2' :=
  drives_agree (drive_instruction false op c1) (drive_instruction false op c2)
    (erase_quiet_instruction op c1) (erase_quiet_instruction op c2) (fun _ _ h => h)
    (varStoreA' (FlavourSpec.opt NMOS) (FlavourSpec.opt CMOS) rfl hop hc) h fun _ _ h => h

/-- C34: `OUT (C),0` differs in the byte written to the port only. -/
theorem C34_out_c_0 {c1 c1' : Cpu Q} {c2 : Cpu Q'} (hc : Corr c1 c2) {t : List (Ev σ)} {x : Res σ}
    (h : (executeInstruction false 0xED#8 c1).Runs t (x, c1')) (hop : opcodesOf t = [0x71#8]) :
    ∃ c2', (executeInstruction false 0xED#8 c2).Runs
      (t.map (Ev.sending (FlavourSpec.opt Q').outC0)) (x, c2') ∧ Corr c1' c2' := by
  obtain ⟨e, h1, h2, h3⟩ := drives_to (drive_instruction false _ c1) (erase_quiet_instruction _ c1) h
  obtain ⟨e', h4, h5, h6⟩ := varOutC0 _ (FlavourSpec.opt Q') hc h1 hop
  obtain ⟨c2', h7, h8⟩ := drives_from (drive_instruction false _ c2) (erase_quiet_instruction _ c2) h4
    (x := x) (by rw [h3, h6])
  exact ⟨c2', h7, by unfold Corr; rw [h2, h8, h5]⟩

/-- C34: the byte is 0 on NMOS and BM1 and 255 on CMOS. -/
theorem C34_out_c_0_bytes : (FlavourSpec.opt NMOS).outC0 = 0x00#8 ∧
    (FlavourSpec.opt CMOS).outC0 = 0xFF#8 ∧ (FlavourSpec.opt BM1).outC0 = 0x00#8 := ⟨rfl, rfl, rfl⟩

/-- C34: `LD A,I` and `LD A,R` on NMOS compared to CMOS and BM1: alike if interrupts are disabled;
otherwise NMOS also asks whether an interrupt is requested, and P/V is reset if so. -/
theorem C34_ld_a_ir {c1 c1' : Cpu NMOS} {c2 : Cpu Q'} (hQ : (FlavourSpec.opt Q').early = false)
    (hc : Corr c1 c2) {t : List (Ev σ)} {x : Res σ}
    (h : (executeInstruction false 0xED#8 c1).Runs t (x, c1')) {v : U8}
    (hv : v = 0x57#8 ∨ v = 0x5F#8) (hop : opcodesOf t = [v]) :
    ∃ u c2', (executeInstruction false 0xED#8 c2).Runs u (x, c2') ∧
      ((t = u ∧ Corr c1' c2') ∨
        ∃ ts b, t = u ++ [⟨.asTimestamp, ts⟩, ⟨.isIrq ts, b⟩] ∧ (abs c1').noPv = (abs c2').noPv ∧
          (abs c2').f.pv = true ∧ (abs c1').f.pv = !b) := by
  obtain ⟨e, h1, h2, h3⟩ := drives_to (drive_instruction false _ c1) (erase_quiet_instruction _ c1) h
  obtain ⟨u, e', h4, h6, h5⟩ := varLdAIR _ (FlavourSpec.opt Q') rfl hQ hc h1 hv hop
  obtain ⟨c2', h7, h8⟩ := drives_from (drive_instruction false _ c2) (erase_quiet_instruction _ c2) h4
    (x := x) (by rw [h3, h6])
  unfold Corr
  rw [h2]
  exact ⟨u, c2', h7, by rw [h8]; exact h5⟩

/-- C34: `LD A,I` and `LD A,R` do not differ on CMOS and BM1, and `OUT (C),0` not on NMOS and BM1. -/
theorem C34_ed_alike {v : U8} {c1 c1' : Cpu Q} {c2 : Cpu Q'}
    (hv : ((v = 0x57#8 ∨ v = 0x5F#8) ∧ (FlavourSpec.opt Q).early = (FlavourSpec.opt Q').early) ∨
      (v = 0x71#8 ∧ (FlavourSpec.opt Q).outC0 = (FlavourSpec.opt Q').outC0))
    (hc : Corr c1 c2) {t : List (Ev σ)} {x : Res σ}
    (h : (executeInstruction false 0xED#8 c1).Runs t (x, c1')) {ops : List U8}
    (hop : opcodesOf t = v :: ops) :
    ∃ c2', (executeInstruction false 0xED#8 c2).Runs t (x, c2') ∧ Corr c1' c2' := by
  have key : ∀ vs : List U8, v ∈ vs → (∀ v ∈ vs, ∀ s q,
      (edCycles (O := σ.O) (R := σ.R) (FlavourSpec.opt Q) (decodeEd v) s).map hideQ =
      (edCycles (FlavourSpec.opt Q') (decodeEd v) { s with q := q }).map hideQ) →
      ∃ c2', (executeInstruction false 0xED#8 c2).Runs t (x, c2') ∧ Corr c1' c2' := by
    intro vs hm hvs
    refine drives_agree (drive_instruction false _ c1) (drive_instruction false _ c2)
      (erase_quiet_instruction _ c1) (erase_quiet_instruction _ c2)
      (fun l l' hb => ?_) (varEd' _ _ hc vs hvs) h fun l hl hb => ?_
    · have : opcodes (l ++ l') = opcodes l ++ opcodes l' := List.filterMap_append
      rw [this]
      exact notFirst_append hb
    · rw [← performs_opcodes hl, hop] at hb
      exact hb hm
  rcases hv with ⟨hv, ho⟩ | ⟨rfl, ho⟩
  · exact key [0x57#8, 0x5F#8] (by rcases hv with rfl | rfl <;> decide) (hvsLdAIR _ _ ho)
  · exact key [0x71#8] (by decide) (hvsOutC0 _ _ ho)

/-! ### Concrete cases -/

/-- A program that adds, stores and outputs (`LD A,5; ADD A,A; PUSH AF; OUT (C),A`) is plain; new
processors of all variants correspond. -/
example : (∃ l c, Plain (σ := tsSig 16 Unit Unit) (Cpu.new : Cpu NMOS) l c ∧ l.length = 4 ∧
      c.af.hi = 10#8) ∧
    Corr (Cpu.new : Cpu NMOS) (Cpu.new : Cpu CMOS) ∧ Corr (Cpu.new : Cpu NMOS) (Cpu.new : Cpu BM1) := by
  let m := program [0x3E, 0x05, 0x87, 0xF5, 0xED, 0x79]
  let s1 := (executeNext false (Cpu.new : Cpu NMOS)).run demo (0, m, ())
  let s2 := (executeNext false s1.1.2).run demo s1.2
  let s3 := (executeNext false s2.1.2).run demo s2.2
  refine ⟨⟨_, _, .cons (runs_demo demo _ (0, m, ()) rfl) (by decide +kernel)
    (.cons (runs_demo demo _ s1.2 rfl) (by decide +kernel)
    (.cons (runs_demo demo _ s2.2 rfl) (by decide +kernel)
    (.cons (runs_demo demo _ s3.2 rfl) (by decide +kernel) (.nil _)))), rfl, ?_⟩, ?_⟩
  · decide +kernel
  · exact ⟨by rw [corr_iff]; decide +kernel, by rw [corr_iff]; decide +kernel⟩

/-- The exceptions are not empty: after an instruction that affects no flags SCF leaves different
flags on NMOS and CMOS, `LD (BC),A` leaves different MEMPTR on NMOS and BM1, `OUT (C),0` sends
different bytes on NMOS and CMOS, and `LD A,I` with interrupts enabled and one requested leaves
different flags on NMOS and CMOS. -/
example :
    let af : RegPair := ⟨0x00, 0x28⟩
    let n : Cpu NMOS := { Cpu.new with af := af, iff1 := true, iff2 := true }
    let m : Cpu CMOS := { Cpu.new with af := af, iff1 := true, iff2 := true }
    let b : Cpu BM1 := { Cpu.new with af := ⟨0x12, 0⟩ }
    let n' : Cpu NMOS := { Cpu.new with af := ⟨0x12, 0⟩ }
    let ir := ramHost (demoIo true 0 none none)
    (let go := fun {P : Type} [Flavour P] (c : Cpu P) l =>
      ((executeInstruction false 0xED#8 c).run ir (0, program l, ())).1.2
     (go n [0x57]).af.lo ≠ (go m [0x57]).af.lo) ∧
    ((executeInstruction false 0x37#8 n).run demo (0, program [], ())).1.2.af.lo = 0x29#8 ∧
    ((executeInstruction false 0x37#8 m).run demo (0, program [], ())).1.2.af.lo = 0x01#8 ∧
    ((executeInstruction false 0x02#8 n').run demo (0, program [], ())).1.2.memptr = 0x1201#16 ∧
    ((executeInstruction false 0x02#8 b).run demo (0, program [], ())).1.2.memptr = 0x0001#16 ∧
    varies [0x37] = true ∧ varies [0xED, 0x71] = true ∧ varies [0xED, 0x79] = false := by
  decide +kernel

end Z80
