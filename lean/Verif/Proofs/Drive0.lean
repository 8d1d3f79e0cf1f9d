import Verif.Proofs.Prog
import Verif.Proofs.Sim0

/-! # Bus cycles of unprefixed instructions -/

set_option linter.constructorNameAsVariable false

namespace Z80
open Spec
variable {Q : Type} [FlavourSpec Q] {σ : Sig}

@[norm_simps] theorem add_two_sub (x : U16) : x + 2#16 - 1#16 = x + 1#16 := by
  bv_omega

/-- The body of an unprefixed instruction makes the specified cycles. -/
def Drive0 (σ : Sig) (code : U8) (k : I0) : Prop :=
  ∀ (s : St Q) (x : Ix), s.pfx = none →
    Drives (σ := σ) (executePlain code) s.begin (endCycles (f0 k) (cycles0 (FlavourSpec.opt Q) .hl k
      { absS FlavourSpec.cur s with idx := x }))

set_option hygiene false in
/-- Unfold the code and the specification and compare. -/
macro "drive_tac" : tactic => `(tactic| first | exact absurd h Bool.false_ne_true | (
  simp only [agree0, Bool.and_eq_true, decide_eq_true_eq] at h
  try simp only [regOf, rpOf', spOf] at h
  intro s x hp
  simp only [executePlain, instr0, instrLdRR, run_simps, prog_simps, code_simps, St.begin, h]
  simp only [absS, cycles0, prog_simps, spec_simps, norm_simps, hp, f0]
  try rfl))

set_option hygiene false in
/-- The same with a condition. -/
macro "drive_cc" c:ident : tactic => `(tactic| (
  simp only [agree0, Bool.and_eq_true, decide_eq_true_eq] at h
  intro s x hp
  cases hc : Fl.holds (Fl.of s.flags) $c <;>
  simp only [executePlain, instr0, run_simps, prog_simps, code_simps, St.begin, h, hc] <;>
  simp only [absS, cycles0, prog_simps, spec_simps, norm_simps, hp, f0, hc] <;> try rfl))

theorem drive0_nop (code) (h : agree0 code (.nop)) :
    Drive0 (Q := Q) σ code (.nop) := by
  drive_tac
theorem drive0_exAf (code) (h : agree0 code (.exAf)) :
    Drive0 (Q := Q) σ code (.exAf) := by
  drive_tac
theorem drive0_djnz (code) (h : agree0 code (.djnz)) :
    Drive0 (Q := Q) σ code (.djnz) := by
  simp only [agree0, decide_eq_true_eq] at h
  intro s x hp
  cases hb : (s.cpu.bc.hi - 1#8 != 0#8) <;>
  simp only [executePlain, instr0, run_simps, prog_simps, code_simps, St.begin, h, hb] <;>
  simp only [bne_iff_ne, bne_eq_false_iff_eq, ne_eq] at hb <;>
  simp only [absS, cycles0, prog_simps, spec_simps, norm_simps, hp, f0, hb, not_true,
    not_false_eq_true] <;> rfl
theorem drive0_jr (code) (h : agree0 code (.jr)) :
    Drive0 (Q := Q) σ code (.jr) := by
  drive_tac
theorem drive0_jrCc (code c) (h : agree0 code (.jrCc c)) :
    Drive0 (Q := Q) σ code (.jrCc c) := by
  drive_cc c
theorem drive0_ldRpNn (code p) (h : agree0 code (.ldRpNn p)) :
    Drive0 (Q := Q) σ code (.ldRpNn p) := by
  cases p <;> drive_tac
theorem drive0_addHl (code p) (h : agree0 code (.addHl p)) :
    Drive0 (Q := Q) σ code (.addHl p) := by
  cases p <;> drive_tac
theorem drive0_ldRpA (code p) (h : agree0 code (.ldRpA p)) :
    Drive0 (Q := Q) σ code (.ldRpA p) := by
  cases p <;> drive_tac
theorem drive0_ldARp (code p) (h : agree0 code (.ldARp p)) :
    Drive0 (Q := Q) σ code (.ldARp p) := by
  cases p <;> drive_tac
theorem drive0_ldNnHl (code) (h : agree0 code (.ldNnHl)) :
    Drive0 (Q := Q) σ code (.ldNnHl) := by
  drive_tac
theorem drive0_ldHlNn (code) (h : agree0 code (.ldHlNn)) :
    Drive0 (Q := Q) σ code (.ldHlNn) := by
  drive_tac
theorem drive0_ldNnA (code) (h : agree0 code (.ldNnA)) :
    Drive0 (Q := Q) σ code (.ldNnA) := by
  drive_tac
theorem drive0_ldANn (code) (h : agree0 code (.ldANn)) :
    Drive0 (Q := Q) σ code (.ldANn) := by
  drive_tac
theorem drive0_incRp (code p) (h : agree0 code (.incRp p)) :
    Drive0 (Q := Q) σ code (.incRp p) := by
  cases p <;> drive_tac
theorem drive0_decRp (code p) (h : agree0 code (.decRp p)) :
    Drive0 (Q := Q) σ code (.decRp p) := by
  cases p <;> drive_tac
theorem drive0_incR (code r) (h : agree0 code (.incR r)) :
    Drive0 (Q := Q) σ code (.incR r) := by
  cases r <;> drive_tac
theorem drive0_decR (code r) (h : agree0 code (.decR r)) :
    Drive0 (Q := Q) σ code (.decR r) := by
  cases r <;> drive_tac
theorem drive0_ldRN (code r) (h : agree0 code (.ldRN r)) :
    Drive0 (Q := Q) σ code (.ldRN r) := by
  cases r <;> drive_tac
theorem drive0_accRot (code k) (h : agree0 code (.accRot k)) :
    Drive0 (Q := Q) σ code (.accRot k) := by
  cases k <;> drive_tac
theorem drive0_daa (code) (h : agree0 code (.daa)) :
    Drive0 (Q := Q) σ code (.daa) := by
  drive_tac
theorem drive0_cpl (code) (h : agree0 code (.cpl)) :
    Drive0 (Q := Q) σ code (.cpl) := by
  drive_tac
theorem drive0_scf (code) (h : agree0 code (.scf)) :
    Drive0 (Q := Q) σ code (.scf) := by
  drive_tac
theorem drive0_ccf (code) (h : agree0 code (.ccf)) :
    Drive0 (Q := Q) σ code (.ccf) := by
  drive_tac
theorem drive0_halt (code) (h : agree0 code (.halt)) :
    Drive0 (Q := Q) σ code (.halt) := by
  drive_tac
theorem drive0_aluR (code k r) (h : agree0 code (.aluR k r)) :
    Drive0 (Q := Q) σ code (.aluR k r) := by
  cases r <;> drive_tac
theorem drive0_aluN (code k) (h : agree0 code (.aluN k)) :
    Drive0 (Q := Q) σ code (.aluN k) := by
  drive_tac
theorem drive0_retCc (code c) (h : agree0 code (.retCc c)) :
    Drive0 (Q := Q) σ code (.retCc c) := by
  drive_cc c
theorem drive0_pop (code p) (h : agree0 code (.pop p)) :
    Drive0 (Q := Q) σ code (.pop p) := by
  cases p <;> drive_tac
theorem drive0_ret (code) (h : agree0 code (.ret)) :
    Drive0 (Q := Q) σ code (.ret) := by
  drive_tac
theorem drive0_exx (code) (h : agree0 code (.exx)) :
    Drive0 (Q := Q) σ code (.exx) := by
  drive_tac
theorem drive0_jpHl (code) (h : agree0 code (.jpHl)) :
    Drive0 (Q := Q) σ code (.jpHl) := by
  drive_tac
theorem drive0_ldSpHl (code) (h : agree0 code (.ldSpHl)) :
    Drive0 (Q := Q) σ code (.ldSpHl) := by
  drive_tac
theorem drive0_jpCc (code c) (h : agree0 code (.jpCc c)) :
    Drive0 (Q := Q) σ code (.jpCc c) := by
  drive_cc c
theorem drive0_jp (code) (h : agree0 code (.jp)) :
    Drive0 (Q := Q) σ code (.jp) := by
  drive_tac
theorem drive0_outNA (code) (h : agree0 code (.outNA)) :
    Drive0 (Q := Q) σ code (.outNA) := by
  drive_tac
theorem drive0_inAN (code) (h : agree0 code (.inAN)) :
    Drive0 (Q := Q) σ code (.inAN) := by
  drive_tac
theorem drive0_exSpHl (code) (h : agree0 code (.exSpHl)) :
    Drive0 (Q := Q) σ code (.exSpHl) := by
  drive_tac
theorem drive0_exDeHl (code) (h : agree0 code (.exDeHl)) :
    Drive0 (Q := Q) σ code (.exDeHl) := by
  drive_tac
theorem drive0_di (code) (h : agree0 code (.di)) :
    Drive0 (Q := Q) σ code (.di) := by
  drive_tac
theorem drive0_ei (code) (h : agree0 code (.ei)) :
    Drive0 (Q := Q) σ code (.ei) := by
  drive_tac
theorem drive0_callCc (code c) (h : agree0 code (.callCc c)) :
    Drive0 (Q := Q) σ code (.callCc c) := by
  drive_cc c
theorem drive0_push (code p) (h : agree0 code (.push p)) :
    Drive0 (Q := Q) σ code (.push p) := by
  cases p <;> drive_tac
theorem drive0_call (code) (h : agree0 code (.call)) :
    Drive0 (Q := Q) σ code (.call) := by
  drive_tac
theorem drive0_rst (code y) (h : agree0 code (.rst y)) :
    Drive0 (Q := Q) σ code (.rst y) := by
  drive_tac
theorem drive0_ldRR (code d r) (h : agree0 code (.ldRR d r)) :
    Drive0 (Q := Q) σ code (.ldRR d r) := by
  cases d <;> cases r <;> first | (exfalso; simp [agree0] at h; done) | drive_tac
end Z80
