import Verif.Proofs.Sim

/-! # Simulation of unprefixed instructions -/

set_option linter.constructorNameAsVariable false

namespace Z80
open Spec
variable {Q : Type} [FlavourSpec Q] {w : Nat} {O R I : Type}

/-- Start of an instruction. -/
def St.begin (s : St Q) : St Q :=
  { s with cpu := { s.cpu with flavour := Flavour.beginInstruction s.cpu.flavour } }

/-- The body of an unprefixed instruction does what is specified. -/
def Sim0 (io : Handler (tsSig w O R) I) (code : U8) (k : I0) : Prop :=
  ∀ (s : St Q) (t m i) (x : Ix), s.pfx = none →
    Sim io (executePlain code) s.begin (t, m, i)
     ((fun e : Eff w O R I => Eff.finish e (f0 k) (t0 k e.2.1 - 4)) (exec0 (FlavourSpec.opt Q) (envOf io) .hl k
       (absM { absS FlavourSpec.cur s with idx := x } (t, m, i))))

set_option hygiene false in
/-- Run the code and the specification and compare. -/
macro "sim_tac" : tactic => `(tactic| first | exact absurd h Bool.false_ne_true | (
  simp only [agree0, Bool.and_eq_true, decide_eq_true_eq] at h
  try simp only [regOf, rpOf', spOf] at h
  intro s t m i x hp
  simp only [Sim, executePlain, instr0, instrLdRR, run_simps, code_simps, St.begin, h]
  simp only [absM, absS, exec0, outE, spec_simps, norm_simps, hp, f0, t0, Nat.reduceAdd, Nat.reduceSub]
  try rfl))

set_option hygiene false in
/-- The same with a condition. -/
macro "sim_cc" c:ident : tactic => `(tactic| (
  simp only [agree0, Bool.and_eq_true, decide_eq_true_eq] at h
  intro s t m i x hp
  cases hc : Fl.holds (Fl.of s.flags) $c <;>
  simp only [Sim, executePlain, instr0, run_simps, code_simps, St.begin, h, hc] <;>
  simp only [absM, absS, exec0, outE, spec_simps, norm_simps, hp, f0, t0, Nat.reduceAdd, Nat.reduceSub, hc]))
theorem sim0_nop (io : Handler (tsSig w O R) I) (code) (h : agree0 code (.nop)) :
    Sim0 (Q := Q) io code (.nop) := by
  sim_tac
theorem sim0_exAf (io : Handler (tsSig w O R) I) (code) (h : agree0 code (.exAf)) :
    Sim0 (Q := Q) io code (.exAf) := by
  sim_tac
theorem sim0_djnz (io : Handler (tsSig w O R) I) (code) (h : agree0 code (.djnz)) :
    Sim0 (Q := Q) io code (.djnz) := by
  simp only [agree0, decide_eq_true_eq] at h
  intro s t m i x hp
  cases hb : (s.cpu.bc.hi - 1#8 != 0#8) <;>
  simp only [Sim, executePlain, instr0, run_simps, code_simps, St.begin, h, hb] <;>
  simp only [bne_iff_ne, bne_eq_false_iff_eq, ne_eq] at hb <;>
  simp only [absM, absS, exec0, outE, spec_simps, norm_simps, hp, f0, t0, Nat.reduceAdd,
    Nat.reduceSub, hb, not_true, not_false_eq_true]
theorem sim0_jr (io : Handler (tsSig w O R) I) (code) (h : agree0 code (.jr)) :
    Sim0 (Q := Q) io code (.jr) := by
  sim_tac
theorem sim0_jrCc (io : Handler (tsSig w O R) I) (code c) (h : agree0 code (.jrCc c)) :
    Sim0 (Q := Q) io code (.jrCc c) := by
  sim_cc c
theorem sim0_ldRpNn (io : Handler (tsSig w O R) I) (code p) (h : agree0 code (.ldRpNn p)) :
    Sim0 (Q := Q) io code (.ldRpNn p) := by
  cases p <;> sim_tac
theorem sim0_addHl (io : Handler (tsSig w O R) I) (code p) (h : agree0 code (.addHl p)) :
    Sim0 (Q := Q) io code (.addHl p) := by
  cases p <;> sim_tac
theorem sim0_ldRpA (io : Handler (tsSig w O R) I) (code p) (h : agree0 code (.ldRpA p)) :
    Sim0 (Q := Q) io code (.ldRpA p) := by
  cases p <;> sim_tac
theorem sim0_ldARp (io : Handler (tsSig w O R) I) (code p) (h : agree0 code (.ldARp p)) :
    Sim0 (Q := Q) io code (.ldARp p) := by
  cases p <;> sim_tac
theorem sim0_ldNnHl (io : Handler (tsSig w O R) I) (code) (h : agree0 code (.ldNnHl)) :
    Sim0 (Q := Q) io code (.ldNnHl) := by
  sim_tac
theorem sim0_ldHlNn (io : Handler (tsSig w O R) I) (code) (h : agree0 code (.ldHlNn)) :
    Sim0 (Q := Q) io code (.ldHlNn) := by
  sim_tac
theorem sim0_ldNnA (io : Handler (tsSig w O R) I) (code) (h : agree0 code (.ldNnA)) :
    Sim0 (Q := Q) io code (.ldNnA) := by
  sim_tac
theorem sim0_ldANn (io : Handler (tsSig w O R) I) (code) (h : agree0 code (.ldANn)) :
    Sim0 (Q := Q) io code (.ldANn) := by
  sim_tac
theorem sim0_incRp (io : Handler (tsSig w O R) I) (code p) (h : agree0 code (.incRp p)) :
    Sim0 (Q := Q) io code (.incRp p) := by
  cases p <;> sim_tac
theorem sim0_decRp (io : Handler (tsSig w O R) I) (code p) (h : agree0 code (.decRp p)) :
    Sim0 (Q := Q) io code (.decRp p) := by
  cases p <;> sim_tac
theorem sim0_incR (io : Handler (tsSig w O R) I) (code r) (h : agree0 code (.incR r)) :
    Sim0 (Q := Q) io code (.incR r) := by
  cases r <;> sim_tac
theorem sim0_decR (io : Handler (tsSig w O R) I) (code r) (h : agree0 code (.decR r)) :
    Sim0 (Q := Q) io code (.decR r) := by
  cases r <;> sim_tac
theorem sim0_ldRN (io : Handler (tsSig w O R) I) (code r) (h : agree0 code (.ldRN r)) :
    Sim0 (Q := Q) io code (.ldRN r) := by
  cases r <;> sim_tac
theorem sim0_accRot (io : Handler (tsSig w O R) I) (code k) (h : agree0 code (.accRot k)) :
    Sim0 (Q := Q) io code (.accRot k) := by
  cases k <;> sim_tac
theorem sim0_daa (io : Handler (tsSig w O R) I) (code) (h : agree0 code (.daa)) :
    Sim0 (Q := Q) io code (.daa) := by
  sim_tac
theorem sim0_cpl (io : Handler (tsSig w O R) I) (code) (h : agree0 code (.cpl)) :
    Sim0 (Q := Q) io code (.cpl) := by
  sim_tac
theorem sim0_scf (io : Handler (tsSig w O R) I) (code) (h : agree0 code (.scf)) :
    Sim0 (Q := Q) io code (.scf) := by
  sim_tac
theorem sim0_ccf (io : Handler (tsSig w O R) I) (code) (h : agree0 code (.ccf)) :
    Sim0 (Q := Q) io code (.ccf) := by
  sim_tac
theorem sim0_halt (io : Handler (tsSig w O R) I) (code) (h : agree0 code (.halt)) :
    Sim0 (Q := Q) io code (.halt) := by
  sim_tac
theorem sim0_aluR (io : Handler (tsSig w O R) I) (code k r) (h : agree0 code (.aluR k r)) :
    Sim0 (Q := Q) io code (.aluR k r) := by
  cases r <;> sim_tac
theorem sim0_aluN (io : Handler (tsSig w O R) I) (code k) (h : agree0 code (.aluN k)) :
    Sim0 (Q := Q) io code (.aluN k) := by
  sim_tac
theorem sim0_retCc (io : Handler (tsSig w O R) I) (code c) (h : agree0 code (.retCc c)) :
    Sim0 (Q := Q) io code (.retCc c) := by
  sim_cc c
theorem sim0_pop (io : Handler (tsSig w O R) I) (code p) (h : agree0 code (.pop p)) :
    Sim0 (Q := Q) io code (.pop p) := by
  cases p <;> sim_tac
theorem sim0_ret (io : Handler (tsSig w O R) I) (code) (h : agree0 code (.ret)) :
    Sim0 (Q := Q) io code (.ret) := by
  sim_tac
theorem sim0_exx (io : Handler (tsSig w O R) I) (code) (h : agree0 code (.exx)) :
    Sim0 (Q := Q) io code (.exx) := by
  sim_tac
theorem sim0_jpHl (io : Handler (tsSig w O R) I) (code) (h : agree0 code (.jpHl)) :
    Sim0 (Q := Q) io code (.jpHl) := by
  sim_tac
theorem sim0_ldSpHl (io : Handler (tsSig w O R) I) (code) (h : agree0 code (.ldSpHl)) :
    Sim0 (Q := Q) io code (.ldSpHl) := by
  sim_tac
theorem sim0_jpCc (io : Handler (tsSig w O R) I) (code c) (h : agree0 code (.jpCc c)) :
    Sim0 (Q := Q) io code (.jpCc c) := by
  sim_cc c
theorem sim0_jp (io : Handler (tsSig w O R) I) (code) (h : agree0 code (.jp)) :
    Sim0 (Q := Q) io code (.jp) := by
  sim_tac
theorem sim0_outNA (io : Handler (tsSig w O R) I) (code) (h : agree0 code (.outNA)) :
    Sim0 (Q := Q) io code (.outNA) := by
  simp only [agree0, decide_eq_true_eq] at h
  intro s t m i x hp
  rcases hd : devOut io (word s.cpu.af.hi (m s.pc)) s.cpu.af.hi (t + 4#w) i with ⟨⟨o, n⟩, i'⟩
  simp only [Sim, executePlain, instr0, run_simps, code_simps, St.begin, h]
  cases o <;> cases n <;>
  simp only [absM, absS, exec0, outE, spec_simps, norm_simps, hp, f0, t0, Nat.reduceAdd,
    Nat.reduceSub, hd, Nat.add_comm]
theorem sim0_inAN (io : Handler (tsSig w O R) I) (code) (h : agree0 code (.inAN)) :
    Sim0 (Q := Q) io code (.inAN) := by
  simp only [agree0, decide_eq_true_eq] at h
  intro s t m i x hp
  rcases hd : devIn io (word s.cpu.af.hi (m s.pc)) (t + 4#w) i with ⟨⟨o, n⟩, i'⟩
  simp only [Sim, executePlain, instr0, run_simps, code_simps, St.begin, h]
  cases n <;>
  simp only [absM, absS, exec0, outE, spec_simps, norm_simps, hp, f0, t0, Nat.reduceAdd,
    Nat.reduceSub, hd, Nat.add_comm]
theorem sim0_exSpHl (io : Handler (tsSig w O R) I) (code) (h : agree0 code (.exSpHl)) :
    Sim0 (Q := Q) io code (.exSpHl) := by
  sim_tac
theorem sim0_exDeHl (io : Handler (tsSig w O R) I) (code) (h : agree0 code (.exDeHl)) :
    Sim0 (Q := Q) io code (.exDeHl) := by
  sim_tac
theorem sim0_di (io : Handler (tsSig w O R) I) (code) (h : agree0 code (.di)) :
    Sim0 (Q := Q) io code (.di) := by
  sim_tac
theorem sim0_ei (io : Handler (tsSig w O R) I) (code) (h : agree0 code (.ei)) :
    Sim0 (Q := Q) io code (.ei) := by
  sim_tac
theorem sim0_callCc (io : Handler (tsSig w O R) I) (code c) (h : agree0 code (.callCc c)) :
    Sim0 (Q := Q) io code (.callCc c) := by
  sim_cc c
theorem sim0_push (io : Handler (tsSig w O R) I) (code p) (h : agree0 code (.push p)) :
    Sim0 (Q := Q) io code (.push p) := by
  cases p <;> sim_tac
theorem sim0_call (io : Handler (tsSig w O R) I) (code) (h : agree0 code (.call)) :
    Sim0 (Q := Q) io code (.call) := by
  sim_tac
theorem sim0_rst (io : Handler (tsSig w O R) I) (code y) (h : agree0 code (.rst y)) :
    Sim0 (Q := Q) io code (.rst y) := by
  sim_tac
theorem sim0_ldRR (io : Handler (tsSig w O R) I) (code d r) (h : agree0 code (.ldRR d r)) :
    Sim0 (Q := Q) io code (.ldRR d r) := by
  cases d <;> cases r <;> first | (exfalso; simp [agree0] at h; done) | sim_tac
end Z80
