import Verif.Proofs.SimE

/-! # Simulation of instructions after DD and FD -/

set_option linter.constructorNameAsVariable false

namespace Z80
open Spec
variable {Q : Type} [FlavourSpec Q] {w : Nat} {O R I : Type}

theorem executeIndexed_body {σ : Sig} (p : Prefix) {code : U8} {m : MI}
    (h : decodeI code = some m) (h1 : m ≠ .plain) (h2 : m ≠ .dd) (h3 : m ≠ .fd) :
    executeIndexed (σ := σ) (Q := Q) p code =
      (instrI m p code >>= fun e => Ex.setPfx none >>= fun _ => pure e) := by
  unfold executeIndexed
  rw [h]
  cases m <;> first | rfl | contradiction

set_option maxHeartbeats 1000000 in
theorem sim_xcb (io : Handler (tsSig w O R) I) (code : U8) (p : Prefix)
    (h : decodeI code = some .cb) (s : St Q) (t m i) (x : Ix) (hp : s.pfx = some p) :
    Sim io (executeIndexed p code) s.begin (t, m, i)
      ((fun M : Mach w I => Eff.finish (done (execXCb (decodeCb (M.skip 1).imm8)
        (M.ea (ixOf (some p))) ((M.eaNext (ixOf (some p))).skip 1)))
        (fCb (decodeCb (M.skip 1).imm8)) (tXCb (decodeCb (M.skip 1).imm8) - 8))
       (absM { absS FlavourSpec.cur s with idx := x } (t, m, i))) := by
  obtain ⟨h1, h2⟩ := agreeCb_all (m (s.pc + 1#16))
  rw [executeIndexed_body p h (by decide) (by decide) (by decide)]
  simp only [Sim, instrI, run_simps, code_simps, St.begin, h1]
  simp only [absM, absS, spec_simps, hp]
  generalize decodeCb (m (s.pc + 1#16)) = k at *
  rcases k with ⟨k, r⟩ | ⟨n, r⟩ | ⟨n, r⟩ | ⟨n, r⟩
  · cases r <;> cases p <;>
    simp only [cbOf, regOf, bitopsQq, run_simps, code_simps] <;>
    simp only [outE, execXCb, spec_simps, norm_simps, fCb, tXCb, Nat.reduceAdd, Nat.reduceSub] <;>
    rfl
  · simp only [ICb.ok, decide_eq_true_eq] at h2
    cases p <;>
    simp only [cbOf, bitopsQq, run_simps, code_simps, bitMp_eq n h2] <;>
    simp only [outE, execXCb, spec_simps, norm_simps, fCb, tXCb, Nat.reduceAdd, Nat.reduceSub]
  · cases r <;> cases p <;>
    simp only [cbOf, regOf, bitopsQq, run_simps, code_simps] <;>
    simp only [outE, execXCb, spec_simps, norm_simps, fCb, tXCb, Nat.reduceAdd, Nat.reduceSub] <;>
    rfl
  · cases r <;> cases p <;>
    simp only [cbOf, regOf, bitopsQq, run_simps, code_simps] <;>
    simp only [outE, execXCb, spec_simps, norm_simps, fCb, tXCb, Nat.reduceAdd, Nat.reduceSub] <;>
    rfl

/-- The body of an instruction with an index prefix does what is specified. -/
def SimX (io : Handler (tsSig w O R) I) (code : U8) (k : I0) : Prop :=
  ∀ (p : Prefix) (s : St Q) (t m i) (x : Ix), s.pfx = some p →
    Sim io (executeIndexed p code) s.begin (t, m, i)
     ((fun e : Eff w O R I => Eff.finish e (f0 k) (tX k e.2.1 - 8)) (exec0 (FlavourSpec.opt Q)
       (envOf io) (ixOf (some p)) k (absM { absS FlavourSpec.cur s with idx := x } (t, m, i))))

set_option hygiene false in
/-- Run the code and the specification and compare. -/
macro "sim_x" : tactic => `(tactic| first | (exfalso; simp [usesHl] at hu; done) | (
  simp only [agree0, Bool.and_eq_true, decide_eq_true_eq] at h
  try simp only [regOf, rpOf', spOf] at h
  rw [agreeI, hu, if_pos rfl, decide_eq_true_eq] at hx
  simp only [miOf] at hx
  intro p s t m i x hp
  rw [executeIndexed_body p hx (by decide) (by decide) (by decide)]
  cases p <;>
  simp only [Sim, instrI, instrIncDecQ, run_simps, code_simps, St.begin, h,
    reduceCtorEq, or_true, true_or, or_self, or_false] <;>
  simp only [absM, absS, exec0, outE, spec_simps, norm_simps, hp, f0, tX, t0, Nat.reduceAdd,
    Nat.reduceSub] <;>
  try rfl))

theorem simX_ldRpNn (io : Handler (tsSig w O R) I) (code p) (h : agree0 code (.ldRpNn p))
    (hx : agreeI code (.ldRpNn p)) (hu : usesHl (.ldRpNn p)) :
    SimX (Q := Q) io code (.ldRpNn p) := by
  cases p <;> sim_x
theorem simX_addHl (io : Handler (tsSig w O R) I) (code p) (h : agree0 code (.addHl p))
    (hx : agreeI code (.addHl p)) (hu : usesHl (.addHl p)) :
    SimX (Q := Q) io code (.addHl p) := by
  cases p <;> sim_x
theorem simX_ldNnHl (io : Handler (tsSig w O R) I) (code) (h : agree0 code (.ldNnHl))
    (hx : agreeI code (.ldNnHl)) (hu : usesHl (.ldNnHl)) :
    SimX (Q := Q) io code (.ldNnHl) := by
  sim_x
theorem simX_ldHlNn (io : Handler (tsSig w O R) I) (code) (h : agree0 code (.ldHlNn))
    (hx : agreeI code (.ldHlNn)) (hu : usesHl (.ldHlNn)) :
    SimX (Q := Q) io code (.ldHlNn) := by
  sim_x
theorem simX_incRp (io : Handler (tsSig w O R) I) (code p) (h : agree0 code (.incRp p))
    (hx : agreeI code (.incRp p)) (hu : usesHl (.incRp p)) :
    SimX (Q := Q) io code (.incRp p) := by
  cases p <;> sim_x
theorem simX_decRp (io : Handler (tsSig w O R) I) (code p) (h : agree0 code (.decRp p))
    (hx : agreeI code (.decRp p)) (hu : usesHl (.decRp p)) :
    SimX (Q := Q) io code (.decRp p) := by
  cases p <;> sim_x
theorem simX_pop (io : Handler (tsSig w O R) I) (code p) (h : agree0 code (.pop p))
    (hx : agreeI code (.pop p)) (hu : usesHl (.pop p)) :
    SimX (Q := Q) io code (.pop p) := by
  cases p <;> sim_x
theorem simX_push (io : Handler (tsSig w O R) I) (code p) (h : agree0 code (.push p))
    (hx : agreeI code (.push p)) (hu : usesHl (.push p)) :
    SimX (Q := Q) io code (.push p) := by
  cases p <;> sim_x
theorem simX_jpHl (io : Handler (tsSig w O R) I) (code) (h : agree0 code (.jpHl))
    (hx : agreeI code (.jpHl)) (hu : usesHl (.jpHl)) :
    SimX (Q := Q) io code (.jpHl) := by
  sim_x
theorem simX_ldSpHl (io : Handler (tsSig w O R) I) (code) (h : agree0 code (.ldSpHl))
    (hx : agreeI code (.ldSpHl)) (hu : usesHl (.ldSpHl)) :
    SimX (Q := Q) io code (.ldSpHl) := by
  sim_x
theorem simX_exSpHl (io : Handler (tsSig w O R) I) (code) (h : agree0 code (.exSpHl))
    (hx : agreeI code (.exSpHl)) (hu : usesHl (.exSpHl)) :
    SimX (Q := Q) io code (.exSpHl) := by
  sim_x
theorem simX_incR (io : Handler (tsSig w O R) I) (code r) (h : agree0 code (.incR r))
    (hx : agreeI code (.incR r)) (hu : usesHl (.incR r)) :
    SimX (Q := Q) io code (.incR r) := by
  cases r <;> sim_x
theorem simX_decR (io : Handler (tsSig w O R) I) (code r) (h : agree0 code (.decR r))
    (hx : agreeI code (.decR r)) (hu : usesHl (.decR r)) :
    SimX (Q := Q) io code (.decR r) := by
  cases r <;> sim_x
theorem simX_ldRN (io : Handler (tsSig w O R) I) (code r) (h : agree0 code (.ldRN r))
    (hx : agreeI code (.ldRN r)) (hu : usesHl (.ldRN r)) :
    SimX (Q := Q) io code (.ldRN r) := by
  cases r <;> sim_x
theorem simX_aluR (io : Handler (tsSig w O R) I) (code k r) (h : agree0 code (.aluR k r))
    (hx : agreeI code (.aluR k r)) (hu : usesHl (.aluR k r)) :
    SimX (Q := Q) io code (.aluR k r) := by
  cases r <;> sim_x
theorem simX_ldRR (io : Handler (tsSig w O R) I) (code d r) (h : agree0 code (.ldRR d r))
    (hx : agreeI code (.ldRR d r)) (hu : usesHl (.ldRR d r)) :
    SimX (Q := Q) io code (.ldRR d r) := by
  cases d <;> cases r <;> first | (exfalso; simp [agree0] at h; done) | sim_x
end Z80
