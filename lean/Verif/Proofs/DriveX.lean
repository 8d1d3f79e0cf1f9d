import Verif.Proofs.DriveE
import Verif.Proofs.SimX

/-! # Bus cycles of instructions after DD and FD -/

set_option linter.constructorNameAsVariable false

namespace Z80
open Spec
variable {Q : Type} [FlavourSpec Q] {σ : Sig}

set_option maxHeartbeats 1000000 in
theorem drive_xcb (code : U8) (p : Prefix) (h : decodeI code = some .cb) (s : St Q) (x : Ix)
    (hp : s.pfx = some p) :
    Drives (σ := σ) (executeIndexed p code) s.begin
      ((fun r : Regs => .rd r.pc fun d => .rd (r.pc + 1#16) fun c => .idle (r.pc + 1#16) 2
        (endCycles (fCb (decodeCb c)) (xcbCycles (decodeCb c) (r.xhl (ixOf (some p)) + disp d)
          { r.skip 2 with wz := r.xhl (ixOf (some p)) + disp d })))
       { absS FlavourSpec.cur s with idx := x }) := by
  rw [executeIndexed_body p h (by decide) (by decide) (by decide)]
  simp only [instrI, run_simps, prog_simps, code_simps, St.begin]
  simp only [absS, prog_simps, spec_simps, norm_simps, hp]
  refine congrArg (Prog.addMreq _) (funext fun ts => congrArg (Prog.readMem _ _)
    (funext fun d => congrArg (Prog.addMreq _) (funext fun ts => congrArg (Prog.readMem _ _)
    (funext fun v => congrArg (Prog.addNoMreq _ _) (funext fun _ => ?_)))))
  obtain ⟨h1, h2⟩ := agreeCb_all v
  simp only [h1]
  generalize decodeCb v = k at *
  rcases k with ⟨k, r⟩ | ⟨n, r⟩ | ⟨n, r⟩ | ⟨n, r⟩
  · cases r <;> cases p <;>
    simp only [cbOf, regOf, bitopsQq, run_simps, prog_simps, code_simps] <;>
    simp only [absS, xcbCycles, prog_simps, spec_simps, norm_simps, fCb] <;>
    rfl
  · simp only [ICb.ok, decide_eq_true_eq] at h2
    cases p <;>
    simp only [cbOf, bitopsQq, run_simps, prog_simps, code_simps, bitMp_eq n h2] <;>
    simp only [absS, xcbCycles, prog_simps, spec_simps, norm_simps, fCb] <;> rfl
  · cases r <;> cases p <;>
    simp only [cbOf, regOf, bitopsQq, run_simps, prog_simps, code_simps] <;>
    simp only [absS, xcbCycles, prog_simps, spec_simps, norm_simps, fCb] <;>
    rfl
  · cases r <;> cases p <;>
    simp only [cbOf, regOf, bitopsQq, run_simps, prog_simps, code_simps] <;>
    simp only [absS, xcbCycles, prog_simps, spec_simps, norm_simps, fCb] <;>
    rfl

/-- The body of an instruction with an index prefix makes the specified cycles. -/
def DriveX (σ : Sig) (code : U8) (k : I0) : Prop :=
  ∀ (p : Prefix) (s : St Q) (x : Ix), s.pfx = some p →
    Drives (σ := σ) (executeIndexed p code) s.begin
     (endCycles (f0 k) (cycles0 (FlavourSpec.opt Q) (ixOf (some p)) k
       { absS FlavourSpec.cur s with idx := x }))

set_option hygiene false in
/-- Unfold the code and the specification and compare. -/
macro "drive_x" : tactic => `(tactic| first | (exfalso; simp [usesHl] at hu; done) | (
  simp only [agree0, Bool.and_eq_true, decide_eq_true_eq] at h
  try simp only [regOf, rpOf', spOf] at h
  rw [agreeI, hu, if_pos rfl, decide_eq_true_eq] at hx
  simp only [miOf] at hx
  intro p s x hp
  rw [executeIndexed_body p hx (by decide) (by decide) (by decide)]
  cases p <;>
  simp only [instrI, instrIncDecQ, run_simps, prog_simps, code_simps, St.begin, h,
    reduceCtorEq, or_true, true_or, or_self, or_false] <;>
  simp only [absS, cycles0, prog_simps, spec_simps, norm_simps, hp, f0] <;>
  try rfl))

theorem driveX_ldRpNn (code p) (h : agree0 code (.ldRpNn p))
    (hx : agreeI code (.ldRpNn p)) (hu : usesHl (.ldRpNn p)) :
    DriveX (Q := Q) σ code (.ldRpNn p) := by
  cases p <;> drive_x
theorem driveX_addHl (code p) (h : agree0 code (.addHl p))
    (hx : agreeI code (.addHl p)) (hu : usesHl (.addHl p)) :
    DriveX (Q := Q) σ code (.addHl p) := by
  cases p <;> drive_x
theorem driveX_ldNnHl (code) (h : agree0 code (.ldNnHl))
    (hx : agreeI code (.ldNnHl)) (hu : usesHl (.ldNnHl)) :
    DriveX (Q := Q) σ code (.ldNnHl) := by
  drive_x
theorem driveX_ldHlNn (code) (h : agree0 code (.ldHlNn))
    (hx : agreeI code (.ldHlNn)) (hu : usesHl (.ldHlNn)) :
    DriveX (Q := Q) σ code (.ldHlNn) := by
  drive_x
theorem driveX_incRp (code p) (h : agree0 code (.incRp p))
    (hx : agreeI code (.incRp p)) (hu : usesHl (.incRp p)) :
    DriveX (Q := Q) σ code (.incRp p) := by
  cases p <;> drive_x
theorem driveX_decRp (code p) (h : agree0 code (.decRp p))
    (hx : agreeI code (.decRp p)) (hu : usesHl (.decRp p)) :
    DriveX (Q := Q) σ code (.decRp p) := by
  cases p <;> drive_x
theorem driveX_pop (code p) (h : agree0 code (.pop p))
    (hx : agreeI code (.pop p)) (hu : usesHl (.pop p)) :
    DriveX (Q := Q) σ code (.pop p) := by
  cases p <;> drive_x
theorem driveX_push (code p) (h : agree0 code (.push p))
    (hx : agreeI code (.push p)) (hu : usesHl (.push p)) :
    DriveX (Q := Q) σ code (.push p) := by
  cases p <;> drive_x
theorem driveX_jpHl (code) (h : agree0 code (.jpHl))
    (hx : agreeI code (.jpHl)) (hu : usesHl (.jpHl)) :
    DriveX (Q := Q) σ code (.jpHl) := by
  drive_x
theorem driveX_ldSpHl (code) (h : agree0 code (.ldSpHl))
    (hx : agreeI code (.ldSpHl)) (hu : usesHl (.ldSpHl)) :
    DriveX (Q := Q) σ code (.ldSpHl) := by
  drive_x
theorem driveX_exSpHl (code) (h : agree0 code (.exSpHl))
    (hx : agreeI code (.exSpHl)) (hu : usesHl (.exSpHl)) :
    DriveX (Q := Q) σ code (.exSpHl) := by
  drive_x
theorem driveX_incR (code r) (h : agree0 code (.incR r))
    (hx : agreeI code (.incR r)) (hu : usesHl (.incR r)) :
    DriveX (Q := Q) σ code (.incR r) := by
  cases r <;> drive_x
theorem driveX_decR (code r) (h : agree0 code (.decR r))
    (hx : agreeI code (.decR r)) (hu : usesHl (.decR r)) :
    DriveX (Q := Q) σ code (.decR r) := by
  cases r <;> drive_x
theorem driveX_ldRN (code r) (h : agree0 code (.ldRN r))
    (hx : agreeI code (.ldRN r)) (hu : usesHl (.ldRN r)) :
    DriveX (Q := Q) σ code (.ldRN r) := by
  cases r <;> drive_x
theorem driveX_aluR (code k r) (h : agree0 code (.aluR k r))
    (hx : agreeI code (.aluR k r)) (hu : usesHl (.aluR k r)) :
    DriveX (Q := Q) σ code (.aluR k r) := by
  cases r <;> drive_x
theorem driveX_ldRR (code d r) (h : agree0 code (.ldRR d r))
    (hx : agreeI code (.ldRR d r)) (hu : usesHl (.ldRR d r)) :
    DriveX (Q := Q) σ code (.ldRR d r) := by
  cases d <;> cases r <;> first | (exfalso; simp [agree0] at h; done) | drive_x
end Z80
