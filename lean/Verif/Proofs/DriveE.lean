import Verif.Proofs.Drive0
import Verif.Proofs.SimE

/-! # Bus cycles of the CB and ED groups -/

set_option linter.constructorNameAsVariable false
namespace Z80
open Spec
variable {Q : Type} [FlavourSpec Q] {σ : Sig}

attribute [prog_simps] repeatCycles ldAIrCycles

theorem drive_cb (code : U8) (h : decode0 code = some .cb) (s : St Q) (x : Ix)
    (hp : s.pfx = none) :
    Drives (σ := σ) (executePlain code) s.begin
      ((fun r : Regs => .m1 r.bumpR.pc r.bumpR.ir fun c =>
        endCycles (fCb (decodeCb c)) (cbCycles (decodeCb c) (r.bumpR.skip 1)))
       { absS FlavourSpec.cur s with idx := x }) := by
  simp only [executePlain, instr0, run_simps, prog_simps, code_simps, St.begin, h]
  refine congrArg (Prog.addM1 _) (funext fun ts => ?_)
  simp only [absS, spec_simps, norm_simps, hp]
  refine congrArg (Prog.readOpcode _ _ _) (funext fun v => ?_)
  obtain ⟨h1, h2⟩ := agreeCb_all v
  simp only [h1]
  generalize decodeCb v = k at *
  rcases k with ⟨k, r⟩ | ⟨n, r⟩ | ⟨n, r⟩ | ⟨n, r⟩ <;> cases r <;>
  first
  | (simp only [cbOf, regOf, bitops, run_simps, prog_simps, code_simps]
     simp only [absS, cbCycles, prog_simps, spec_simps, norm_simps, hp, fCb]
     done)
  | (simp only [cbOf, regOf, bitops, run_simps, prog_simps, code_simps]
     simp only [absS, cbCycles, prog_simps, spec_simps, norm_simps, hp, fCb]
     rfl)
  | (simp only [ICb.ok, decide_eq_true_eq] at h2
     simp only [cbOf, regOf, bitops, run_simps, prog_simps, code_simps, bit_eq n h2, bitMp_eq n h2]
     simp only [absS, cbCycles, prog_simps, spec_simps, norm_simps, hp, fCb]
     first | done | rfl)

/-- The body of an instruction after ED makes the specified cycles. -/
def DriveE (σ : Sig) (c0 code : U8) (k : IEd) : Prop :=
  ∀ (s : St Q) (x : Ix), s.pfx = none →
    Drives (σ := σ) (match decodeE code with | some m => instrE m c0 code | none => pure .ub) s.begin
     (endCycles (fEd k) (edCycles (FlavourSpec.opt Q) k { absS FlavourSpec.cur s with idx := x }))

set_option hygiene false in
/-- Unfold the code and the specification and compare. -/
macro "drive_ed" : tactic => `(tactic| first | exact absurd h Bool.false_ne_true | (
  simp only [agreeE, Bool.and_eq_true, decide_eq_true_eq] at h
  try simp only [regOf, rpOf'] at h
  intro s x hp
  simp only [instrE, run_simps, prog_simps, code_simps, St.begin, h]
  simp only [absS, edCycles, prog_simps, spec_simps, norm_simps, hp, fEd]
  try rfl))

theorem driveE_nop (c0 code) (h : agreeE code (.nop)) :
    DriveE (Q := Q) σ c0 code (.nop) := by
  drive_ed
theorem driveE_inC (c0 code r) (h : agreeE code (.inC r)) :
    DriveE (Q := Q) σ c0 code (.inC r) := by
  cases r <;> drive_ed
theorem driveE_outC (c0 code r) (h : agreeE code (.outC r)) :
    DriveE (Q := Q) σ c0 code (.outC r) := by
  cases r <;> drive_ed
theorem driveE_sbcHl (c0 code p) (h : agreeE code (.sbcHl p)) :
    DriveE (Q := Q) σ c0 code (.sbcHl p) := by
  cases p <;> drive_ed
theorem driveE_adcHl (c0 code p) (h : agreeE code (.adcHl p)) :
    DriveE (Q := Q) σ c0 code (.adcHl p) := by
  cases p <;> drive_ed
theorem driveE_ldNnRp (c0 code p) (h : agreeE code (.ldNnRp p)) :
    DriveE (Q := Q) σ c0 code (.ldNnRp p) := by
  cases p <;> drive_ed
theorem driveE_ldRpNn (c0 code p) (h : agreeE code (.ldRpNn p)) :
    DriveE (Q := Q) σ c0 code (.ldRpNn p) := by
  cases p <;> drive_ed
theorem driveE_neg (c0 code) (h : agreeE code (.neg)) :
    DriveE (Q := Q) σ c0 code (.neg) := by
  drive_ed
theorem driveE_retn (c0 code) (h : agreeE code (.retn)) :
    DriveE (Q := Q) σ c0 code (.retn) := by
  simp only [agreeE, Bool.and_eq_true, decide_eq_true_eq, Bool.not_eq_true'] at h
  intro s x hp
  simp only [instrE, run_simps, prog_simps, code_simps, St.begin, h]
  simp only [absS, edCycles, prog_simps, spec_simps, norm_simps, hp, fEd]
theorem driveE_reti (c0 code) (h : agreeE code (.reti)) :
    DriveE (Q := Q) σ c0 code (.reti) := by
  drive_ed
theorem driveE_im (c0 code n) (h : agreeE code (.im n)) :
    DriveE (Q := Q) σ c0 code (.im n) := by
  match n with
  | 0 => drive_ed
  | 1 => drive_ed
  | 2 => drive_ed
  | n + 3 => drive_ed
theorem driveE_ldIA (c0 code) (h : agreeE code (.ldIA)) :
    DriveE (Q := Q) σ c0 code (.ldIA) := by
  drive_ed
theorem driveE_ldRA (c0 code) (h : agreeE code (.ldRA)) :
    DriveE (Q := Q) σ c0 code (.ldRA) := by
  drive_ed
theorem driveE_ldAI (c0 code) (h : agreeE code (.ldAI)) :
    DriveE (Q := Q) σ c0 code (.ldAI) := by
  simp only [agreeE, decide_eq_true_eq] at h
  intro s x hp
  cases h1 : s.cpu.iff1 <;> cases h2 : s.cpu.iff2 <;> cases h3 : (FlavourSpec.opt Q).early <;>
  simp only [instrE, run_simps, prog_simps, code_simps, St.begin, h, h1, h2, FlavourSpec.early_eq,
    h3, Bool.and_true, Bool.and_false, Bool.and_self] <;>
  simp only [absS, edCycles, prog_simps, spec_simps, norm_simps, hp, fEd, h1, h2, h3,
    Bool.and_true, Bool.and_false, Bool.and_self] <;> rfl
theorem driveE_ldAR (c0 code) (h : agreeE code (.ldAR)) :
    DriveE (Q := Q) σ c0 code (.ldAR) := by
  simp only [agreeE, decide_eq_true_eq] at h
  intro s x hp
  cases h1 : s.cpu.iff1 <;> cases h2 : s.cpu.iff2 <;> cases h3 : (FlavourSpec.opt Q).early <;>
  simp only [instrE, run_simps, prog_simps, code_simps, St.begin, h, h1, h2, FlavourSpec.early_eq,
    h3, Bool.and_true, Bool.and_false, Bool.and_self] <;>
  simp only [absS, edCycles, prog_simps, spec_simps, norm_simps, hp, fEd, h1, h2, h3,
    Bool.and_true, Bool.and_false, Bool.and_self] <;> rfl
theorem driveE_rrd (c0 code) (h : agreeE code (.rrd)) :
    DriveE (Q := Q) σ c0 code (.rrd) := by
  drive_ed
theorem driveE_rld (c0 code) (h : agreeE code (.rld)) :
    DriveE (Q := Q) σ c0 code (.rld) := by
  drive_ed
theorem driveE_blk_ld (c0 code dec rep) (h : agreeE code (.blk .ld dec rep)) :
    DriveE (Q := Q) σ c0 code (.blk .ld dec rep) := by
  intro s x hp
  cases hn' : (word s.cpu.bc.hi s.cpu.bc.lo - 1#16 == 0#16) <;>
  have hn := hn' <;> simp only [beq_iff_eq, beq_eq_false_iff_ne, ne_eq] at hn <;>
  cases dec <;> cases rep <;>
  simp only [agreeE, decide_eq_true_eq] at h <;>
  simp only [instrE, run_simps, prog_simps, code_simps, St.begin, h, RegPair.get16, hn',
    Bool.not_true, Bool.not_false, Bool.and_true, Bool.and_false, Bool.and_self] <;>
  simp only [absS, edCycles, blkCycles, prog_simps, spec_simps, norm_simps, hp, fEd,
    hn, not_true, not_false_eq_true, and_true, and_false, Bool.and_true, Bool.and_false,
    and_self, decide_true, decide_false, false_and] <;> rfl
theorem driveE_blk_cp (c0 code dec rep) (h : agreeE code (.blk .cp dec rep)) :
    DriveE (Q := Q) σ c0 code (.blk .cp dec rep) := by
  intro s x hp
  cases hn' : (word s.cpu.bc.hi s.cpu.bc.lo - 1#16 == 0#16) <;>
  have hn := hn' <;> simp only [beq_iff_eq, beq_eq_false_iff_ne, ne_eq] at hn <;>
  cases dec <;> cases rep <;>
  simp only [agreeE, decide_eq_true_eq] at h <;>
  simp only [instrE, run_simps, prog_simps, code_simps, St.begin, h, RegPair.get16, hn',
    Bool.not_true, Bool.not_false, Bool.and_true, Bool.and_false, Bool.and_self, Bool.or_true,
    Bool.or_false, Bool.or_self, Bool.true_and, Bool.false_and] <;>
  simp only [absS, edCycles, blkCycles, prog_simps, spec_simps, norm_simps, hp, fEd,
    hn, not_true, not_false_eq_true, and_true, and_false, Bool.and_true, Bool.and_false,
    Bool.true_and, Bool.false_and, and_self, decide_true, decide_false, false_and] <;>
  refine congrArg (Prog.addMreq _) (funext fun ts => congrArg (Prog.readMem _ _)
    (funext fun v => ?_)) <;>
  cases hm' : (s.cpu.af.hi == v) <;>
  have hm := hm' <;> simp only [beq_iff_eq, beq_eq_false_iff_ne, ne_eq] at hm <;>
  (try simp only [hm', hm, spec_simps, norm_simps, not_true, not_false_eq_true, decide_true,
      decide_false, Bool.not_true, Bool.not_false, Bool.and_true, Bool.and_false, Bool.or_true,
      Bool.or_false, Bool.or_self, Bool.and_self]) <;> rfl
theorem driveE_blk_in (c0 code dec rep) (h : agreeE code (.blk .inp dec rep)) :
    DriveE (Q := Q) σ c0 code (.blk .inp dec rep) := by
  intro s x hp
  cases hn' : (s.cpu.bc.hi - 1#8 != 0#8) <;>
  have hn := hn' <;> simp only [bne_iff_ne, bne_eq_false_iff_eq, ne_eq] at hn <;>
  cases dec <;> cases rep <;>
  simp only [agreeE, decide_eq_true_eq] at h <;>
  simp only [instrE, run_simps, prog_simps, code_simps, St.begin, h, RegPair.get16, hi8_word,
    hn', Bool.not_true, Bool.not_false, Bool.and_true, Bool.and_false, Bool.and_self] <;>
  simp only [absS, edCycles, blkCycles, prog_simps, spec_simps, norm_simps, hp, fEd,
    hn, not_true, not_false_eq_true, and_true, and_false, Bool.and_true, Bool.and_false,
    and_self, decide_true, decide_false, false_and] <;> rfl
theorem driveE_blk_out (c0 code dec rep) (h : agreeE code (.blk .out dec rep)) :
    DriveE (Q := Q) σ c0 code (.blk .out dec rep) := by
  intro s x hp
  cases hn' : (s.cpu.bc.hi - 1#8 != 0#8) <;>
  have hn := hn' <;> simp only [bne_iff_ne, bne_eq_false_iff_eq, ne_eq] at hn <;>
  cases dec <;> cases rep <;>
  simp only [agreeE, decide_eq_true_eq] at h <;>
  simp only [instrE, run_simps, prog_simps, code_simps, St.begin, h, RegPair.get16, hi8_word,
    hn', Bool.not_true, Bool.not_false, Bool.and_true, Bool.and_false, Bool.and_self] <;>
  simp only [absS, edCycles, blkCycles, prog_simps, spec_simps, norm_simps, hp, fEd,
    hn, not_true, not_false_eq_true, and_true, and_false, Bool.and_true, Bool.and_false,
    and_self, decide_true, decide_false, false_and] <;> rfl

end Z80
