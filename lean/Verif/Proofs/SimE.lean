import Verif.Proofs.Sim0

/-! # Simulation of the CB and ED groups -/

set_option linter.constructorNameAsVariable false
namespace Z80
open Spec
variable {Q : Type} [FlavourSpec Q] {w : Nat} {O R I : Type}

theorem sim_cb (io : Handler (tsSig w O R) I) (code : U8) (h : decode0 code = some .cb)
    (s : St Q) (t m i) (x : Ix) (hp : s.pfx = none) :
    Sim io (executePlain code) s.begin (t, m, i)
      ((fun M : Mach w I => Eff.finish (done (execCb (decodeCb M.imm8)
        (M.skip 1 |>.upd Regs.bumpR))) (fCb (decodeCb M.imm8)) (tCb (decodeCb M.imm8) - 4))
       (absM { absS FlavourSpec.cur s with idx := x } (t, m, i))) := by
  obtain ⟨h1, h2⟩ := agreeCb_all (m s.pc)
  simp only [Sim, executePlain, instr0, run_simps, code_simps, St.begin, h, h1]
  simp only [absM, absS, spec_simps, hp]
  generalize decodeCb (m s.pc) = k at *
  rcases k with ⟨k, r⟩ | ⟨n, r⟩ | ⟨n, r⟩ | ⟨n, r⟩ <;> cases r <;>
  first
  | (simp only [cbOf, regOf, bitops, run_simps, code_simps]
     simp only [outE, execCb, spec_simps, norm_simps, hp, fCb, tCb, Nat.reduceAdd, Nat.reduceSub]
     done)
  | (simp only [cbOf, regOf, bitops, run_simps, code_simps]
     simp only [outE, execCb, spec_simps, norm_simps, hp, fCb, tCb, Nat.reduceAdd, Nat.reduceSub]
     rfl)
  | (simp only [ICb.ok, decide_eq_true_eq] at h2
     simp only [cbOf, regOf, bitops, run_simps, code_simps, bit_eq n h2, bitMp_eq n h2]
     simp only [outE, execCb, spec_simps, norm_simps, hp, fCb, tCb, Nat.reduceAdd, Nat.reduceSub]
     done)

@[norm_simps] theorem add_FFFF (x : U16) : x + 65535#16 = x - 1#16 := by
  rw [BitVec.sub_eq_add_neg]; rfl
@[norm_simps] theorem add_FF (x : U8) : x + 255#8 = x - 1#8 := by
  rw [BitVec.sub_eq_add_neg]; rfl

/-- The body of an instruction after ED does what is specified. -/
def SimE (io : Handler (tsSig w O R) I) (c0 code : U8) (k : IEd) : Prop :=
  ∀ (s : St Q) (t m i) (x : Ix), s.pfx = none →
    Sim io (match decodeE code with | some m => instrE m c0 code | none => pure .ub) s.begin
     (t + 4#w, m, i)
     ((fun e : Eff w O R I => Eff.finish e (fEd k) (tEd k e.2.1 - 4)) (execEd (FlavourSpec.opt Q)
       (envOf io) k (absM { absS FlavourSpec.cur s with idx := x } (t, m, i))))

set_option hygiene false in
/-- Run the code and the specification and compare. -/
macro "sim_ed" : tactic => `(tactic| first | exact absurd h Bool.false_ne_true | (
  simp only [agreeE, Bool.and_eq_true, decide_eq_true_eq] at h
  try simp only [regOf, rpOf'] at h
  intro s t m i x hp
  simp only [Sim, instrE, run_simps, code_simps, St.begin, h]
  simp only [absM, absS, execEd, outE, spec_simps, norm_simps, hp, fEd, tEd, Nat.reduceAdd,
    Nat.reduceSub]
  try rfl))

theorem simE_nop (io : Handler (tsSig w O R) I) (c0 code) (h : agreeE code (.nop)) :
    SimE (Q := Q) io c0 code (.nop) := by
  sim_ed
theorem simE_inC (io : Handler (tsSig w O R) I) (c0 code r) (h : agreeE code (.inC r)) :
    SimE (Q := Q) io c0 code (.inC r) := by
  simp only [agreeE, Bool.and_eq_true, decide_eq_true_eq] at h
  intro s t m i x hp
  rcases hd : devIn io (word s.cpu.bc.hi s.cpu.bc.lo) (t + 5#w) i with ⟨⟨o, n⟩, i'⟩
  cases r <;> cases n <;> simp only [regOf] at h <;>
  simp only [Sim, instrE, run_simps, code_simps, St.begin, h] <;>
  simp only [absM, absS, execEd, outE, spec_simps, norm_simps, hp, fEd, tEd, Nat.reduceAdd,
    Nat.reduceSub, hd, Nat.add_comm]
theorem simE_outC (io : Handler (tsSig w O R) I) (c0 code r) (h : agreeE code (.outC r)) :
    SimE (Q := Q) io c0 code (.outC r) := by
  simp only [agreeE, Bool.and_eq_true, decide_eq_true_eq] at h
  intro s t m i x hp
  rcases hd : devOut io (word s.cpu.bc.hi s.cpu.bc.lo)
    (if r = .m then (FlavourSpec.opt Q).outC0 else (absS FlavourSpec.cur s).get .hl r) (t + 5#w) i
    with ⟨⟨o, n⟩, i'⟩
  cases r <;> cases o <;> cases n <;> simp only [regOf] at h <;>
  simp only [absS, spec_simps, reduceCtorEq, if_true, if_false] at hd <;>
  simp only [Sim, instrE, run_simps, code_simps, St.begin, h] <;>
  simp only [absM, absS, execEd, outE, spec_simps, norm_simps, hp, fEd, tEd, Nat.reduceAdd,
    Nat.reduceSub, hd, Nat.add_comm, reduceCtorEq]
theorem simE_sbcHl (io : Handler (tsSig w O R) I) (c0 code p) (h : agreeE code (.sbcHl p)) :
    SimE (Q := Q) io c0 code (.sbcHl p) := by
  cases p <;> sim_ed
theorem simE_adcHl (io : Handler (tsSig w O R) I) (c0 code p) (h : agreeE code (.adcHl p)) :
    SimE (Q := Q) io c0 code (.adcHl p) := by
  cases p <;> sim_ed
theorem simE_ldNnRp (io : Handler (tsSig w O R) I) (c0 code p) (h : agreeE code (.ldNnRp p)) :
    SimE (Q := Q) io c0 code (.ldNnRp p) := by
  cases p <;> sim_ed
theorem simE_ldRpNn (io : Handler (tsSig w O R) I) (c0 code p) (h : agreeE code (.ldRpNn p)) :
    SimE (Q := Q) io c0 code (.ldRpNn p) := by
  cases p <;> sim_ed
theorem simE_neg (io : Handler (tsSig w O R) I) (c0 code) (h : agreeE code (.neg)) :
    SimE (Q := Q) io c0 code (.neg) := by
  sim_ed
theorem simE_retn (io : Handler (tsSig w O R) I) (c0 code) (h : agreeE code (.retn)) :
    SimE (Q := Q) io c0 code (.retn) := by
  simp only [agreeE, Bool.and_eq_true, decide_eq_true_eq, Bool.not_eq_true'] at h
  intro s t m i x hp
  simp only [Sim, instrE, run_simps, code_simps, St.begin, h]
  simp only [absM, absS, execEd, outE, spec_simps, norm_simps, hp, fEd, tEd, Nat.reduceAdd,
    Nat.reduceSub]
theorem simE_reti (io : Handler (tsSig w O R) I) (c0 code) (h : agreeE code (.reti)) :
    SimE (Q := Q) io c0 code (.reti) := by
  simp only [agreeE, Bool.and_eq_true, decide_eq_true_eq] at h
  intro s t m i x hp
  rcases hd : devReti io s.pc (t + 4#w) i with ⟨o, i'⟩
  cases o <;>
  simp only [Sim, instrE, run_simps, code_simps, St.begin, h] <;>
  simp only [absM, absS, execEd, outE, spec_simps, norm_simps, hp, fEd, tEd, Nat.reduceAdd,
    Nat.reduceSub, hd]
theorem simE_im (io : Handler (tsSig w O R) I) (c0 code n) (h : agreeE code (.im n)) :
    SimE (Q := Q) io c0 code (.im n) := by
  match n with
  | 0 => sim_ed
  | 1 => sim_ed
  | 2 => sim_ed
  | n + 3 => sim_ed
theorem simE_ldIA (io : Handler (tsSig w O R) I) (c0 code) (h : agreeE code (.ldIA)) :
    SimE (Q := Q) io c0 code (.ldIA) := by
  sim_ed
theorem simE_ldRA (io : Handler (tsSig w O R) I) (c0 code) (h : agreeE code (.ldRA)) :
    SimE (Q := Q) io c0 code (.ldRA) := by
  sim_ed
theorem simE_ldAI (io : Handler (tsSig w O R) I) (c0 code) (h : agreeE code (.ldAI)) :
    SimE (Q := Q) io c0 code (.ldAI) := by
  simp only [agreeE, decide_eq_true_eq] at h
  intro s t m i x hp
  rcases hd : devIrq io (t + 5#w) i with ⟨b, i'⟩
  cases h1 : s.cpu.iff1 <;> cases h2 : s.cpu.iff2 <;> cases h3 : (FlavourSpec.opt Q).early <;>
  simp only [Sim, instrE, run_simps, code_simps, St.begin, h, h1, h2, FlavourSpec.early_eq, h3,
    Bool.and_true, Bool.and_false, Bool.and_self] <;>
  simp only [absM, absS, execEd, outE, spec_simps, norm_simps, hp, fEd, tEd, Nat.reduceAdd,
    Nat.reduceSub, hd, h1, h2, h3, Bool.and_true, Bool.and_false, Bool.and_self]
theorem simE_ldAR (io : Handler (tsSig w O R) I) (c0 code) (h : agreeE code (.ldAR)) :
    SimE (Q := Q) io c0 code (.ldAR) := by
  simp only [agreeE, decide_eq_true_eq] at h
  intro s t m i x hp
  rcases hd : devIrq io (t + 5#w) i with ⟨b, i'⟩
  cases h1 : s.cpu.iff1 <;> cases h2 : s.cpu.iff2 <;> cases h3 : (FlavourSpec.opt Q).early <;>
  simp only [Sim, instrE, run_simps, code_simps, St.begin, h, h1, h2, FlavourSpec.early_eq, h3,
    Bool.and_true, Bool.and_false, Bool.and_self] <;>
  simp only [absM, absS, execEd, outE, spec_simps, norm_simps, hp, fEd, tEd, Nat.reduceAdd,
    Nat.reduceSub, hd, h1, h2, h3, Bool.and_true, Bool.and_false, Bool.and_self]
theorem simE_rrd (io : Handler (tsSig w O R) I) (c0 code) (h : agreeE code (.rrd)) :
    SimE (Q := Q) io c0 code (.rrd) := by
  sim_ed
theorem simE_rld (io : Handler (tsSig w O R) I) (c0 code) (h : agreeE code (.rld)) :
    SimE (Q := Q) io c0 code (.rld) := by
  sim_ed
theorem simE_blk_ld (io : Handler (tsSig w O R) I) (c0 code dec rep)
    (h : agreeE code (.blk .ld dec rep)) : SimE (Q := Q) io c0 code (.blk .ld dec rep) := by
  intro s t m i x hp
  cases hn' : (word s.cpu.bc.hi s.cpu.bc.lo - 1#16 == 0#16) <;>
  have hn := hn' <;> simp only [beq_iff_eq, beq_eq_false_iff_ne, ne_eq] at hn <;>
  cases dec <;> cases rep <;>
  simp only [agreeE, decide_eq_true_eq] at h <;>
  simp only [Sim, instrE, run_simps, code_simps, St.begin, h, RegPair.get16, hn', Bool.not_true,
    Bool.not_false, Bool.and_true, Bool.and_false, Bool.and_self] <;>
  simp only [absM, absS, execEd, execBlk, outE, spec_simps, norm_simps, hp, fEd, tEd, Nat.reduceAdd,
    Nat.reduceSub, hn, not_true, not_false_eq_true, and_true, and_false,
    and_self, decide_true, decide_false, false_and]
theorem simE_blk_cp (io : Handler (tsSig w O R) I) (c0 code dec rep)
    (h : agreeE code (.blk .cp dec rep)) : SimE (Q := Q) io c0 code (.blk .cp dec rep) := by
  intro s t m i x hp
  cases hn' : (word s.cpu.bc.hi s.cpu.bc.lo - 1#16 == 0#16) <;>
  have hn := hn' <;> simp only [beq_iff_eq, beq_eq_false_iff_ne, ne_eq] at hn <;>
  cases hm' : (s.cpu.af.hi == m (word s.cpu.hl.hi s.cpu.hl.lo)) <;>
  have hm := hm' <;> simp only [beq_iff_eq, beq_eq_false_iff_ne, ne_eq] at hm <;>
  cases dec <;> cases rep <;>
  simp only [agreeE, decide_eq_true_eq] at h <;>
  simp only [Sim, instrE, run_simps, code_simps, St.begin, h, RegPair.get16, hn', hm'] <;>
  simp only [Bool.not_true,
    Bool.not_false, Bool.and_true, Bool.and_false, Bool.and_self, Bool.or_true, Bool.or_false,
    Bool.or_self, Bool.true_and, Bool.false_and, absM, absS, execEd, execBlk, outE, spec_simps, norm_simps, hp, fEd, tEd, Nat.reduceAdd,
    Nat.reduceSub, hn, hm, not_true, not_false_eq_true, and_true, and_false,
    and_self, decide_true, decide_false, false_and]
theorem simE_blk_in (io : Handler (tsSig w O R) I) (c0 code dec rep)
    (h : agreeE code (.blk .inp dec rep)) : SimE (Q := Q) io c0 code (.blk .inp dec rep) := by
  intro s t m i x hp
  rcases hd : devIn io (word s.cpu.bc.hi s.cpu.bc.lo) (t + 6#w) i with ⟨⟨o, n⟩, i'⟩
  cases hn' : (s.cpu.bc.hi - 1#8 != 0#8) <;>
  have hn := hn' <;> simp only [bne_iff_ne, bne_eq_false_iff_eq, ne_eq] at hn <;>
  cases n <;>
  cases dec <;> cases rep <;>
  simp only [agreeE, decide_eq_true_eq] at h <;>
  simp only [Sim, instrE, run_simps, code_simps, St.begin, h, RegPair.get16, hi8_word,
    hn', Bool.not_true,
    Bool.not_false, Bool.and_true, Bool.and_false, Bool.and_self] <;>
  simp only [absM, absS, execEd, execBlk, outE, spec_simps, norm_simps, hp, fEd, tEd, Nat.reduceAdd,
    Nat.reduceSub, hn, hd, not_true, not_false_eq_true, and_true, and_false,
    and_self, decide_true, decide_false, false_and,
    Nat.add_comm] <;>
  try simp only [← Nat.add_assoc, Nat.reduceAdd, Nat.add_comm]
theorem simE_blk_out (io : Handler (tsSig w O R) I) (c0 code dec rep)
    (h : agreeE code (.blk .out dec rep)) : SimE (Q := Q) io c0 code (.blk .out dec rep) := by
  intro s t m i x hp
  rcases hd : devOut io (word (s.cpu.bc.hi - 1#8) s.cpu.bc.lo) (m (word s.cpu.hl.hi s.cpu.hl.lo))
    (t + 9#w) i with ⟨⟨o, n⟩, i'⟩
  cases hn' : (s.cpu.bc.hi - 1#8 != 0#8) <;>
  have hn := hn' <;> simp only [bne_iff_ne, bne_eq_false_iff_eq, ne_eq] at hn <;>
  (try simp only [hn] at hd) <;>
  cases o <;> cases n <;>
  cases dec <;> cases rep <;>
  simp only [agreeE, decide_eq_true_eq] at h <;>
  simp only [Sim, instrE, run_simps, code_simps, St.begin, h, RegPair.get16, hi8_word,
    hn', Bool.not_true,
    Bool.not_false, Bool.and_true, Bool.and_false, Bool.and_self] <;>
  simp only [absM, absS, execEd, execBlk, outE, spec_simps, norm_simps, hp, fEd, tEd, Nat.reduceAdd,
    Nat.reduceSub, hn, hd, not_true, not_false_eq_true, and_true, and_false,
    and_self, decide_true, decide_false, false_and,
    Nat.add_comm] <;>
  try simp only [← Nat.add_assoc, Nat.reduceAdd, Nat.add_comm]
end Z80
