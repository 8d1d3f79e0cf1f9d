import Verif.Proofs.SimX

/-! # Simulation of a whole instruction and of a step -/

set_option linter.constructorNameAsVariable false

namespace Z80
open Spec
variable {Q : Type} [FlavourSpec Q] {w : Nat} {O R I : Type}

/-- Instructions other than the four prefix bytes. -/
def notPrefix : I0 → Bool
  | .cb | .dd | .ed | .fd => false
  | _ => true

theorem sim0_all (io : Handler (tsSig w O R) I) (code : U8) (k : I0) (h : agree0 code k)
    (hk : notPrefix k) : Sim0 (Q := Q) io code k := by
  cases k with
  | cb | dd | ed | fd => exact absurd hk Bool.false_ne_true
  | nop => exact sim0_nop io code h
  | exAf => exact sim0_exAf io code h
  | djnz => exact sim0_djnz io code h
  | jr => exact sim0_jr io code h
  | jrCc c => exact sim0_jrCc io code c h
  | ldRpNn p => exact sim0_ldRpNn io code p h
  | addHl p => exact sim0_addHl io code p h
  | ldRpA p => exact sim0_ldRpA io code p h
  | ldARp p => exact sim0_ldARp io code p h
  | ldNnHl => exact sim0_ldNnHl io code h
  | ldHlNn => exact sim0_ldHlNn io code h
  | ldNnA => exact sim0_ldNnA io code h
  | ldANn => exact sim0_ldANn io code h
  | incRp p => exact sim0_incRp io code p h
  | decRp p => exact sim0_decRp io code p h
  | incR r => exact sim0_incR io code r h
  | decR r => exact sim0_decR io code r h
  | ldRN r => exact sim0_ldRN io code r h
  | accRot k => exact sim0_accRot io code k h
  | daa => exact sim0_daa io code h
  | cpl => exact sim0_cpl io code h
  | scf => exact sim0_scf io code h
  | ccf => exact sim0_ccf io code h
  | halt => exact sim0_halt io code h
  | ldRR d r => exact sim0_ldRR io code d r h
  | aluR k r => exact sim0_aluR io code k r h
  | aluN k => exact sim0_aluN io code k h
  | retCc c => exact sim0_retCc io code c h
  | pop p => exact sim0_pop io code p h
  | ret => exact sim0_ret io code h
  | exx => exact sim0_exx io code h
  | jpHl => exact sim0_jpHl io code h
  | ldSpHl => exact sim0_ldSpHl io code h
  | jpCc c => exact sim0_jpCc io code c h
  | jp => exact sim0_jp io code h
  | outNA => exact sim0_outNA io code h
  | inAN => exact sim0_inAN io code h
  | exSpHl => exact sim0_exSpHl io code h
  | exDeHl => exact sim0_exDeHl io code h
  | di => exact sim0_di io code h
  | ei => exact sim0_ei io code h
  | callCc c => exact sim0_callCc io code c h
  | push p => exact sim0_push io code p h
  | call => exact sim0_call io code h
  | rst y => exact sim0_rst io code y h

theorem simE_all (io : Handler (tsSig w O R) I) (c0 code : U8) (k : IEd) (h : agreeE code k) :
    SimE (Q := Q) io c0 code k := by
  cases k with
  | nop => exact simE_nop io c0 code h
  | inC r => exact simE_inC io c0 code r h
  | outC r => exact simE_outC io c0 code r h
  | sbcHl p => exact simE_sbcHl io c0 code p h
  | adcHl p => exact simE_adcHl io c0 code p h
  | ldNnRp p => exact simE_ldNnRp io c0 code p h
  | ldRpNn p => exact simE_ldRpNn io c0 code p h
  | neg => exact simE_neg io c0 code h
  | retn => exact simE_retn io c0 code h
  | reti => exact simE_reti io c0 code h
  | im n => exact simE_im io c0 code n h
  | ldIA => exact simE_ldIA io c0 code h
  | ldRA => exact simE_ldRA io c0 code h
  | ldAI => exact simE_ldAI io c0 code h
  | ldAR => exact simE_ldAR io c0 code h
  | rrd => exact simE_rrd io c0 code h
  | rld => exact simE_rld io c0 code h
  | blk b d r =>
    cases b with
    | ld => exact simE_blk_ld io c0 code d r h
    | cp => exact simE_blk_cp io c0 code d r h
    | inp => exact simE_blk_in io c0 code d r h
    | out => exact simE_blk_out io c0 code d r h

theorem sim_ed (io : Handler (tsSig w O R) I) (code : U8) (h : decode0 code = some .ed)
    (s : St Q) (t m i) (x : Ix) (hp : s.pfx = none) :
    Sim io (executePlain code) s.begin (t, m, i)
      ((fun M : Mach w I => (fun e : Eff w O R I =>
          Eff.finish e (fEd (decodeEd M.imm8)) (tEd (decodeEd M.imm8) e.2.1 - 4))
          (execEd (FlavourSpec.opt Q) (envOf io) (decodeEd M.imm8) (M.skip 1 |>.upd Regs.bumpR)))
       (absM { absS FlavourSpec.cur s with idx := x } (t, m, i))) := by
  have h1 := simE_all (Q := Q) io code (m s.pc) _ (agreeE_all (m s.pc))
    { s with cpu := s.cpu.incR, pc := s.pc + 1#16 } t m i x hp
  simp only [Sim, executePlain, h, instr0, code_simps, run_simps, St.begin] at h1 ⊢
  simp only [spec_simps, norm_simps, absM, absS] at h1 ⊢
  exact h1

theorem exec0_plain (o : Opt) (v : Env w O R I) (x : Ix) (k : I0) (hu : usesHl k = false)
    (s : Mach w I) : exec0 o v x k s = exec0 o v .hl k s := by
  cases k with
  | ldRpNn p | incRp p | decRp p | pop p | push p => cases p <;> first | rfl | cases hu
  | incR r | decR r | ldRN r | aluR _ r => cases r <;> first | rfl | cases hu
  | ldRR d r => cases d <;> cases r <;> first | rfl | cases hu
  | _ => first | rfl | cases hu
theorem tX_plain (k : I0) (hu : usesHl k = false) (b : Bool) : tX k b - 8 = t0 k b - 4 := by
  have : tX k b = 4 + t0 k b := by
    cases k with
    | incR r | decR r | ldRN r | aluR _ r => cases r <;> first | rfl | cases hu
    | ldRR d r => cases d <;> cases r <;> first | rfl | cases hu
    | _ => first | rfl | cases hu
  omega

theorem executeIndexed_plain {σ : Sig} (p : Prefix) {code : U8} (h : decodeI code = some .plain) :
    executeIndexed (σ := σ) (Q := Q) p code = (Ex.setPfx none >>= fun _ => executePlain code) := by
  unfold executeIndexed
  rw [h]

theorem simX_all (io : Handler (tsSig w O R) I) (code : U8) (k : I0) (h : agree0 code k)
    (hx : agreeI code k) (hk : notPrefix k) : SimX (Q := Q) io code k := by
  cases hu : usesHl k with
  | false =>
    intro p s t m i x hp
    rw [exec0_plain _ _ _ _ hu]
    simp only [tX_plain k hu]
    rw [agreeI, hu, decide_eq_true_eq] at hx
    have := sim0_all (Q := Q) io code k h hk { s with pfx := none } t m i x rfl
    rw [executeIndexed_plain p (by simpa using hx)]
    exact this
  | true =>
    cases k with
    | cb | dd | ed | fd => exact absurd hk Bool.false_ne_true
    | ldRpNn p => exact simX_ldRpNn io code p h hx hu
    | addHl p => exact simX_addHl io code p h hx hu
    | ldNnHl => exact simX_ldNnHl io code h hx hu
    | ldHlNn => exact simX_ldHlNn io code h hx hu
    | incRp p => exact simX_incRp io code p h hx hu
    | decRp p => exact simX_decRp io code p h hx hu
    | incR r => exact simX_incR io code r h hx hu
    | decR r => exact simX_decR io code r h hx hu
    | ldRN r => exact simX_ldRN io code r h hx hu
    | ldRR d r => exact simX_ldRR io code d r h hx hu
    | aluR k r => exact simX_aluR io code k r h hx hu
    | pop p => exact simX_pop io code p h hx hu
    | jpHl => exact simX_jpHl io code h hx hu
    | ldSpHl => exact simX_ldSpHl io code h hx hu
    | exSpHl => exact simX_exSpHl io code h hx hu
    | push p => exact simX_push io code p h hx hu
    | _ => exact absurd hu Bool.false_ne_true

theorem execOp_other {o : Opt} {v : Env w O R I} {op : U8} {s : Mach w I} {k : I0}
    (hd : decode op = k) (hk : notPrefix k) (he : s.r.ei = false) (hh : s.r.halted = false) :
    execOp o v op s = (fun e : Eff w O R I => Eff.finish e (f0 k)
      (if s.r.idx = .hl then t0 k e.2.1 - 4 else tX k e.2.1 - 8)) (exec0 o v s.r.idx k s) := by
  obtain ⟨r, m, i, t⟩ := s
  have : ({ r with ei := false, halted := false } : Regs) = r := by
    cases r; simp only at he hh; subst he hh; rfl
  unfold execOp
  simp only [Mach.upd, this, hd]
  cases k <;> first | exact absurd hk Bool.false_ne_true | rfl

theorem upd_eif {s : Mach w I} (he : s.r.ei = false) (hh : s.r.halted = false) :
    (s.upd fun r => { r with ei := false, halted := false }) = s := by
  obtain ⟨r, m, i, t⟩ := s
  cases r; simp only at he hh; subst he hh; rfl

theorem execOp_ed {o : Opt} {v : Env w O R I} {op : U8} {s : Mach w I}
    (hd : decode op = .ed) (he : s.r.ei = false) (hh : s.r.halted = false) :
    execOp o v op s = ((fun M : Mach w I => (fun e : Eff w O R I =>
          Eff.finish e (fEd (decodeEd M.imm8)) (tEd (decodeEd M.imm8) e.2.1 - 4))
          (execEd o v (decodeEd M.imm8) (M.skip 1 |>.upd Regs.bumpR))) s) := by
  unfold execOp
  simp only [hd, upd_eif he hh]
theorem execOp_cb {o : Opt} {v : Env w O R I} {op : U8} {s : Mach w I}
    (hd : decode op = .cb) (hi : s.r.idx = .hl) (he : s.r.ei = false) (hh : s.r.halted = false) :
    execOp o v op s = ((fun M : Mach w I => Eff.finish (done (execCb (decodeCb M.imm8)
        (M.skip 1 |>.upd Regs.bumpR))) (fCb (decodeCb M.imm8)) (tCb (decodeCb M.imm8) - 4)) s) := by
  unfold execOp
  simp only [hd, upd_eif he hh, hi]
theorem execOp_xcb {o : Opt} {v : Env w O R I} {op : U8} {s : Mach w I} {x : Ix}
    (hd : decode op = .cb) (hi : s.r.idx = x) (hx : x ≠ .hl) (he : s.r.ei = false)
    (hh : s.r.halted = false) :
    execOp o v op s = ((fun M : Mach w I => Eff.finish (done (execXCb (decodeCb (M.skip 1).imm8)
        (M.ea x) ((M.eaNext x).skip 1)))
        (fCb (decodeCb (M.skip 1).imm8)) (tXCb (decodeCb (M.skip 1).imm8) - 8)) s) := by
  unfold execOp
  simp only [hd, upd_eif he hh, hi]

/-- `execute_instruction!` does what is specified. -/
theorem sim_code (io : Handler (tsSig w O R) I) (code : U8) (s : St Q) (t m i)
    (he : s.cpu.lastEi = false) (hh : s.cpu.halt = false) :
    Sim io (executeCode code) s (t, m, i)
      (execOp (FlavourSpec.opt Q) (envOf io) code (absM (absS FlavourSpec.cur s) (t, m, i))) := by
  have h := agree0_all code
  have hx := agreeI_all code
  have hb : ∀ f : St Q → Ex (tsSig w O R) Q (Exit (tsSig w O R)),
    runE (ramHost io) (Ex.modC (fun c => { c with flavour := Flavour.beginInstruction c.flavour })
     >>= fun _ => Ex.getS >>= f) s (t, m, i) = runE (ramHost io) (f s.begin) s.begin (t, m, i) :=
     fun _ => rfl
  unfold executeCode
  simp only [Sim, hb]
  cases hk : notPrefix (decode code) with
  | true =>
    rw [execOp_other rfl hk he hh]
    cases hp : s.pfx with
    | none =>
      have := sim0_all (Q := Q) io code _ h hk s t m i (ixOf s.pfx) hp
      simp only [absM, absS, ixOf, hp] at this ⊢
      simp only [show s.begin.pfx = none from hp]
      exact this
    | some p =>
      have := simX_all (Q := Q) io code _ h hx hk p s t m i (ixOf s.pfx) hp
      simp only [absM, absS, hp] at this ⊢
      simp only [show s.begin.pfx = some p from hp]
      rw [if_neg (by cases p <;> decide)]
      exact this
  | false =>
    cases hd : decode code with
    | dd =>
      rw [hd] at h hx
      simp only [agree0, agreeI, usesHl, miOf, if_true, decide_eq_true_eq] at h hx
      cases hp : s.pfx with
      | none =>
        simp only [show s.begin.pfx = none from hp, executePlain, h, instr0, run_simps]
        simp only [execOp, hd, absM, absS, outE, St.begin, spec_simps, norm_simps, he, hh]
      | some p =>
        simp only [show s.begin.pfx = some p from hp]
        unfold executeIndexed
        rw [hx]
        simp only [run_simps]
        simp only [execOp, hd, absM, absS, outE, St.begin, spec_simps, norm_simps, he, hh]
    | fd =>
      rw [hd] at h hx
      simp only [agree0, agreeI, usesHl, miOf, if_true, decide_eq_true_eq] at h hx
      cases hp : s.pfx with
      | none =>
        simp only [show s.begin.pfx = none from hp, executePlain, h, instr0, run_simps]
        simp only [execOp, hd, absM, absS, outE, St.begin, spec_simps, norm_simps, he, hh]
      | some p =>
        simp only [show s.begin.pfx = some p from hp]
        unfold executeIndexed
        rw [hx]
        simp only [run_simps]
        simp only [execOp, hd, absM, absS, outE, St.begin, spec_simps, norm_simps, he, hh]
    | ed =>
      rw [hd] at h hx
      rw [agree0, decide_eq_true_eq] at h
      rw [agreeI, show usesHl I0.ed = false from rfl, decide_eq_true_eq] at hx
      rw [execOp_ed hd he hh]
      cases hp : s.pfx with
      | none =>
        simp only [show s.begin.pfx = none from hp]
        exact sim_ed io code h s t m i (ixOf s.pfx) hp
      | some p =>
        simp only [show s.begin.pfx = some p from hp]
        rw [executeIndexed_plain p (by simpa using hx)]
        exact sim_ed io code h { s with pfx := none } t m i (ixOf s.pfx) rfl
    | cb =>
      rw [hd] at h hx
      rw [agree0, decide_eq_true_eq] at h
      rw [agreeI, show usesHl I0.cb = true from rfl, if_pos rfl, decide_eq_true_eq] at hx
      cases hp : s.pfx with
      | none =>
        simp only [show s.begin.pfx = none from hp]
        rw [execOp_cb hd (by simp only [absM, absS, hp, ixOf]) he hh]
        exact sim_cb io code h s t m i (ixOf s.pfx) hp
      | some p =>
        simp only [show s.begin.pfx = some p from hp]
        rw [execOp_xcb (x := ixOf (some p)) hd (by simp only [absM, absS, hp])
          (by cases p <;> decide) he hh]
        exact sim_xcb io code p hx s t m i (ixOf s.pfx) hp
    | _ => rw [hd] at hk; exact absurd hk.symm Bool.false_ne_true

/-! ### Steps -/

/-- A program on the host agrees with a specified step. -/
def SimP (io : Handler (tsSig w O R) I) (x : Prog (tsSig w O R) (Res (tsSig w O R) × Cpu Q))
    (h : BitVec w × Mem × I) (e : Mach w I × Out O R) : Prop :=
  (fun r : (Res (tsSig w O R) × Cpu Q) × BitVec w × Mem × I =>
    (absM (abs r.1.2) r.2, outR r.1.1)) (x.run (ramHost io) h) = (e.1, some e.2)

theorem outR_toRes (e : Exit (tsSig w O R)) : outR e.toRes = outE e := by cases e <;> rfl

theorem execOp_clear (o : Opt) (v : Env w O R I) (op : U8) (s : Mach w I) :
    execOp o v op (s.upd fun r => { r with ei := false, halted := false }) = execOp o v op s := rfl

theorem sim_instruction (io : Handler (tsSig w O R) I) (deb : Bool) (code : U8) (c : Cpu Q)
    (t m i) : SimP io (executeInstruction deb code c) (t, m, i)
      (execOp (FlavourSpec.opt Q) (envOf io) code (absM (abs c) (t, m, i))) := by
  have h := sim_code io code (Cpu.load { c with lastEi := false, halt := false } deb) t m i rfl rfl
  rw [← execOp_clear]
  simp only [SimP, executeInstruction]
  have : ∀ (p : Prog (tsSig w O R) (Exit (tsSig w O R) × St Q)) h,
    (p >>= fun r => pure (r.1.toRes, r.2.store)).run (ramHost io) h =
      (((p.run (ramHost io) h).1.1.toRes, (p.run (ramHost io) h).1.2.store),
        (p.run (ramHost io) h).2) := fun p h => Prog.run_bind _ _ _ _
  rw [this, outR_toRes, abs_store]
  exact h

theorem sim_fetch (io : Handler (tsSig w O R) I) (deb : Bool) (c : Cpu Q) (t m i) :
    SimP io (fetchExecute deb c) (t, m, i)
      (execOp (FlavourSpec.opt Q) (envOf io) (m c.pc) (fetch (absM (abs c) (t, m, i)))) := by
  have h := sim_instruction io deb (m c.pc) (c.incR.setPc (c.pc + 1#16)) (t + BitVec.ofNat w 4) m i
  have e : absM (abs (c.incR.setPc (c.pc + 1#16))) (t + BitVec.ofNat w 4, m, i) =
      fetch (absM (abs c) (t, m, i)) := by
    simp only [fetch, absM, abs, absS, Cpu.load, Cpu.setPc, Cpu.getPc, code_simps, spec_simps, norm_simps]
  rw [e] at h
  exact h

theorem sim_halt (io : Handler (tsSig w O R) I) (c : Cpu Q) (t m i) :
    SimP io (haltStep c >>= fun c => pure (.ok, c)) (t, m, i)
      (((absM (abs c) (t, m, i)).upd Regs.bumpR).tick 4, .ok) := by
  have e : absM (abs c.incR) (t + BitVec.ofNat w 4, m, i) =
      ((absM (abs c) (t, m, i)).upd Regs.bumpR).tick 4 := by
    simp only [absM, abs, absS, Cpu.load, Cpu.getPc, code_simps, spec_simps, norm_simps]
  rw [← e]
  rfl

theorem irqAllowed_eq (c : Cpu Q) : c.isIrqAllowed = irqOk (abs c) := by
  simp only [Cpu.isIrqAllowed, isIntAllowed, irqOk, abs, absS, Cpu.load]
  cases c.iff1 <;> cases c.lastEi <;> rcases c.pfx with _ | _ | _ <;> rfl

theorem run_ask (H : Handler (tsSig w O R) S) {α : Type} (r : Req (tsSig w O R))
    (f : r.Ans → Prog (tsSig w O R) α) (h : S) :
    (Prog.bind (ask r) f).run H h = (f (H r h).1).run H (H r h).2 := rfl
/-- Time after wait states. -/
def waited (t : BitVec w) : Option U16 → BitVec w
  | none => t
  | some k => t + BitVec.ofNat w k.toNat
theorem run_wait (io : Handler (tsSig w O R) I) {α : Type} (a : U16) (n : Option U16)
    (f : Unit → Prog (tsSig w O R) α) (t m i) :
    (Prog.bind (askWait a n) f).run (ramHost io) (t, m, i) = (f ()).run (ramHost io)
      (waited t n, m, i) := by
  cases n with
  | none => rfl
  | some k =>
    have : BitVec.ofNat w k.toNat = k.setWidth w := by rw [BitVec.ofNat_toNat]
    simp only [waited, this]; rfl

theorem vector_eq (h l v : U8) : (word h l &&& 0xFF00#16) ||| v.setWidth 16 = word h v := by
  have h1 : word h l &&& 0xFF00#16 = word h 0#8 := by
    rw [show (0xFF00#16 : U16) = word 0xFF#8 0x00#8 by rfl]
    have e := BitVec.and_append (x₁ := h) (y₁ := l) (x₂ := 0xFF#8) (y₂ := 0x00#8)
    rw [show h &&& 0xFF#8 = h from BitVec.and_allOnes,
      show l &&& 0x00#8 = 0#8 from BitVec.and_zero] at e
    exact e
  have h2 : v.setWidth 16 = word 0#8 v := by
    have := all8_spec (p := fun v => v.setWidth 16 == word 0#8 v) (by decide +kernel) v
    simpa using this
  rw [h1, h2]
  have e := BitVec.or_append (x₁ := h) (y₁ := 0#8) (x₂ := 0#8) (y₂ := v)
  rw [show h ||| 0#8 = h from BitVec.or_zero, show 0#8 ||| v = v from BitVec.zero_or] at e
  exact e

theorem wake_eq (c : Cpu Q) (t : BitVec w) (m : Mem) (i : I) :
    absM (abs c.disableInterrupts.incR.wake) (t, m, i) =
      (absM { abs c with ei := c.lastEi } (t, m, i)).upd fun r =>
        wake { r with iff1 := false, iff2 := false }.bumpR := by
  cases h : c.halt <;>
  simp only [absM, abs, absS, wake, Cpu.wake, h, Cpu.load, Cpu.getPc, Cpu.getFlags, code_simps, spec_simps, norm_simps]

theorem prog_bind {σ : Sig} {α β : Type} (x : Prog σ α) (f : α → Prog σ β) :
    x >>= f = Prog.bind x f := rfl

theorem run_pushCpu (io : Handler (tsSig w O R) I) {α : Type} (v : U16) (c : Cpu Q)
    (f : Cpu Q → Prog (tsSig w O R) α) (t m i) :
    (Prog.bind (pushCpu v c) f).run (ramHost io) (t, m, i) =
      (f { c with sp := c.sp - 2#16 }).run (ramHost io)
        (t + BitVec.ofNat w 6, fun x => if x = c.sp - 2#16 then lo8 v else
          if x = c.sp - 1#16 then hi8 v else m x, i) := by
  have h : (pushCpu v c).run (ramHost io) (t, m, i) = ({ c with sp := c.sp - 2#16 },
      (t + BitVec.ofNat w 6, fun x => if x = c.sp - 2#16 then lo8 v else
          if x = c.sp - 1#16 then hi8 v else m x, i)) := by
    have e := Prog.run_bind (ramHost io) (push16 v (c.load false)) (fun r => .ret r.2.cpu) (t, m, i)
    refine e.trans ?_
    change ((runE (ramHost io) (push16 v) (c.load false) (t, m, i)).1.2.cpu,
      (runE (ramHost io) (push16 v) (c.load false) (t, m, i)).2) = _
    simp only [run_simps, code_simps, Cpu.load, norm_simps, Nat.reduceAdd]
  rw [Prog.run_bind, h]

theorem execOp_rst38 (o : Opt) (v : Env w O R I) (s : Mach w I) (h1 : s.r.idx = .hl)
    (h2 : s.r.ei = false) (h3 : s.r.halted = false) :
    execOp o v 0xFF#8 s = Eff.finish (done (((s.push s.r.pc).jump 0x38).wz 0x38)) false 7 := by
  rw [execOp_other (k := .rst 7) (by decide +kernel) rfl h2 h3, h1]
  rfl

theorem execOp_jp (o : Opt) (v : Env w O R I) (s : Mach w I) (h1 : s.r.idx = .hl)
    (h2 : s.r.ei = false) (h3 : s.r.halted = false) :
    execOp o v 0xC3#8 s = Eff.finish (done ((s.jump s.imm16).wz s.imm16)) false 6 := by
  rw [execOp_other (k := .jp) (by decide +kernel) rfl h2 h3, h1]
  rfl

/-- What `irq_no_check` does with the byte on the bus. -/
def irqBody {σ : Sig} (deb : Bool) (c : Cpu Q) (v : U8) : Prog σ (Res σ × Cpu Q) :=
  match c.im with
  | .mode0 => executeInstruction deb v c
  | .mode1 => executeInstruction deb 0xFF#8 c
  | .mode2 => do
    ask (.addNoMreq c.getIr X1)
    let c' ← pushCpu c.pc c
    executeInstruction deb 0xC3#8
      (c'.setPc ((c.getIr &&& 0xFF00#16) ||| v.setWidth 16))

theorem run_irqNoCheck (io : Handler (tsSig w O R) I) (deb : Bool) (c c' : Cpu Q) (t m i)
    (h : c' = c.disableInterrupts.incR.wake) :
    (irqNoCheck deb c).run (ramHost io) (t, m, i) =
      (irqBody deb c' (devAck io c'.pc (t + BitVec.ofNat w 2) i).1.1).run (ramHost io)
        (waited (t + BitVec.ofNat w 6) (devAck io c'.pc (t + BitVec.ofNat w 2) i).1.2, m,
          (devAck io c'.pc (t + BitVec.ofNat w 2) i).2) := by
  subst h
  exact run_wait io _ _ (fun _ => irqBody deb _ _) _ _ _

/-- `irq_no_check` does what is specified when no prefix is pending. -/
theorem sim_interrupt (io : Handler (tsSig w O R) I) (deb : Bool) (c : Cpu Q) (t m i)
    (hp : c.pfx = none) (hl : c.lastEi = false) : SimP io (irqNoCheck deb c) (t, m, i)
      (interrupt (FlavourSpec.opt Q) (envOf io) (absM (abs c) (t, m, i))) := by
  have hw := wake_eq (w := w) c t m i
  have h1 : c.disableInterrupts.incR.wake.pfx = none := by
    unfold Cpu.wake; split <;> exact hp
  have h2 : c.disableInterrupts.incR.wake.lastEi = false := by
    unfold Cpu.wake; split <;> exact hl
  have h3 : c.disableInterrupts.incR.wake.halt = false := by
    unfold Cpu.wake; split
    · rfl
    · simp_all
  have e : absM { abs c with ei := c.lastEi } (t, m, i) =
      absM { abs c with ei := false } (t, m, i) := by rw [hl]
  rw [e] at hw
  change _ = (absM (abs c) (t, m, i)).upd fun r =>
      wake { r with iff1 := false, iff2 := false, ei := false }.bumpR at hw
  have hr := run_irqNoCheck io deb c _ t m i rfl
  unfold interrupt
  rw [← hw]
  simp only [SimP, hr]
  clear e
  generalize c.disableInterrupts.incR.wake = c' at *
  clear hw hr
  have hpc : (absM (abs c') (t, m, i)).r.pc = c'.pc := rfl
  have him : (absM (abs c') (t, m, i)).r.im = imOf c'.im := rfl
  rw [hpc]
  simp only [env_ack]
  have hv : devAck io c'.pc ((absM (abs c') (t, m, i)).t + BitVec.ofNat w 2)
    (absM (abs c') (t, m, i)).io = devAck io c'.pc (t + BitVec.ofNat w 2) i := rfl
  rw [hv]
  generalize devAck io c'.pc (t + BitVec.ofNat w 2) i = v
  obtain ⟨⟨v, ws⟩, i'⟩ := v
  have hs : (Mach.wait (Mach.tick { absM (abs c') (t, m, i) with io := i' } 6) ws) =
    absM (abs c') (waited (t + BitVec.ofNat w 6) ws, m, i') := by
    cases ws <;> rfl
  simp only [hs]
  generalize waited (t + BitVec.ofNat w 6) ws = t'
  have hi : (absM (abs c') (t', m, i')).r.idx = .hl := by
    simp only [absM, abs, absS, Cpu.load, h1, ixOf]
  have hm' : (absM (abs c') (t', m, i')).r.im = imOf c'.im := rfl
  rw [hm']
  unfold irqBody
  cases hm : c'.im with
  | mode0 => exact sim_instruction io deb v c' t' m i'
  | mode1 =>
    have := sim_instruction io deb 0xFF#8 c' t' m i'
    rw [execOp_rst38 _ _ _ hi h2 h3] at this
    exact this
  | mode2 =>
    have hd := sim_instruction io deb 0xC3#8
      ({ c' with sp := c'.sp - 2#16 }.setPc ((c'.getIr &&& 0xFF00#16) ||| v.setWidth 16))
      (t' + BitVec.ofNat w 7)
      (fun x => if x = c'.sp - 2#16 then lo8 c'.pc else
          if x = c'.sp - 1#16 then hi8 c'.pc else m x) i'
    rw [execOp_jp _ _ _ (by exact hi) (by exact h2) (by exact h3)] at hd
    simp only [SimP] at hd
    simp only [prog_bind]
    have e : (Prog.bind (ask (.addNoMreq c'.getIr X1)) fun _ => Prog.bind (pushCpu c'.pc c')
      fun c => executeInstruction deb 0xC3#8
        (c.setPc ((c'.getIr &&& 0xFF00#16) ||| v.setWidth 16))).run (ramHost io) (t', m, i') =
      (executeInstruction deb 0xC3#8 ({ c' with sp := c'.sp - 2#16 }.setPc
          ((c'.getIr &&& 0xFF00#16) ||| v.setWidth 16))).run (ramHost io)
       (t' + BitVec.ofNat w 7, (fun x => if x = c'.sp - 2#16 then lo8 c'.pc else
          if x = c'.sp - 1#16 then hi8 c'.pc else m x), i') := by
      refine (run_pushCpu io c'.pc c' (fun c => executeInstruction deb 0xC3#8
        (c.setPc ((c'.getIr &&& 0xFF00#16) ||| v.setWidth 16))) _ _ _).trans ?_
      have e : t' + BitVec.setWidth w X1 + BitVec.ofNat w 6 = t' + BitVec.ofNat w 7 := by
        rw [← BitVec.ofNat_toNat, add_time]; rfl
      rw [← e]
    refine (congrArg (fun r : (Res (tsSig w O R) × Cpu Q) × BitVec w × Mem × I =>
      (absM (abs r.1.2) r.2, outR r.1.1)) e).trans (hd.trans ?_)
    simp only [imOf, absM, abs, absS, Cpu.load, Cpu.setPc, Cpu.getPc, getIr_eq, vector_eq,
      spec_simps, norm_simps, code_simps, Nat.reduceAdd]
    rfl

theorem run_nmi (io : Handler (tsSig w O R) I) (c : Cpu Q) (t m i) :
    (fun r : Cpu Q × BitVec w × Mem × I => absM (abs r.1) r.2)
      ((nmiNoCheck c).run (ramHost io) (t, m, i)) = Spec.nmi (absM (abs c) (t, m, i)) := by
  have e : (nmiNoCheck c).run (ramHost io) (t, m, i) =
    (Prog.bind (pushCpu (if c.halt then c.pc + 1#16 else c.pc)
      { ({ c with lastEi := false, iff1 := false }).incR with halt := false }) fun c =>
        .ret { c with flavour := Flavour.beginInstruction c.flavour, pc := 0x66#16 }).run
      (ramHost io) (t + BitVec.ofNat w 4 + BitVec.setWidth w X1, m, i) := rfl
  have e2 : t + BitVec.ofNat w 4 + BitVec.setWidth w X1 + BitVec.ofNat w 6 =
      t + BitVec.ofNat w 11 := by
    rw [← BitVec.ofNat_toNat, add_time, add_time]; rfl
  rw [e, run_pushCpu, e2]
  cases hh : c.halt <;>
  simp only [Spec.nmi, wake, Prog.run, absM, abs, absS, Cpu.load, Cpu.getPc, hh, spec_simps, norm_simps,
    code_simps]

/-- `execute_next` does what is specified. -/
theorem sim_step (io : Handler (tsSig w O R) I) (deb : Bool) (c : Cpu Q) (t m i) :
    SimP io (executeNext deb c) (t, m, i)
      (step (FlavourSpec.opt Q) (envOf io) (absM (abs c) (t, m, i))) := by
  have hgo : ∀ i, SimP io (if c.halt then haltStep c >>= fun c => pure (.ok, c)
      else fetchExecute deb c) (t, m, i)
     (if (absM (abs c) (t, m, i)).r.halted then
        (((absM (abs c) (t, m, i)).upd Regs.bumpR).tick 4, .ok)
      else execOp (FlavourSpec.opt Q) (envOf io) (absM (abs c) (t, m, i)).imm8
        (fetch (absM (abs c) (t, m, i)))) := by
    intro i
    have hh : (absM (abs c) (t, m, i)).r.halted = c.halt := rfl
    rw [hh]
    cases c.halt with
    | true => exact sim_halt io c t m i
    | false => exact sim_fetch io deb c t m i
  have ha := irqAllowed_eq c
  unfold step
  have hr : (absM (abs c) (t, m, i)).r = abs c := rfl
  rw [hr, ← ha]
  cases hq : c.isIrqAllowed with
  | false =>
    have := hgo i
    simp only [Bool.false_eq_true, if_false]
    unfold executeNext
    rw [hq]
    exact this
  | true =>
    change SimP io _ _ (if (devIrq io t i).1 then interrupt (FlavourSpec.opt Q) (envOf io)
      (absM (abs c) (t, m, (devIrq io t i).2)) else
      if (absM (abs c) (t, m, (devIrq io t i).2)).r.halted then
        (((absM (abs c) (t, m, (devIrq io t i).2)).upd Regs.bumpR).tick 4, .ok)
      else execOp (FlavourSpec.opt Q) (envOf io) (absM (abs c) (t, m, (devIrq io t i).2)).imm8
        (fetch (absM (abs c) (t, m, (devIrq io t i).2))))
    have hx : (executeNext deb c).run (ramHost io) (t, m, i) =
      (if (devIrq io t i).1 then irqNoCheck deb c
        else if c.halt then haltStep c >>= fun c => pure (.ok, c)
        else fetchExecute deb c).run (ramHost io) (t, m, (devIrq io t i).2) := by
      unfold executeNext
      rw [hq]
      rfl
    simp only [SimP, hx]
    have hpl : c.pfx = none ∧ c.lastEi = false := by
      simp only [Cpu.isIrqAllowed, isIntAllowed, Bool.and_eq_true, Bool.not_eq_true',
        Option.isNone_iff_eq_none] at hq
      exact hq.2
    cases (devIrq io t i).1 with
    | true => exact sim_interrupt io deb c t m _ hpl.1 hpl.2
    | false => exact hgo _

end Z80
