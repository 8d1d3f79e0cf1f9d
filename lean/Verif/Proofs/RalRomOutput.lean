import Verif.Proofs.RalRomInput

/-!
# The interrupt routine for a character sent
-/

set_option linter.unusedVariables false
set_option linter.unusedSimpArgs false

namespace Z80.Kernel
open Spec Spec.RalRom
open Routine (put push put_same put_other push_eq)
variable {w : Nat} {O R I : Type} {o : Opt} {v : Env w O R I}

attribute [local semireducible] put push in
/-- RES n,(HL). -/
theorem resM (n : Nat) (op : U8) (hop : decodeCb op = .res n .m) (x : Regs) (c : Cfg) (hc : c.mem c.pc = 0xCB) (h1 : c.mem (c.pc + 1) = op) : Goes o v x c
    { c with mem := put c.mem (word c.h c.l) (res8 n (c.mem (word c.h c.l))), pc := c.pc + 1 + 1, t := c.t + 15 } := by
  subst h1
  refine Goes.of 0xCB 11 hc (fun s i t => ?_) rfl
  have e : execOp o v 0xCB (fetch ⟨c.regs x s, c.mem, i, t⟩) =
      (let s : Mach w I := (fetch ⟨c.regs x s, c.mem, i, t⟩).upd
        fun r => { r with ei := false, halted := false }
      Eff.finish (O := O) (R := R) (done (execCb (decodeCb (c.mem (c.pc + 1))) ((s.skip 1).upd Regs.bumpR))) (fCb (decodeCb (c.mem (c.pc + 1))))
        (tCb (decodeCb (c.mem (c.pc + 1))) - 4)) := rfl
  rw [e, hop]
  exact ⟨⟨_, _, _⟩, rfl⟩

theorem ldAM (x : Regs) (c : Cfg) (hc : c.mem c.pc = 0x7E) : Goes o v x c
    { c with a := c.mem (word c.h c.l), pc := c.pc + 1, t := c.t + 7 } :=
  Goes.of 0x7E 3 hc (fun s i t => ⟨⟨_, _, _⟩, rfl⟩) rfl

theorem res8_and : ∀ y : U8, res8 2 y = y &&& 0xFB ∧ res8 3 y = y &&& 0xF7 := by decide +kernel

theorem jrZNot (x : Regs) (c : Cfg) (hc : c.mem c.pc = 0x28) (hb : ¬ (c.f.z = true)) : Goes o v x c
    { c with pc := c.pc + 1 + 1, t := c.t + 7 } :=
  Goes.of 0x28 3 hc (fun s i t => ⟨⟨_, _, _⟩,
    (congrArg (fun e => Eff.finish e false (t0 (.jrCc .z) e.2.1 - 4)) (if_neg hb)).trans rfl⟩) rfl

/-- OUT (n),A, when the device does not ask to stop. -/
theorem outA (x : Regs) (c : Cfg) (n : U8) (hc : c.mem c.pc = 0xD3) (h1 : c.mem (c.pc + 1) = n) (s : Hid) (i i' : I)
    (t : BitVec w) (wo : Option U16)
    (ho : v.out (word c.a n) c.a (t + BitVec.ofNat w (c.t + 8)) i = ((none, wo), i')) : ∃ s' : Hid,
    step o v (c.mach x s i t) = ({ c with pc := c.pc + 2, t := c.t + 11 + waits wo }.mach x s' i' t, .ok) := by
  subst h1
  have e : step o v (c.mach x s i t) = execOp o v (c.mem c.pc)
    (fetch ⟨c.regs x s, c.mem, i, t + BitVec.ofNat w c.t⟩) := rfl
  have ht : t + BitVec.ofNat w (c.t + 8) = t + BitVec.ofNat w c.t + BitVec.ofNat w 4 + BitVec.ofNat w 4 := by
    rw [BitVec.add_assoc, BitVec.add_assoc, ← BitVec.ofNat_add, ← BitVec.ofNat_add]
  rw [ht] at ho
  have e2 : execOp o v 0xD3 (fetch ⟨c.regs x s, c.mem, i, t + BitVec.ofNat w c.t⟩) =
      (let p := v.out (word c.a (c.mem (c.pc + 1))) c.a (t + BitVec.ofNat w c.t + BitVec.ofNat w 4 + BitVec.ofNat w 4) i
      let s1 : Mach w I := (fetch ⟨c.regs x s, c.mem, i, t + BitVec.ofNat w c.t⟩).upd
        fun r => { r with ei := false, halted := false }
      Eff.finish (((({ s1 with io := p.2 }.wzStore o (c.mem (c.pc + 1))).skip 1).wait p.1.2), false,
        match p.1.1 with | some o => .writeIo o | none => .ok) false 7) := rfl
  rw [e, hc, e2, ho]
  have hw : t + BitVec.ofNat w (c.t + 11 + waits wo) =
      t + BitVec.ofNat w c.t + BitVec.ofNat w 4 + BitVec.ofNat w (waits wo) + BitVec.ofNat w 7 := by
    rw [BitVec.add_assoc, BitVec.add_assoc, BitVec.add_assoc, ← BitVec.ofNat_add, ← BitVec.ofNat_add, ← BitVec.ofNat_add]
    congr 2
    omega
  simp only [Cfg.mach]
  rw [hw, show c.pc + 2 = c.pc + 1 + 1 by bv_omega]
  cases wo with
  | none =>
    rw [show t + BitVec.ofNat w c.t + BitVec.ofNat w 4 + BitVec.ofNat w (waits none) = t + BitVec.ofNat w c.t + BitVec.ofNat w 4
      from BitVec.add_zero _]
    exact ⟨⟨_, _, _⟩, rfl⟩
  | some k => exact ⟨⟨_, _, _⟩, rfl⟩

attribute [local semireducible] put push in
/-- BIT 2,(HL); the other flags are not followed. -/
theorem bit2' (x : Regs) (c : Cfg) (hc : c.mem c.pc = 0xCB) (h1 : c.mem (c.pc + 1) = 0x56) (s : Hid) (i : I) (t : BitVec w) :
    ∃ (s' : Hid) (f : Fl), f.z = !(c.mem (word c.h c.l)).toNat.testBit 2 ∧
    step o v (c.mach x s i t) = ({ c with f := f, pc := c.pc + 2, t := c.t + 12 }.mach x s' i t, .ok) := by
  have e : step o v (c.mach x s i t) = execOp o v (c.mem c.pc)
    (fetch ⟨c.regs x s, c.mem, i, t + BitVec.ofNat w c.t⟩) := rfl
  have e' : ∀ op : U8, c.mem (c.pc + 1) = op → execOp o v 0xCB (fetch ⟨c.regs x s, c.mem, i, t + BitVec.ofNat w c.t⟩) =
      (let s : Mach w I := (fetch ⟨c.regs x s, c.mem, i, t + BitVec.ofNat w c.t⟩).upd
        fun r => { r with ei := false, halted := false }
      Eff.finish (O := O) (R := R) (done (execCb (decodeCb op) ((s.skip 1).upd Regs.bumpR))) (fCb (decodeCb op))
        (tCb (decodeCb op) - 4)) := by
    intro op h
    subst h
    rfl
  have ht : t + BitVec.ofNat w (c.t + 12) = t + BitVec.ofNat w c.t + BitVec.ofNat w 4 + BitVec.ofNat w 8 := by
    rw [BitVec.add_assoc, BitVec.add_assoc, ← BitVec.ofNat_add, ← BitVec.ofNat_add]
  rw [e, hc, e' _ h1]
  simp only [Cfg.mach, ht]
  rw [show c.pc + 2 = c.pc + 1 + 1 by bv_omega]
  refine ⟨⟨_, _, _⟩, _, ?_, rfl⟩
  rfl

/-- EI; POP HL; POP AF; RETI. -/
theorem leave_out (x : Regs) (m : U16 → U8) (hm : Rom m) (c : Cfg) (hc : c.mem = m) (hp : c.pc = 0x16F) (s : Hid) (i : I)
    (t : BitVec w) (hn : ∀ t', v.irq t' i = (false, i)) : ∃ (s' : Hid) (b : Mach w I),
    Reach o v (c.mach x s i t) b ∧ b.io = i ∧ step o v b =
      (⟨{ c with a := m (c.sp + 3), f := Fl.of (m (c.sp + 2)), h := m (c.sp + 1), l := m c.sp, pc := word (m (c.sp + 5)) (m (c.sp + 4)), sp := c.sp + 6 }.open x s' false,
        m, (v.reti 0x174 (t + BitVec.ofNat w (c.t + 32)) i).2, t + BitVec.ofNat w (c.t + 38)⟩,
        match (v.reti 0x174 (t + BitVec.ofNat w (c.t + 32)) i).1 with | some x => .reti x | none => .ok) := by
  subst hc
  obtain ⟨a, f, h, l, sp, pc, m, tt⟩ := c
  simp only at hm hp ⊢
  subst hp
  obtain ⟨s1, e1⟩ := ei_open (o := o) (v := v) x ⟨a, f, h, l, sp, 0x16F, m, tt⟩ (opc hm) s i t
  obtain ⟨s2, e2⟩ := popHl_open (o := o) (v := v) x ⟨a, f, h, l, sp, 0x16F + 1, m, tt⟩ (opc hm) s1 i (t + BitVec.ofNat w (tt + 4))
  obtain ⟨s3, e3⟩ := popAf_open (o := o) (v := v) x ⟨a, f, hi8 (word (m (sp + 1)) (m sp)), lo8 (word (m (sp + 1)) (m sp)),
    sp + 2, 0x16F + 1 + 1, m, tt⟩ (opc hm) s2 i (t + BitVec.ofNat w (tt + 4) + BitVec.ofNat w 10) (hn _)
  obtain ⟨s4, e4⟩ := reti_open (o := o) (v := v) x ⟨hi8 (word (m (sp + 2 + 1)) (m (sp + 2))),
    Fl.of (lo8 (word (m (sp + 2 + 1)) (m (sp + 2)))), hi8 (word (m (sp + 1)) (m sp)), lo8 (word (m (sp + 1)) (m sp)),
    sp + 2 + 2, 0x16F + 1 + 1 + 1, m, tt⟩ (opc hm) (opc hm) s3 i
    (t + BitVec.ofNat w (tt + 4) + BitVec.ofNat w 10 + BitVec.ofNat w 10) (hn _)
  refine ⟨s4, _, .step e1 (.step e2 (.step e3 (.refl _))), rfl, e4.trans ?_⟩
  simp only [hi8_word, lo8_word, BitVec.add_assoc, ← BitVec.ofNat_add, BitVec.reduceAdd]
  rfl

/-- Execute an instruction. -/
local macro "exec" t:term:max h:term:max : tactic => `(tactic| (refine Goes.trans ($t _ _ (opc $h)) ?_; tidy))
/-- Execute an instruction with a word operand. -/
local macro "exec" t:term:max h:term:max "arg16" x:term:max : tactic =>
  `(tactic| (refine Goes.trans ($t _ _ $x (opc $h) (opc $h) (opc $h)) ?_; tidy))

/-- From the acceptance to the test of the flag. -/
theorem enter_out (r : Regs) (m : U16 → U8) (i i1 i2 : I) (t : BitVec w) (ws : Option U16) (hm : Rom m)
    (h1 : r.iff1 = true) (h2 : r.idx = .hl) (h3 : r.ei = false) (him : r.im = 2) (hir : r.i = 1)
    (hs : Room r.sp 6) (hi : v.irq t i = (true, i1))
    (ha : v.ack (resume r) (t + BitVec.ofNat w 2) i1 = ((10, ws), i2)) : ∃ s f,
      Rom (stacked r m) ∧ f.z = !(m 0x2005).getLsbD 2 ∧ Reach o v ⟨r, m, i, t⟩
        ((Cfg.mk r.a f 0x20 5 (r.sp - 2 - 2 - 2) 0x167 (stacked r m) 63).mach { r with iff2 := false } s i2
          (t + BitVec.ofNat w (waits ws))) := by
  obtain ⟨s, e1⟩ := accept (o := o) r m i i1 i2 t 10 ws h1 h2 h3 him hi ha
  have s2 : Room r.sp 2 := room_less hs (by omega)
  have s6 : Room (r.sp - 2) 4 := room_sub hs
  have s4 : Room (r.sp - 2) 2 := room_less s6 (by omega)
  have s8 : Room (r.sp - 2 - 2) 2 := room_sub s6
  have hm1 := rom_push hm (resume r) s2
  have hm2 := rom_push hm1 (word r.a r.f.byte) s4
  have hm3 := rom_push hm2 (word r.h r.l) s8
  have v0 : word r.i 10 = 0x10A := by rw [hir]; decide
  rw [v0, hm1.at_code (0x10A + 1) 0x01 (by decide +kernel), hm1.at_code 0x10A 0x60 (by decide +kernel)] at e1
  have g1 : Goes o v { r with iff2 := false } (Cfg.mk r.a r.f r.h r.l (r.sp - 2) (word 0x01 0x60) (push m r.sp (resume r)) 19)
      ⟨r.a, r.f, 0x20, 5, r.sp - 2 - 2 - 2, 0x165, stacked r m, 51⟩ := by
    rw [show word 0x01 0x60 = 0x160 by decide]
    exec pushAf hm1
    exec pushHl hm2
    exec ldHlNN hm3 arg16 0x2005
    exact Goes.refl _ _
  obtain ⟨s1, g1⟩ := g1 s i2 (t + BitVec.ofNat w (waits ws))
  obtain ⟨s3, f, hf, e2⟩ := bit2' (o := o) (v := v) { r with iff2 := false } ⟨r.a, r.f, 0x20, 5, r.sp - 2 - 2 - 2, 0x165, stacked r m, 51⟩
    (opc hm3) (opc hm3) s1 i2 (t + BitVec.ofNat w (waits ws))
  have w5 : word (0x20 : U8) (5 : U8) = 0x2005 := by decide
  have hM : stacked r m 0x2005 = m 0x2005 := by
    unfold stacked
    rw [push_low _ _ s8 (by decide), push_low _ _ s4 (by decide), push_low _ _ s2 (by decide)]
  simp only [w5, hM, Nat.reduceAdd, show (0x165 : U16) + 2 = 0x167 by decide] at hf e2
  exact ⟨s3, f, hm3, hf, .step e1 (g1.trans (.step e2 (.refl _)))⟩

/-- The routine when nothing waits. -/
theorem output_none (r : Regs) (m : U16 → U8) (i i1 i2 : I) (t : BitVec w) (ws : Option U16) (hm : Rom m)
    (h1 : r.iff1 = true) (h2 : r.idx = .hl) (h3 : r.ei = false) (him : r.im = 2) (hir : r.i = 1)
    (hs : Room r.sp 6) (hi : v.irq t i = (true, i1))
    (ha : v.ack (resume r) (t + BitVec.ofNat w 2) i1 = ((10, ws), i2)) (hno : (m 0x2005).getLsbD 2 = false)
    (hn : ∀ t', v.irq t' i2 = (false, i2)) :
    let n := 102 + waits ws
    let p := v.reti 0x174 (t + BitVec.ofNat w (n + 32)) i2
    ∃ b r' m', Reach o v ⟨r, m, i, t⟩ b ∧ b.io = i2 ∧ step o v b =
      (⟨r', m', p.2, t + BitVec.ofNat w (n + 38)⟩, match p.1 with | some x => .reti x | none => .ok) ∧
      Alike { r with pc := resume r, halted := false, iff2 := true } r' ∧
      m' 0x2005 = m 0x2005 &&& 0xF7 ∧
      ∀ a : U16, a ≠ 0x2005 → (∀ j, 1 ≤ j → j ≤ 6 → a ≠ r.sp - BitVec.ofNat 16 j) → m' a = m a := by
  intro n p
  obtain ⟨s, f, hm3, hf, g⟩ := enter_out (o := o) r m i i1 i2 t ws hm h1 h2 h3 him hir hs hi ha
  rw [hno] at hf
  have w5 : word (0x20 : U8) (5 : U8) = 0x2005 := by decide
  have v5 := stacked_at r m 0x2005 (room_var hs (by decide))
  have hm4 : Rom (put (stacked r m) 0x2005 (m 0x2005 &&& 0xF7)) := rom_put hm3 _ (by decide)
  have g2 : Goes o v { r with iff2 := false } (Cfg.mk r.a f 0x20 5 (r.sp - 2 - 2 - 2) 0x167 (stacked r m) 63)
      (Cfg.mk r.a f 0x20 5 (r.sp - 2 - 2 - 2) 0x16F (put (stacked r m) 0x2005 (m 0x2005 &&& 0xF7)) 102) := by
    refine Goes.trans (jrZ _ _ 0x174 0x0B (opc hm3) (opc hm3) (by dsimp only; decide +kernel) (by simp only [hf]; rfl)) ?_
    refine Goes.trans (resM 3 0x9E (by decide +kernel) _ _ (opc hm3) (opc hm3)) ?_
    simp only [w5, v5, (res8_and _).2]
    refine Goes.trans (jr _ _ 0x16F 0xF7 (opc hm4) (opc hm4) (by dsimp only; decide +kernel)) ?_
    exact Goes.refl _ _
  obtain ⟨s1, g2⟩ := g2 s i2 (t + BitVec.ofNat w (waits ws))
  obtain ⟨s2, b, g3, bi, e⟩ := leave_out (o := o) (v := v) { r with iff2 := false } _ hm4
    (Cfg.mk r.a f 0x20 5 (r.sp - 2 - 2 - 2) 0x16F (put (stacked r m) 0x2005 (m 0x2005 &&& 0xF7)) 102) rfl rfl s1 i2
    (t + BitVec.ofNat w (waits ws)) hn
  obtain ⟨q1, q2, q3, q4, q5, q6⟩ := unstack r m (put (stacked r m) 0x2005 (m 0x2005 &&& 0xF7)) hs (by
    intro a h
    rw [put_other]
    rintro rfl
    exact absurd h (by decide))
  simp only [q1, q2, q3, q4, q5, q6, of_byte, word_hi8_lo8] at e
  rw [BitVec.add_assoc, BitVec.add_assoc, ← BitVec.ofNat_add, ← BitVec.ofNat_add,
    show waits ws + (102 + 32) = n + 32 by simp only [n]; omega,
    show waits ws + (102 + 38) = n + 38 by simp only [n]; omega] at e
  refine ⟨b, _, _, g.trans (g2.trans g3), bi, e, ⟨s2.wz, s2.r, s2.q, ?_⟩, put_same _ _ _, ?_⟩
  · simp only [Cfg.open, Cfg.regs, show r.sp - 2 - 2 - 2 + 6 = r.sp by bv_omega, h1, h2, h3]
  · intro a a5 hj
    rw [put_other _ _ a5, stacked_at r m a hj]

/-- The routine when a character waits. -/
theorem output_some (r : Regs) (m : U16 → U8) (i i1 i2 : I) (t : BitVec w) (ws : Option U16) (hm : Rom m)
    (h1 : r.iff1 = true) (h2 : r.idx = .hl) (h3 : r.ei = false) (him : r.im = 2) (hir : r.i = 1)
    (hs : Room r.sp 6) (hi : v.irq t i = (true, i1))
    (ha : v.ack (resume r) (t + BitVec.ofNat w 2) i1 = ((10, ws), i2)) (hsome : (m 0x2005).getLsbD 2 = true)
    (wo : Option U16) (i3 : I)
    (hout : v.out (word (m 0x2006) 10) (m 0x2006) (t + BitVec.ofNat w (106 + waits ws)) i2 = ((none, wo), i3))
    (hn : ∀ t', v.irq t' i3 = (false, i3)) :
    let n := 109 + waits ws + waits wo
    let p := v.reti 0x174 (t + BitVec.ofNat w (n + 32)) i3
    ∃ b r' m', Reach o v ⟨r, m, i, t⟩ b ∧ b.io = i3 ∧ step o v b =
      (⟨r', m', p.2, t + BitVec.ofNat w (n + 38)⟩, match p.1 with | some x => .reti x | none => .ok) ∧
      Alike { r with pc := resume r, halted := false, iff2 := true } r' ∧
      m' 0x2005 = m 0x2005 &&& 0xFB ∧
      ∀ a : U16, a ≠ 0x2005 → (∀ j, 1 ≤ j → j ≤ 6 → a ≠ r.sp - BitVec.ofNat 16 j) → m' a = m a := by
  intro n p
  obtain ⟨s, f, hm3, hf, g⟩ := enter_out (o := o) r m i i1 i2 t ws hm h1 h2 h3 him hir hs hi ha
  rw [hsome] at hf
  have w5 : word (0x20 : U8) (5 : U8) = 0x2005 := by decide
  have e6 : hi8 (0x2005 + 1 : U16) = 0x20 ∧ lo8 (0x2005 + 1 : U16) = 6 := by decide
  have w6 : word (0x20 : U8) (6 : U8) = 0x2006 := by decide
  have v5 := stacked_at r m 0x2005 (room_var hs (by decide))
  have v6 : put (stacked r m) 0x2005 (m 0x2005 &&& 0xFB) 0x2006 = m 0x2006 := by
    rw [put_other _ _ (by decide), stacked_at r m 0x2006 (room_var hs (by decide))]
  have hm4 : Rom (put (stacked r m) 0x2005 (m 0x2005 &&& 0xFB)) := rom_put hm3 _ (by decide)
  have g2 : Goes o v { r with iff2 := false } (Cfg.mk r.a f 0x20 5 (r.sp - 2 - 2 - 2) 0x167 (stacked r m) 63)
      (Cfg.mk (m 0x2006) f 0x20 6 (r.sp - 2 - 2 - 2) 0x16D (put (stacked r m) 0x2005 (m 0x2005 &&& 0xFB)) 98) := by
    refine Goes.trans (jrZNot _ _ (opc hm3) (by simp only [hf]; decide)) ?_
    refine Goes.trans (resM 2 0x96 (by decide +kernel) _ _ (opc hm3) (opc hm3)) ?_
    simp only [w5, v5, (res8_and _).1]
    refine Goes.trans (incHl _ _ (opc hm4)) ?_
    simp only [w5, e6.1, e6.2]
    refine Goes.trans (ldAM _ _ (opc hm4)) ?_
    simp only [w6, v6]
    exact Goes.refl _ _
  obtain ⟨s1, g2⟩ := g2 s i2 (t + BitVec.ofNat w (waits ws))
  obtain ⟨s3, e2⟩ := outA (o := o) (v := v) { r with iff2 := false }
    (Cfg.mk (m 0x2006) f 0x20 6 (r.sp - 2 - 2 - 2) 0x16D (put (stacked r m) 0x2005 (m 0x2005 &&& 0xFB)) 98) 10 (opc hm4)
    (opc hm4) s1 i2 i3 (t + BitVec.ofNat w (waits ws)) wo (by
      rw [BitVec.add_assoc, ← BitVec.ofNat_add, show waits ws + (98 + 8) = 106 + waits ws by omega]
      exact hout)
  simp only [show (0x16D : U16) + 2 = 0x16F by decide] at e2
  obtain ⟨s4, b, g4, bi, e⟩ := leave_out (o := o) (v := v) { r with iff2 := false } _ hm4
    (Cfg.mk (m 0x2006) f 0x20 6 (r.sp - 2 - 2 - 2) 0x16F (put (stacked r m) 0x2005 (m 0x2005 &&& 0xFB))
        (98 + 11 + waits wo)) rfl rfl s3 i3 (t + BitVec.ofNat w (waits ws)) hn
  obtain ⟨q1, q2, q3, q4, q5, q6⟩ := unstack r m (put (stacked r m) 0x2005 (m 0x2005 &&& 0xFB)) hs (by
    intro a h
    rw [put_other]
    rintro rfl
    exact absurd h (by decide))
  simp only [q1, q2, q3, q4, q5, q6, of_byte, word_hi8_lo8] at e
  rw [BitVec.add_assoc, BitVec.add_assoc, ← BitVec.ofNat_add, ← BitVec.ofNat_add,
    show waits ws + (98 + 11 + waits wo + 32) = n + 32 by simp only [n]; omega,
    show waits ws + (98 + 11 + waits wo + 38) = n + 38 by simp only [n]; omega] at e
  refine ⟨b, _, _, g.trans (g2.trans (.step e2 g4)), bi, e, ⟨s4.wz, s4.r, s4.q, ?_⟩, put_same _ _ _, ?_⟩
  · simp only [Cfg.open, Cfg.regs, show r.sp - 2 - 2 - 2 + 6 = r.sp by bv_omega, h1, h2, h3]
  · intro a a5 hj
    rw [put_other _ _ a5, stacked_at r m a hj]

end Z80.Kernel
