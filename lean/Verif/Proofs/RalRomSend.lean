import Verif.Proofs.RalRomCall

/-!
# The call that sends a character
-/

set_option linter.unusedVariables false
set_option linter.unusedSimpArgs false

namespace Z80.Kernel
open Spec Spec.RalRom
open Routine (put push put_same put_other push_eq)
variable {w : Nat} {O R I : Type} {o : Opt} {v : Env w O R I}

attribute [local semireducible] put push in
theorem rst10_any (x : Regs) (c : Cfg) (hc : c.mem c.pc = 0xD7) (s : Hid) (e b : Bool) (i : I) (t : BitVec w)
    (hn : v.irq t i = (false, i)) : ∃ s' : Hid, step o v ⟨c.any x s e b, c.mem, i, t⟩ =
      (⟨{ c with sp := c.sp - 2, pc := 0x10 }.any x s' e false, push c.mem c.sp (c.pc + 1), i, t + BitVec.ofNat w (4 + 7)⟩, .ok) := by
  rw [any_step c x s e b i t hn, hc, split_t]
  exact ⟨⟨_, _, _⟩, rfl⟩

theorem jrC (x : Regs) (c : Cfg) (a : U16) (d : U8) (hc : c.mem c.pc = 0x38)
    (h1 : c.mem (c.pc + 1) = d) (ha : c.pc + 1 + 1 + disp d = a) (hb : c.f.c = true) : Goes o v x c
    { c with pc := a, t := c.t + 12 } := by
  subst h1 ha
  exact Goes.of 0x38 8 hc (fun s i t => ⟨⟨_, _, _⟩,
    (congrArg (fun e => Eff.finish e false (t0 (.jrCc .c) e.2.1 - 4)) (if_pos hb)).trans rfl⟩) rfl

/-- CP A; the flags but zero are not followed. -/
theorem cpA (x : Regs) (c : Cfg) (hc : c.mem c.pc = 0xBF) : ∃ f : Fl, f.z = true ∧
    Goes o v x c { c with f := f, pc := c.pc + 1, t := c.t + 4 } := by
  have h : ∀ a : U8, (cp8 a a).z = true := by decide +kernel
  exact ⟨cp8 c.a c.a, h c.a, Goes.of 0xBF 0 hc (fun s i t => ⟨⟨_, _, _⟩, rfl⟩) rfl⟩

theorem set8_high : ∀ y : U8, set8 2 y = y ||| 4 ∧ set8 3 y = y ||| 8 := by decide +kernel

/-- RST 10h up to DI. -/
theorem send_in (r : Regs) (m : U16 → U8) (i : I) (t : BitVec w) (hm : Rom m) (h2 : r.idx = .hl)
    (hh : r.halted = false) (hs : Room r.sp 2) (hop : m r.pc = 0xD7) (hn : ∀ t', v.irq t' i = (false, i)) : ∃ s,
    Reach o v ⟨r, m, i, t⟩ ((Cfg.mk r.a r.f 0x20 5 (r.sp - 2) 0x179 (push m r.sp (r.pc + 1)) 39).mach
      { swap r r.h r.l with iff2 := false } s i t) := by
  have e : r = (Cfg.mk r.a r.f r.h r.l r.sp r.pc m 0).any r ⟨r.wz, r.r, r.q⟩ r.iff1 r.ei := by
    simp only [Cfg.any, Cfg.regs]
    obtain ⟨a, f, b, c, d, ee, h, l, a', f', b', c', d', e', h', l', ixh, ixl, iyh, iyl, sp, pc, wz, ir, rr, iff1, iff2,
      im, halted, eii, idx, q⟩ := r
    simp only at h2 hh
    subst h2 hh
    rfl
  have hm1 := rom_push hm (r.pc + 1) hs
  obtain ⟨s1, e1⟩ := rst10_any (o := o) (v := v) r (Cfg.mk r.a r.f r.h r.l r.sp r.pc m 0) hop ⟨r.wz, r.r, r.q⟩ r.iff1 r.ei i t (hn _)
  rw [← e] at e1
  generalize push m r.sp (r.pc + 1) = M at hm1 e1 ⊢
  obtain ⟨s2, e2⟩ := exx_any (o := o) (v := v) r (Cfg.mk r.a r.f r.h r.l (r.sp - 2) 0x10 M 0) (opc hm1) s1 r.iff1 false i
    (t + BitVec.ofNat w (4 + 7)) (hn _)
  obtain ⟨s3, e3⟩ := ldHl_any (o := o) (v := v) (swap r r.h r.l) (Cfg.mk r.a r.f r.h' r.l' (r.sp - 2) 0x11 M 0) (opc hm1) s2 r.iff1 false i
    (t + BitVec.ofNat w (4 + 7) + BitVec.ofNat w (4 + 0)) (hn _)
  simp only [show (0x11 : U16) + 1 = 0x12 by decide, show (0x12 : U16) + 1 = 0x13 by decide, show (0x12 : U16) + 2 = 0x14 by decide,
    hm1.at_code 0x13 0x20 (by decide +kernel), hm1.at_code 0x12 5 (by decide +kernel), hi8_word, lo8_word] at e3
  obtain ⟨s4, e4⟩ := jp_any (o := o) (v := v) (swap r r.h r.l) (Cfg.mk r.a r.f 0x20 5 (r.sp - 2) 0x14 M 0) (opc hm1) s3 r.iff1 false i
    (t + BitVec.ofNat w (4 + 7) + BitVec.ofNat w (4 + 0) + BitVec.ofNat w (4 + 6)) (hn _)
  simp only [show (0x14 : U16) + 1 = 0x15 by decide, show (0x15 : U16) + 1 = 0x16 by decide,
    hm1.at_code 0x16 1 (by decide +kernel), hm1.at_code 0x15 0x78 (by decide +kernel), show word (1 : U8) 0x78 = 0x178 by decide] at e4
  obtain ⟨s5, e5⟩ := di_any (o := o) (v := v) (swap r r.h r.l) (Cfg.mk r.a r.f 0x20 5 (r.sp - 2) 0x178 M 0) (opc hm1) s4 r.iff1 false i
    (t + BitVec.ofNat w (4 + 7) + BitVec.ofNat w (4 + 0) + BitVec.ofNat w (4 + 6) + BitVec.ofNat w (4 + 6)) (hn _)
  refine ⟨s5, .step e1 (.step e2 (.step e3 (.step e4 (.step (e5.trans ?_) (.refl _)))))⟩
  simp only [← split_t]
  rfl

/-- EI; EXX; RET. -/
theorem send_out (x : Regs) (m : U16 → U8) (hm : Rom m) (a : U8) (f : Fl) (h l : U8) (sp : U16) (k : Nat) (s : Hid) (i : I)
    (t : BitVec w) (hn : ∀ t', v.irq t' i = (false, i)) : ∃ s' : Hid,
    Reach o v ((Cfg.mk a f h l sp 0x186 m k).mach x s i t)
      ⟨(Cfg.mk a f x.h' x.l' (sp + 2) (word (m (sp + 1)) (m sp)) m k).open (swap x h l) s' false, m, i,
        t + BitVec.ofNat w (k + 18)⟩ := by
  obtain ⟨s1, e1⟩ := ei_open (o := o) (v := v) x (Cfg.mk a f h l sp 0x186 m k) (opc hm) s i t
  obtain ⟨s2, e2⟩ := exx_open (o := o) (v := v) x (Cfg.mk a f h l sp (0x186 + 1) m k) (opc hm) s1 i (t + BitVec.ofNat w (k + 4))
  obtain ⟨s3, e3⟩ := ret_open (o := o) (v := v) (swap x h l) (Cfg.mk a f x.h' x.l' sp (0x186 + 1 + 1) m k) (opc hm) s2 i
    (t + BitVec.ofNat w (k + 4) + BitVec.ofNat w (4 + 0)) (hn _)
  refine ⟨s3, .step e1 (.step e2 (.step (e3.trans ?_) (.refl _)))⟩
  simp only [← split_t]

/-- The buffer is full and the caller does not wait. -/
theorem send_full (r : Regs) (m : U16 → U8) (i : I) (t : BitVec w) (hm : Rom m) (h2 : r.idx = .hl)
    (hh : r.halted = false) (hs : Room r.sp 2) (hop : m r.pc = 0xD7) (hn : ∀ t', v.irq t' i = (false, i))
    (hb : (m 0x2005).getLsbD 2 = true) (hc : r.f.c = true) : ∃ r' f,
    Reach o v ⟨r, m, i, t⟩ ⟨r', push m r.sp (r.pc + 1), i, t + BitVec.ofNat w 93⟩ ∧ f.z = false ∧
    Alike { r with a := r.a, f := f, h' := 0x20, l' := 5, pc := r.pc + 1, iff1 := true, iff2 := true, ei := false } r' := by
  obtain ⟨s, g⟩ := send_in (o := o) r m i t hm h2 hh hs hop hn
  have hm1 := rom_push hm (r.pc + 1) hs
  have k1 := hs 1 (by omega) (by omega)
  have k2 := hs 2 (by omega) (by omega)
  have q1 := push_hi m r.sp (r.pc + 1)
  have q2 := push_lo m r.sp (r.pc + 1)
  have q5 : push m r.sp (r.pc + 1) 0x2005 = m 0x2005 := push_low _ _ hs (by decide)
  generalize push m r.sp (r.pc + 1) = M at hm1 g q1 q2 q5 ⊢
  generalize hx : ({ swap r r.h r.l with iff2 := false } : Regs) = x at g
  obtain ⟨s1, f, fz, fc, e1⟩ := bitM (o := o) (v := v) 2 0x56 (by decide +kernel) x (Cfg.mk r.a r.f 0x20 5 (r.sp - 2) 0x179 M 39)
    (opc hm1) (opc hm1) s i t
  have w5 : word (0x20 : U8) (5 : U8) = 0x2005 := by decide
  simp only [w5, q5, show (0x179 : U16) + 2 = 0x17B by decide, Nat.reduceAdd] at fz fc e1
  rw [show (m 0x2005).toNat.testBit 2 = true from hb] at fz
  rw [hc] at fc
  have g2 : Goes o v x (Cfg.mk r.a f 0x20 5 (r.sp - 2) 0x17B M 51) (Cfg.mk r.a f 0x20 5 (r.sp - 2) 0x186 M 75) := by
    refine Goes.trans (jrNz _ _ 0x189 0x0C (opc hm1) (opc hm1) (by dsimp only; decide +kernel) (by simp only [fz]; rfl)) ?_
    refine Goes.trans (jrC _ _ 0x186 0xFB (opc hm1) (opc hm1) (by dsimp only; decide +kernel) (by simp only [fc])) ?_
    exact Goes.refl _ _
  obtain ⟨s2, g2⟩ := g2 s1 i t
  obtain ⟨s3, g3⟩ := send_out (o := o) (v := v) x M hm1 r.a f 0x20 5 (r.sp - 2) 75 s2 i t hn
  rw [q1, q2, word_hi8_lo8] at g3
  refine ⟨_, f, g.trans (.step e1 (g2.trans g3)), fz, ?_⟩
  subst hx
  exact call_alike r h2 hh r.a f 0x20 5 _ _ M 75 s3 (by bv_omega)

/-- The device is busy and the buffer is empty. -/
theorem send_later (r : Regs) (m : U16 → U8) (i : I) (t : BitVec w) (hm : Rom m) (h2 : r.idx = .hl)
    (hh : r.halted = false) (hs : Room r.sp 2) (hop : m r.pc = 0xD7) (hn : ∀ t', v.irq t' i = (false, i))
    (hb : (m 0x2005).getLsbD 2 = false) (hb3 : (m 0x2005).getLsbD 3 = true) : ∃ r' f,
    Reach o v ⟨r, m, i, t⟩ ⟨r', put (put (push m r.sp (r.pc + 1)) 0x2005 (m 0x2005 ||| 4)) 0x2006 r.a, i, t + BitVec.ofNat w 127⟩ ∧
    f.z = true ∧
    Alike { r with a := r.a, f := f, h' := 0x20, l' := 6, pc := r.pc + 1, iff1 := true, iff2 := true, ei := false } r' := by
  obtain ⟨s, g⟩ := send_in (o := o) r m i t hm h2 hh hs hop hn
  have hm1 := rom_push hm (r.pc + 1) hs
  have k1 := hs 1 (by omega) (by omega)
  have k2 := hs 2 (by omega) (by omega)
  have q1 := push_hi m r.sp (r.pc + 1)
  have q2 := push_lo m r.sp (r.pc + 1)
  have q5 : push m r.sp (r.pc + 1) 0x2005 = m 0x2005 := push_low _ _ hs (by decide)
  generalize push m r.sp (r.pc + 1) = M at hm1 g q1 q2 q5 ⊢
  generalize hx : ({ swap r r.h r.l with iff2 := false } : Regs) = x at g
  obtain ⟨s1, f, fz, fc, e1⟩ := bitM (o := o) (v := v) 2 0x56 (by decide +kernel) x (Cfg.mk r.a r.f 0x20 5 (r.sp - 2) 0x179 M 39)
    (opc hm1) (opc hm1) s i t
  have w5 : word (0x20 : U8) (5 : U8) = 0x2005 := by decide
  simp only [w5, q5, show (0x179 : U16) + 2 = 0x17B by decide, Nat.reduceAdd] at fz fc e1
  rw [show (m 0x2005).toNat.testBit 2 = false from hb] at fz
  obtain ⟨s2, g2⟩ := jrNzNot (o := o) (v := v) x (Cfg.mk r.a f 0x20 5 (r.sp - 2) 0x17B M 51) (opc hm1) (by simp only [fz]; decide) s1 i t
  simp only [show (0x17B : U16) + 1 + 1 = 0x17D by decide, Nat.reduceAdd] at g2
  obtain ⟨s3, f2, fz2, fc2, e3⟩ := bitM (o := o) (v := v) 3 0x5E (by decide +kernel) x (Cfg.mk r.a f 0x20 5 (r.sp - 2) 0x17D M 58)
    (opc hm1) (opc hm1) s2 i t
  simp only [w5, q5, show (0x17D : U16) + 2 = 0x17F by decide, Nat.reduceAdd] at fz2 fc2 e3
  rw [show (m 0x2005).toNat.testBit 3 = true from hb3] at fz2
  have w6 : word (0x20 : U8) (6 : U8) = 0x2006 := by decide
  have d6 : hi8 (0x2005 + 1 : U16) = 0x20 ∧ lo8 (0x2005 + 1 : U16) = 6 := by decide
  have hm2 : Rom (put M 0x2005 (m 0x2005 ||| 4)) := rom_put hm1 _ (by decide)
  have hm3 : Rom (put (put M 0x2005 (m 0x2005 ||| 4)) 0x2006 r.a) := rom_put hm2 _ (by decide)
  have g4 : Goes o v x (Cfg.mk r.a f2 0x20 5 (r.sp - 2) 0x17F M 70)
      (Cfg.mk r.a f2 0x20 6 (r.sp - 2) 0x185 (put (put M 0x2005 (m 0x2005 ||| 4)) 0x2006 r.a) 105) := by
    refine Goes.trans (jrZNot _ _ (opc hm1) (by simp only [fz2]; decide)) ?_
    refine Goes.trans (setM 2 0xD6 (by decide +kernel) _ _ (opc hm1) (opc hm1)) ?_
    simp only [w5, q5, (set8_high _).1]
    refine Goes.trans (incHl _ _ (opc hm2)) ?_
    simp only [w5, d6.1, d6.2]
    refine Goes.trans (ldMA _ _ (opc hm2)) ?_
    simp only [w6]
    exact Goes.refl _ _
  obtain ⟨s4, g4⟩ := g4 s3 i t
  obtain ⟨f3, fz3, g5⟩ := cpA (o := o) (v := v) x (Cfg.mk r.a f2 0x20 6 (r.sp - 2) 0x185 (put (put M 0x2005 (m 0x2005 ||| 4)) 0x2006 r.a) 105) (opc hm3)
  obtain ⟨s5, g5⟩ := g5 s4 i t
  obtain ⟨s6, g6⟩ := send_out (o := o) (v := v) x _ hm3 r.a f3 0x20 6 (r.sp - 2) 109 s5 i t hn
  rw [put_other _ _ (by bv_omega), put_other _ _ (by bv_omega), put_other _ _ (by bv_omega), put_other _ _ (by bv_omega),
    q1, q2, word_hi8_lo8] at g6
  refine ⟨_, f3, g.trans (.step e1 (g2.trans (.step e3 (g4.trans (g5.trans g6))))), fz3, ?_⟩
  subst hx
  exact call_alike r h2 hh _ _ 0x20 6 _ _ _ 109 s6 (by bv_omega)

/-- The device is not busy. -/
theorem send_now (r : Regs) (m : U16 → U8) (i : I) (t : BitVec w) (hm : Rom m) (h2 : r.idx = .hl)
    (hh : r.halted = false) (hs : Room r.sp 2) (hop : m r.pc = 0xD7) (hn : ∀ t', v.irq t' i = (false, i))
    (hb : (m 0x2005).getLsbD 2 = false) (hb3 : (m 0x2005).getLsbD 3 = false) (wo : Option U16) (i1 : I)
    (hout : v.out (word r.a 10) r.a (t + BitVec.ofNat w 105) i = ((none, wo), i1))
    (hn1 : ∀ t', v.irq t' i1 = (false, i1)) : ∃ r' f,
    Reach o v ⟨r, m, i, t⟩ ⟨r', put (push m r.sp (r.pc + 1)) 0x2005 (m 0x2005 ||| 8), i1, t + BitVec.ofNat w (142 + waits wo)⟩ ∧
    f.z = true ∧
    Alike { r with a := r.a, f := f, h' := 0x20, l' := 5, pc := r.pc + 1, iff1 := true, iff2 := true, ei := false } r' := by
  obtain ⟨s, g⟩ := send_in (o := o) r m i t hm h2 hh hs hop hn
  have hm1 := rom_push hm (r.pc + 1) hs
  have k1 := hs 1 (by omega) (by omega)
  have k2 := hs 2 (by omega) (by omega)
  have q1 := push_hi m r.sp (r.pc + 1)
  have q2 := push_lo m r.sp (r.pc + 1)
  have q5 : push m r.sp (r.pc + 1) 0x2005 = m 0x2005 := push_low _ _ hs (by decide)
  generalize push m r.sp (r.pc + 1) = M at hm1 g q1 q2 q5 ⊢
  generalize hx : ({ swap r r.h r.l with iff2 := false } : Regs) = x at g
  obtain ⟨s1, f, fz, fc, e1⟩ := bitM (o := o) (v := v) 2 0x56 (by decide +kernel) x (Cfg.mk r.a r.f 0x20 5 (r.sp - 2) 0x179 M 39)
    (opc hm1) (opc hm1) s i t
  have w5 : word (0x20 : U8) (5 : U8) = 0x2005 := by decide
  simp only [w5, q5, show (0x179 : U16) + 2 = 0x17B by decide, Nat.reduceAdd] at fz fc e1
  rw [show (m 0x2005).toNat.testBit 2 = false from hb] at fz
  obtain ⟨s2, g2⟩ := jrNzNot (o := o) (v := v) x (Cfg.mk r.a f 0x20 5 (r.sp - 2) 0x17B M 51) (opc hm1) (by simp only [fz]; decide) s1 i t
  simp only [show (0x17B : U16) + 1 + 1 = 0x17D by decide, Nat.reduceAdd] at g2
  obtain ⟨s3, f2, fz2, fc2, e3⟩ := bitM (o := o) (v := v) 3 0x5E (by decide +kernel) x (Cfg.mk r.a f 0x20 5 (r.sp - 2) 0x17D M 58)
    (opc hm1) (opc hm1) s2 i t
  simp only [w5, q5, show (0x17D : U16) + 2 = 0x17F by decide, Nat.reduceAdd] at fz2 fc2 e3
  rw [show (m 0x2005).toNat.testBit 3 = false from hb3] at fz2
  have hm2 : Rom (put M 0x2005 (m 0x2005 ||| 8)) := rom_put hm1 _ (by decide)
  have g4 : Goes o v x (Cfg.mk r.a f2 0x20 5 (r.sp - 2) 0x17F M 70)
      (Cfg.mk r.a f2 0x20 5 (r.sp - 2) 0x191 (put M 0x2005 (m 0x2005 ||| 8)) 97) := by
    refine Goes.trans (jrZ _ _ 0x18F 0x0E (opc hm1) (opc hm1) (by dsimp only; decide +kernel) (by simp only [fz2]; rfl)) ?_
    refine Goes.trans (setM 3 0xDE (by decide +kernel) _ _ (opc hm1) (opc hm1)) ?_
    simp only [w5, q5, (set8_high _).2]
    exact Goes.refl _ _
  obtain ⟨s4, g4⟩ := g4 s3 i t
  obtain ⟨s5, e5⟩ := outA (o := o) (v := v) x (Cfg.mk r.a f2 0x20 5 (r.sp - 2) 0x191 (put M 0x2005 (m 0x2005 ||| 8)) 97) 10
    (opc hm2) (opc hm2) s4 i i1 t wo hout
  simp only [show (0x191 : U16) + 2 = 0x193 by decide, Nat.reduceAdd] at e5
  obtain ⟨s6, g6⟩ := jr (o := o) (v := v) x (Cfg.mk r.a f2 0x20 5 (r.sp - 2) 0x193 (put M 0x2005 (m 0x2005 ||| 8)) (108 + waits wo)) 0x185 0xF0
    (opc hm2) (opc hm2) (by dsimp only; decide +kernel) s5 i1 t
  obtain ⟨f3, fz3, g7⟩ := cpA (o := o) (v := v) x (Cfg.mk r.a f2 0x20 5 (r.sp - 2) 0x185 (put M 0x2005 (m 0x2005 ||| 8)) (108 + waits wo + 12)) (opc hm2)
  obtain ⟨s7, g7⟩ := g7 s6 i1 t
  obtain ⟨s8, g8⟩ := send_out (o := o) (v := v) x _ hm2 r.a f3 0x20 5 (r.sp - 2) (108 + waits wo + 12 + 4) s7 i1 t hn1
  rw [put_other _ _ (by bv_omega), put_other _ _ (by bv_omega), q1, q2, word_hi8_lo8,
    show 108 + waits wo + 12 + 4 + 18 = 142 + waits wo by omega] at g8
  refine ⟨_, f3, g.trans (.step e1 (g2.trans (.step e3 (g4.trans (.step e5 (g6.trans (g7.trans g8))))))), fz3, ?_⟩
  subst hx
  exact call_alike r h2 hh _ _ 0x20 5 _ _ _ _ s8 (by bv_omega)

end Z80.Kernel
