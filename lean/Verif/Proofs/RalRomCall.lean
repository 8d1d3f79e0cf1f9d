import Verif.Proofs.RalRomOutput

/-!
# The call that fetches a character
-/

set_option linter.unusedVariables false
set_option linter.unusedSimpArgs false

namespace Z80.Kernel
open Spec Spec.RalRom
open Routine (put push put_same put_other push_eq)
variable {w : Nat} {O R I : Type} {o : Opt} {v : Env w O R I}

/-- Registers of a program that calls the system; `e` says if interrupts are enabled, `b` if EI was the last
instruction. -/
def Cfg.any (c : Cfg) (x : Regs) (s : Hid) (e b : Bool) : Regs := { c.regs x s with iff1 := e, ei := b }

/-- A step with no interrupt requested. -/
theorem any_step (c : Cfg) (x : Regs) (s : Hid) (e b : Bool) (i : I) (t : BitVec w) (hn : v.irq t i = (false, i)) :
    step o v ⟨c.any x s e b, c.mem, i, t⟩ = execOp o v (c.mem c.pc) (fetch ⟨c.any x s e b, c.mem, i, t⟩) := by
  cases e
  · rfl
  · cases b
    · have e : step o v ⟨c.any x s true false, c.mem, i, t⟩ = if (v.irq t i).1 then interrupt o v ⟨c.any x s true false, c.mem, (v.irq t i).2, t⟩
        else execOp o v (c.mem c.pc) (fetch ⟨c.any x s true false, c.mem, (v.irq t i).2, t⟩) := rfl
      rw [e, hn, if_neg Bool.false_ne_true]
    · rfl

/-- The other set of registers, HL excepted. -/
def swap (x : Regs) (h l : U8) : Regs :=
  { x with b := x.b', c := x.c', d := x.d', e := x.e', b' := x.b, c' := x.c, d' := x.d, e' := x.e, h' := h, l' := l }

theorem split_t (t : BitVec w) (a b : Nat) : t + BitVec.ofNat w (a + b) = t + BitVec.ofNat w a + BitVec.ofNat w b := by
  rw [BitVec.add_assoc, ← BitVec.ofNat_add]

attribute [local semireducible] put push in
theorem rst08_any (x : Regs) (c : Cfg) (hc : c.mem c.pc = 0xCF) (s : Hid) (e b : Bool) (i : I) (t : BitVec w)
    (hn : v.irq t i = (false, i)) : ∃ s' : Hid, step o v ⟨c.any x s e b, c.mem, i, t⟩ =
      (⟨{ c with sp := c.sp - 2, pc := 8 }.any x s' e false, push c.mem c.sp (c.pc + 1), i, t + BitVec.ofNat w (4 + 7)⟩, .ok) := by
  rw [any_step c x s e b i t hn, hc, split_t]
  exact ⟨⟨_, _, _⟩, rfl⟩

theorem exx_any (x : Regs) (c : Cfg) (hc : c.mem c.pc = 0xD9) (s : Hid) (e b : Bool) (i : I) (t : BitVec w)
    (hn : v.irq t i = (false, i)) : ∃ s' : Hid, step o v ⟨c.any x s e b, c.mem, i, t⟩ =
      (⟨{ c with h := x.h', l := x.l', pc := c.pc + 1 }.any (swap x c.h c.l) s' e false, c.mem, i, t + BitVec.ofNat w (4 + 0)⟩, .ok) := by
  rw [any_step c x s e b i t hn, hc, split_t]
  exact ⟨⟨_, _, _⟩, rfl⟩

theorem ldHl_any (x : Regs) (c : Cfg) (hc : c.mem c.pc = 0x21) (s : Hid) (e b : Bool) (i : I) (t : BitVec w)
    (hn : v.irq t i = (false, i)) : ∃ s' : Hid, step o v ⟨c.any x s e b, c.mem, i, t⟩ =
      (⟨{ c with h := hi8 (word (c.mem (c.pc + 1 + 1)) (c.mem (c.pc + 1))), l := lo8 (word (c.mem (c.pc + 1 + 1)) (c.mem (c.pc + 1))), pc := c.pc + 1 + 2 }.any x s' e false, c.mem, i,
        t + BitVec.ofNat w (4 + 6)⟩, .ok) := by
  rw [any_step c x s e b i t hn, hc, split_t]
  exact ⟨⟨_, _, _⟩, rfl⟩

theorem jp_any (x : Regs) (c : Cfg) (hc : c.mem c.pc = 0xC3) (s : Hid) (e b : Bool) (i : I) (t : BitVec w)
    (hn : v.irq t i = (false, i)) : ∃ s' : Hid, step o v ⟨c.any x s e b, c.mem, i, t⟩ =
      (⟨{ c with pc := word (c.mem (c.pc + 1 + 1)) (c.mem (c.pc + 1)) }.any x s' e false, c.mem, i,
        t + BitVec.ofNat w (4 + 6)⟩, .ok) := by
  rw [any_step c x s e b i t hn, hc, split_t]
  exact ⟨⟨_, _, _⟩, rfl⟩

theorem di_any (x : Regs) (c : Cfg) (hc : c.mem c.pc = 0xF3) (s : Hid) (e b : Bool) (i : I) (t : BitVec w)
    (hn : v.irq t i = (false, i)) : ∃ s' : Hid, step o v ⟨c.any x s e b, c.mem, i, t⟩ =
      (⟨{ c with pc := c.pc + 1 }.regs { x with iff2 := false } s', c.mem, i, t + BitVec.ofNat w (4 + 0)⟩, .ok) := by
  rw [any_step c x s e b i t hn, hc, split_t]
  exact ⟨⟨_, _, _⟩, rfl⟩

theorem exx_open (x : Regs) (c : Cfg) (hc : c.mem c.pc = 0xD9) (s : Hid) (i : I) (t : BitVec w) : ∃ s' : Hid,
    step o v ⟨c.open x s true, c.mem, i, t⟩ =
      (⟨{ c with h := x.h', l := x.l', pc := c.pc + 1 }.open (swap x c.h c.l) s' false, c.mem, i, t + BitVec.ofNat w (4 + 0)⟩, .ok) := by
  rw [open_step c x s true i t (.inl rfl), hc, split_t]
  exact ⟨⟨_, _, _⟩, rfl⟩

theorem ret_open (x : Regs) (c : Cfg) (hc : c.mem c.pc = 0xC9) (s : Hid) (i : I) (t : BitVec w)
    (hn : v.irq t i = (false, i)) : ∃ s' : Hid,
    step o v ⟨c.open x s false, c.mem, i, t⟩ =
      (⟨{ c with pc := word (c.mem (c.sp + 1)) (c.mem c.sp), sp := c.sp + 2 }.open x s' false, c.mem, i,
        t + BitVec.ofNat w (4 + 6)⟩, .ok) := by
  rw [open_step c x s false i t (.inr hn), hc, split_t]
  exact ⟨⟨_, _, _⟩, rfl⟩

attribute [local semireducible] put push in
/-- BIT n,(HL); zero and carry. -/
theorem bitM (n : Nat) (op : U8) (hop : decodeCb op = .bit n .m) (x : Regs) (c : Cfg) (hc : c.mem c.pc = 0xCB)
    (h1 : c.mem (c.pc + 1) = op) (s : Hid) (i : I) (t : BitVec w) :
    ∃ (s' : Hid) (f : Fl), f.z = (!(c.mem (word c.h c.l)).toNat.testBit n) ∧ f.c = c.f.c ∧
    step o v (c.mach x s i t) = ({ c with f := f, pc := c.pc + 2, t := c.t + 12 }.mach x s' i t, .ok) := by
  subst h1
  have e : step o v (c.mach x s i t) = execOp o v (c.mem c.pc)
    (fetch ⟨c.regs x s, c.mem, i, t + BitVec.ofNat w c.t⟩) := rfl
  have e' : execOp o v 0xCB (fetch ⟨c.regs x s, c.mem, i, t + BitVec.ofNat w c.t⟩) =
      (let s : Mach w I := (fetch ⟨c.regs x s, c.mem, i, t + BitVec.ofNat w c.t⟩).upd
        fun r => { r with ei := false, halted := false }
      Eff.finish (O := O) (R := R) (done (execCb (decodeCb (c.mem (c.pc + 1))) ((s.skip 1).upd Regs.bumpR)))
        (fCb (decodeCb (c.mem (c.pc + 1)))) (tCb (decodeCb (c.mem (c.pc + 1))) - 4)) := rfl
  have ht : t + BitVec.ofNat w (c.t + 12) = t + BitVec.ofNat w c.t + BitVec.ofNat w 4 + BitVec.ofNat w 8 := by
    rw [BitVec.add_assoc, BitVec.add_assoc, ← BitVec.ofNat_add, ← BitVec.ofNat_add]
  rw [e, hc, e', hop]
  simp only [Cfg.mach, ht]
  rw [show c.pc + 2 = c.pc + 1 + 1 by bv_omega]
  refine ⟨⟨_, _, _⟩, _, ?_, ?_, rfl⟩ <;> rfl

theorem jrNc (x : Regs) (c : Cfg) (a : U16) (d : U8) (hc : c.mem c.pc = 0x30)
    (h1 : c.mem (c.pc + 1) = d) (ha : c.pc + 1 + 1 + disp d = a) (hb : (!c.f.c) = true) : Goes o v x c
    { c with pc := a, t := c.t + 12 } := by
  subst h1 ha
  exact Goes.of 0x30 8 hc (fun s i t => ⟨⟨_, _, _⟩,
    (congrArg (fun e => Eff.finish e false (t0 (.jrCc .nc) e.2.1 - 4)) (if_pos hb)).trans rfl⟩) rfl

theorem orH (x : Regs) (c : Cfg) (hc : c.mem c.pc = 0xB4) : Goes o v x c
    { c with a := (or8 c.a c.h).1, f := (or8 c.a c.h).2, pc := c.pc + 1, t := c.t + 4 } :=
  Goes.of 0xB4 0 hc (fun s i t => ⟨⟨_, _, _⟩, rfl⟩) rfl

theorem or8_z : ∀ y : U8, (or8 y 0x20).2.z = false := by decide +kernel

/-- RST 08h up to DI. -/
theorem call_in (r : Regs) (m : U16 → U8) (i : I) (t : BitVec w) (hm : Rom m) (h2 : r.idx = .hl)
    (hh : r.halted = false) (hs : Room r.sp 2) (hop : m r.pc = 0xCF) (hn : ∀ t', v.irq t' i = (false, i)) : ∃ s,
    Reach o v ⟨r, m, i, t⟩ ((Cfg.mk r.a r.f 0x20 5 (r.sp - 2) 0x13F (push m r.sp (r.pc + 1)) 39).mach
      { swap r r.h r.l with iff2 := false } s i t) := by
  have e : r = (Cfg.mk r.a r.f r.h r.l r.sp r.pc m 0).any r ⟨r.wz, r.r, r.q⟩ r.iff1 r.ei := by
    simp only [Cfg.any, Cfg.regs]
    obtain ⟨a, f, b, c, d, ee, h, l, a', f', b', c', d', e', h', l', ixh, ixl, iyh, iyl, sp, pc, wz, ir, rr, iff1, iff2,
      im, halted, eii, idx, q⟩ := r
    simp only at h2 hh
    subst h2 hh
    rfl
  have hm1 := rom_push hm (r.pc + 1) hs
  obtain ⟨s1, e1⟩ := rst08_any (o := o) (v := v) r (Cfg.mk r.a r.f r.h r.l r.sp r.pc m 0) hop ⟨r.wz, r.r, r.q⟩ r.iff1 r.ei i t (hn _)
  rw [← e] at e1
  generalize push m r.sp (r.pc + 1) = M at hm1 e1 ⊢
  obtain ⟨s2, e2⟩ := exx_any (o := o) (v := v) r (Cfg.mk r.a r.f r.h r.l (r.sp - 2) 8 M 0) (opc hm1) s1 r.iff1 false i
    (t + BitVec.ofNat w (4 + 7)) (hn _)
  obtain ⟨s3, e3⟩ := ldHl_any (o := o) (v := v) (swap r r.h r.l) (Cfg.mk r.a r.f r.h' r.l' (r.sp - 2) 9 M 0) (opc hm1) s2 r.iff1 false i
    (t + BitVec.ofNat w (4 + 7) + BitVec.ofNat w (4 + 0)) (hn _)
  simp only [show (9 : U16) + 1 = 10 by decide, show (10 : U16) + 1 = 11 by decide, show (10 : U16) + 2 = 12 by decide,
    hm1.at_code 11 0x20 (by decide +kernel), hm1.at_code 10 5 (by decide +kernel), hi8_word, lo8_word] at e3
  obtain ⟨s4, e4⟩ := jp_any (o := o) (v := v) (swap r r.h r.l) (Cfg.mk r.a r.f 0x20 5 (r.sp - 2) 12 M 0) (opc hm1) s3 r.iff1 false i
    (t + BitVec.ofNat w (4 + 7) + BitVec.ofNat w (4 + 0) + BitVec.ofNat w (4 + 6)) (hn _)
  simp only [show (12 : U16) + 1 = 13 by decide, show (13 : U16) + 1 = 14 by decide,
    hm1.at_code 14 1 (by decide +kernel), hm1.at_code 13 0x3E (by decide +kernel), show word (1 : U8) 0x3E = 0x13E by decide] at e4
  obtain ⟨s5, e5⟩ := di_any (o := o) (v := v) (swap r r.h r.l) (Cfg.mk r.a r.f 0x20 5 (r.sp - 2) 0x13E M 0) (opc hm1) s4 r.iff1 false i
    (t + BitVec.ofNat w (4 + 7) + BitVec.ofNat w (4 + 0) + BitVec.ofNat w (4 + 6) + BitVec.ofNat w (4 + 6)) (hn _)
  refine ⟨s5, .step e1 (.step e2 (.step e3 (.step e4 (.step (e5.trans ?_) (.refl _)))))⟩
  simp only [← split_t]
  rfl

/-- EI; EXX; RET. -/
theorem call_out (x : Regs) (m : U16 → U8) (hm : Rom m) (a : U8) (f : Fl) (h l : U8) (sp : U16) (k : Nat) (s : Hid) (i : I)
    (t : BitVec w) (hn : ∀ t', v.irq t' i = (false, i)) : ∃ s' : Hid,
    Reach o v ((Cfg.mk a f h l sp 0x14C m k).mach x s i t)
      ⟨(Cfg.mk a f x.h' x.l' (sp + 2) (word (m (sp + 1)) (m sp)) m k).open (swap x h l) s' false, m, i,
        t + BitVec.ofNat w (k + 18)⟩ := by
  obtain ⟨s1, e1⟩ := ei_open (o := o) (v := v) x (Cfg.mk a f h l sp 0x14C m k) (opc hm) s i t
  obtain ⟨s2, e2⟩ := exx_open (o := o) (v := v) x (Cfg.mk a f h l sp (0x14C + 1) m k) (opc hm) s1 i (t + BitVec.ofNat w (k + 4))
  obtain ⟨s3, e3⟩ := ret_open (o := o) (v := v) (swap x h l) (Cfg.mk a f x.h' x.l' sp (0x14C + 1 + 1) m k) (opc hm) s2 i
    (t + BitVec.ofNat w (k + 4) + BitVec.ofNat w (4 + 0)) (hn _)
  refine ⟨s3, .step e1 (.step e2 (.step (e3.trans ?_) (.refl _)))⟩
  simp only [← split_t]

/-- The registers at the end. -/
theorem call_alike (r : Regs) (h2 : r.idx = .hl) (hh : r.halted = false) (a : U8) (f : Fl) (h l : U8) (sp pc : U16)
    (m : U16 → U8) (k : Nat) (s : Hid) (hsp : sp = r.sp) : Alike
      { r with a := a, f := f, h' := h, l' := l, pc := pc, iff1 := true, iff2 := true, ei := false }
      ((Cfg.mk a f r.h r.l sp pc m k).open (swap { swap r r.h r.l with iff2 := false } h l) s false) := by
  subst hsp
  refine ⟨s.wz, s.r, s.q, ?_⟩
  simp only [Cfg.open, Cfg.regs, swap, h2, hh]

/-- No character, and the caller does not wait. -/
theorem call_none (r : Regs) (m : U16 → U8) (i : I) (t : BitVec w) (hm : Rom m) (h2 : r.idx = .hl)
    (hh : r.halted = false) (hs : Room r.sp 2) (hop : m r.pc = 0xCF) (hn : ∀ t', v.irq t' i = (false, i))
    (hb : (m 0x2005).getLsbD 1 = false) (hc : r.f.c = false) : ∃ r' f,
    Reach o v ⟨r, m, i, t⟩ ⟨r', push m r.sp (r.pc + 1), i, t + BitVec.ofNat w 93⟩ ∧ f.z = true ∧
    Alike { r with f := f, h' := 0x20, l' := 5, pc := r.pc + 1, iff1 := true, iff2 := true, ei := false } r' := by
  obtain ⟨s, g⟩ := call_in (o := o) r m i t hm h2 hh hs hop hn
  have hm1 := rom_push hm (r.pc + 1) hs
  have q1 := push_hi m r.sp (r.pc + 1)
  have q2 := push_lo m r.sp (r.pc + 1)
  have q5 : push m r.sp (r.pc + 1) 0x2005 = m 0x2005 := push_low _ _ hs (by decide)
  generalize push m r.sp (r.pc + 1) = M at hm1 g q1 q2 q5 ⊢
  generalize hx : ({ swap r r.h r.l with iff2 := false } : Regs) = x at g
  obtain ⟨s1, f, fz, fc, e1⟩ := bitM (o := o) (v := v) 1 0x4E (by decide +kernel) x (Cfg.mk r.a r.f 0x20 5 (r.sp - 2) 0x13F M 39)
    (opc hm1) (opc hm1) s i t
  have w5 : word (0x20 : U8) (5 : U8) = 0x2005 := by decide
  simp only [w5, q5, show (0x13F : U16) + 2 = 0x141 by decide, Nat.reduceAdd] at fz fc e1
  rw [show (m 0x2005).toNat.testBit 1 = false from hb] at fz
  rw [hc] at fc
  have g2 : Goes o v x (Cfg.mk r.a f 0x20 5 (r.sp - 2) 0x141 M 51) (Cfg.mk r.a f 0x20 5 (r.sp - 2) 0x14C M 75) := by
    refine Goes.trans (jrZ _ _ 0x14F 0x0C (opc hm1) (opc hm1) (by dsimp only; decide +kernel) (by simp only [fz]; rfl)) ?_
    refine Goes.trans (jrNc _ _ 0x14C 0xFB (opc hm1) (opc hm1) (by dsimp only; decide +kernel) (by simp only [fc]; rfl)) ?_
    exact Goes.refl _ _
  obtain ⟨s2, g2⟩ := g2 s1 i t
  obtain ⟨s3, g3⟩ := call_out (o := o) (v := v) x M hm1 r.a f 0x20 5 (r.sp - 2) 75 s2 i t hn
  rw [q1, q2, word_hi8_lo8] at g3
  refine ⟨_, f, g.trans (.step e1 (g2.trans g3)), fz, ?_⟩
  subst hx
  exact call_alike r h2 hh r.a f 0x20 5 _ _ M 75 s3 (by bv_omega)

theorem res8_low : ∀ y : U8, res8 1 y = y &&& 0xFD ∧ res8 0 y = y &&& 0xFE := by decide +kernel

/-- A character in the buffer and none in the device. -/
theorem call_char (r : Regs) (m : U16 → U8) (i : I) (t : BitVec w) (hm : Rom m) (h2 : r.idx = .hl)
    (hh : r.halted = false) (hs : Room r.sp 2) (hop : m r.pc = 0xCF) (hn : ∀ t', v.irq t' i = (false, i))
    (hb : (m 0x2005).getLsbD 1 = true) (hb0 : (m 0x2005).getLsbD 0 = false) : ∃ r' f,
    Reach o v ⟨r, m, i, t⟩ ⟨r', put (push m r.sp (r.pc + 1)) 0x2005 (m 0x2005 &&& 0xFD), i, t + BitVec.ofNat w 127⟩ ∧
    f.z = false ∧
    Alike { r with a := m 0x2004, f := f, h' := 0x20, l' := 4, pc := r.pc + 1, iff1 := true, iff2 := true, ei := false } r' := by
  obtain ⟨s, g⟩ := call_in (o := o) r m i t hm h2 hh hs hop hn
  have hm1 := rom_push hm (r.pc + 1) hs
  have k1 := hs 1 (by omega) (by omega)
  have k2 := hs 2 (by omega) (by omega)
  have q1 := push_hi m r.sp (r.pc + 1)
  have q2 := push_lo m r.sp (r.pc + 1)
  have q5 : push m r.sp (r.pc + 1) 0x2005 = m 0x2005 := push_low _ _ hs (by decide)
  have q4 : push m r.sp (r.pc + 1) 0x2004 = m 0x2004 := push_low _ _ hs (by decide)
  generalize push m r.sp (r.pc + 1) = M at hm1 g q1 q2 q5 q4 ⊢
  generalize hx : ({ swap r r.h r.l with iff2 := false } : Regs) = x at g
  obtain ⟨s1, f, fz, fc, e1⟩ := bitM (o := o) (v := v) 1 0x4E (by decide +kernel) x (Cfg.mk r.a r.f 0x20 5 (r.sp - 2) 0x13F M 39)
    (opc hm1) (opc hm1) s i t
  have w5 : word (0x20 : U8) (5 : U8) = 0x2005 := by decide
  have w4 : word (0x20 : U8) (4 : U8) = 0x2004 := by decide
  have d4 : hi8 (0x2005 - 1 : U16) = 0x20 ∧ lo8 (0x2005 - 1 : U16) = 4 := by decide
  simp only [w5, q5, show (0x13F : U16) + 2 = 0x141 by decide, Nat.reduceAdd] at fz fc e1
  rw [show (m 0x2005).toNat.testBit 1 = true from hb] at fz
  obtain ⟨s2, g2⟩ := jrZNot (o := o) (v := v) x (Cfg.mk r.a f 0x20 5 (r.sp - 2) 0x141 M 51) (opc hm1) (by simp only [fz]; decide) s1 i t
  simp only [show (0x141 : U16) + 1 + 1 = 0x143 by decide, Nat.reduceAdd] at g2
  obtain ⟨s3, f2, fz2, fc2, e3⟩ := bitM (o := o) (v := v) 0 0x46 (by decide +kernel) x (Cfg.mk r.a f 0x20 5 (r.sp - 2) 0x143 M 58)
    (opc hm1) (opc hm1) s2 i t
  simp only [w5, q5, show (0x143 : U16) + 2 = 0x145 by decide, Nat.reduceAdd] at fz2 fc2 e3
  rw [show (m 0x2005).toNat.testBit 0 = false from hb0] at fz2
  have hm2 : Rom (put M 0x2005 (m 0x2005 &&& 0xFD)) := rom_put hm1 _ (by decide)
  have p4 : put M 0x2005 (m 0x2005 &&& 0xFD) 0x2004 = m 0x2004 := by rw [put_other _ _ (by decide), q4]
  have g4 : Goes o v x (Cfg.mk r.a f2 0x20 5 (r.sp - 2) 0x145 M 70)
      (Cfg.mk (m 0x2004) (or8 r.a 0x20).2 0x20 4 (r.sp - 2) 0x14C (put M 0x2005 (m 0x2005 &&& 0xFD)) 109) := by
    refine Goes.trans (jrNzNot _ _ (opc hm1) (by simp only [fz2]; decide)) ?_
    refine Goes.trans (resM 1 0x8E (by decide +kernel) _ _ (opc hm1) (opc hm1)) ?_
    simp only [w5, q5, (res8_low _).1]
    refine Goes.trans (decHl _ _ (opc hm2)) ?_
    simp only [w5, d4.1, d4.2]
    refine Goes.trans (orH _ _ (opc hm2)) ?_
    refine Goes.trans (ldAM _ _ (opc hm2)) ?_
    simp only [w4, p4]
    exact Goes.refl _ _
  obtain ⟨s4, g4⟩ := g4 s3 i t
  obtain ⟨s5, g5⟩ := call_out (o := o) (v := v) x _ hm2 (m 0x2004) (or8 r.a 0x20).2 0x20 4 (r.sp - 2) 109 s4 i t hn
  rw [put_other _ _ (by bv_omega), put_other _ _ (by bv_omega), q1, q2, word_hi8_lo8] at g5
  refine ⟨_, _, g.trans (.step e1 (g2.trans (.step e3 (g4.trans g5)))), or8_z r.a, ?_⟩
  subst hx
  exact call_alike r h2 hh _ _ 0x20 4 _ _ _ 109 s5 (by bv_omega)

/-- A character in the buffer and another one in the device. -/
theorem call_next (r : Regs) (m : U16 → U8) (i : I) (t : BitVec w) (hm : Rom m) (h2 : r.idx = .hl)
    (hh : r.halted = false) (hs : Room r.sp 4) (hop : m r.pc = 0xCF) (hn : ∀ t', v.irq t' i = (false, i))
    (hb : (m 0x2005).getLsbD 1 = true) (hb0 : (m 0x2005).getLsbD 0 = true) (y : U8) (wi : Option U16) (i3 : I)
    (hin : v.inp (word (m 0x2004) 8) (t + BitVec.ofNat w 129) i = ((y, wi), i3))
    (hn3 : ∀ t', v.irq t' i3 = (false, i3)) : ∃ r' f x,
    Reach o v ⟨r, m, i, t⟩ ⟨r', put (push (put (push m r.sp (r.pc + 1)) 0x2005 (m 0x2005 &&& 0xFE)) (r.sp - 2) x) 0x2004 y,
      i3, t + BitVec.ofNat w (179 + waits wi)⟩ ∧
    f.z = false ∧
    Alike { r with a := m 0x2004, f := f, h' := 0x20, l' := 4, pc := r.pc + 1, iff1 := true, iff2 := true, ei := false } r' := by
  have s2' : Room r.sp 2 := room_less hs (by omega)
  have s4' : Room (r.sp - 2) 2 := room_sub hs
  obtain ⟨s, g⟩ := call_in (o := o) r m i t hm h2 hh s2' hop hn
  have hm1 := rom_push hm (r.pc + 1) s2'
  have k1 := hs 1 (by omega) (by omega)
  have k2 := hs 2 (by omega) (by omega)
  have k3 := hs 3 (by omega) (by omega)
  have k4 := hs 4 (by omega) (by omega)
  have q1 := push_hi m r.sp (r.pc + 1)
  have q2 := push_lo m r.sp (r.pc + 1)
  have q5 : push m r.sp (r.pc + 1) 0x2005 = m 0x2005 := push_low _ _ s2' (by decide)
  have q4 : push m r.sp (r.pc + 1) 0x2004 = m 0x2004 := push_low _ _ s2' (by decide)
  generalize push m r.sp (r.pc + 1) = M at hm1 g q1 q2 q5 q4 ⊢
  generalize hx : ({ swap r r.h r.l with iff2 := false } : Regs) = x at g
  obtain ⟨s1, f, fz, fc, e1⟩ := bitM (o := o) (v := v) 1 0x4E (by decide +kernel) x (Cfg.mk r.a r.f 0x20 5 (r.sp - 2) 0x13F M 39)
    (opc hm1) (opc hm1) s i t
  have w5 : word (0x20 : U8) (5 : U8) = 0x2005 := by decide
  have w4 : word (0x20 : U8) (4 : U8) = 0x2004 := by decide
  have d4 : hi8 (0x2005 - 1 : U16) = 0x20 ∧ lo8 (0x2005 - 1 : U16) = 4 := by decide
  simp only [w5, q5, show (0x13F : U16) + 2 = 0x141 by decide, Nat.reduceAdd] at fz fc e1
  rw [show (m 0x2005).toNat.testBit 1 = true from hb] at fz
  obtain ⟨s2, g2⟩ := jrZNot (o := o) (v := v) x (Cfg.mk r.a f 0x20 5 (r.sp - 2) 0x141 M 51) (opc hm1) (by simp only [fz]; decide) s1 i t
  simp only [show (0x141 : U16) + 1 + 1 = 0x143 by decide, Nat.reduceAdd] at g2
  obtain ⟨s3, f2, fz2, fc2, e3⟩ := bitM (o := o) (v := v) 0 0x46 (by decide +kernel) x (Cfg.mk r.a f 0x20 5 (r.sp - 2) 0x143 M 58)
    (opc hm1) (opc hm1) s2 i t
  simp only [w5, q5, show (0x143 : U16) + 2 = 0x145 by decide, Nat.reduceAdd] at fz2 fc2 e3
  rw [show (m 0x2005).toNat.testBit 0 = true from hb0] at fz2
  have hm2 : Rom (put M 0x2005 (m 0x2005 &&& 0xFE)) := rom_put hm1 _ (by decide)
  have p4 : put M 0x2005 (m 0x2005 &&& 0xFE) 0x2004 = m 0x2004 := by rw [put_other _ _ (by decide), q4]
  have p1 : put M 0x2005 (m 0x2005 &&& 0xFE) (r.sp - 2 + 1) = hi8 (r.pc + 1) := by rw [put_other _ _ (by bv_omega), q1]
  have p2 : put M 0x2005 (m 0x2005 &&& 0xFE) (r.sp - 2) = lo8 (r.pc + 1) := by rw [put_other _ _ (by bv_omega), q2]
  have g4 : Goes o v x (Cfg.mk r.a f2 0x20 5 (r.sp - 2) 0x145 M 70)
      (Cfg.mk (m 0x2004) f2 0x20 4 (r.sp - 2 - 2) 0x15A
        (push (put M 0x2005 (m 0x2005 &&& 0xFE)) (r.sp - 2) (word (m 0x2004) f2.byte)) 121) := by
    refine Goes.trans (jrNz _ _ 0x155 0x0E (opc hm1) (opc hm1) (by dsimp only; decide +kernel) (by simp only [fz2]; rfl)) ?_
    refine Goes.trans (resM 0 0x86 (by decide +kernel) _ _ (opc hm1) (opc hm1)) ?_
    simp only [w5, q5, (res8_low _).2]
    refine Goes.trans (decHl _ _ (opc hm2)) ?_
    simp only [w5, d4.1, d4.2]
    refine Goes.trans (ldAM _ _ (opc hm2)) ?_
    simp only [w4, p4]
    refine Goes.trans (pushAf _ _ (opc hm2)) ?_
    exact Goes.refl _ _
  obtain ⟨s4, g4⟩ := g4 s3 i t
  have hm3 := rom_push hm2 (word (m 0x2004) f2.byte) s4'
  have l1 : push (put M 0x2005 (m 0x2005 &&& 0xFE)) (r.sp - 2) (word (m 0x2004) f2.byte) (r.sp - 2 + 1) = hi8 (r.pc + 1) := by
    rw [push_at _ _ (by bv_omega) (by bv_omega), p1]
  have l2 : push (put M 0x2005 (m 0x2005 &&& 0xFE)) (r.sp - 2) (word (m 0x2004) f2.byte) (r.sp - 2) = lo8 (r.pc + 1) := by
    rw [push_at _ _ (by bv_omega) (by bv_omega), p2]
  have l3 := push_hi (put M 0x2005 (m 0x2005 &&& 0xFE)) (r.sp - 2) (word (m 0x2004) f2.byte)
  have l4 := push_lo (put M 0x2005 (m 0x2005 &&& 0xFE)) (r.sp - 2) (word (m 0x2004) f2.byte)
  generalize hN : push (put M 0x2005 (m 0x2005 &&& 0xFE)) (r.sp - 2) (word (m 0x2004) f2.byte) = N at g4 hm3 l1 l2 l3 l4
  have hm4 : Rom (put N 0x2004 y) := rom_put hm3 _ (by decide)
  obtain ⟨s5, e5⟩ := inA (o := o) (v := v) x (Cfg.mk (m 0x2004) f2 0x20 4 (r.sp - 2 - 2) 0x15A N 121) 8 (opc hm3) (opc hm3) s4 i t
  simp only [Nat.reduceAdd] at e5
  rw [hin] at e5
  simp only [show (0x15A : U16) + 2 = 0x15C by decide] at e5
  have g6 : Goes o v x (Cfg.mk y f2 0x20 4 (r.sp - 2 - 2) 0x15C N (132 + waits wi))
      (Cfg.mk (m 0x2004) f2 0x20 4 (r.sp - 2) 0x14C (put N 0x2004 y) (132 + waits wi + 7 + 10 + 12)) := by
    refine Goes.trans (ldMA _ _ (opc hm3)) ?_
    simp only [w4]
    refine Goes.trans (popAf _ _ (opc hm4)) ?_
    simp only
    rw [put_other _ _ (by bv_omega), put_other _ _ (by bv_omega), l3, l4, word_hi8_lo8, hi8_word, lo8_word, of_byte,
      show r.sp - 2 - 2 + 2 = r.sp - 2 by bv_omega]
    refine Goes.trans (jr _ _ 0x14C 0xEC (opc hm4) (opc hm4) (by dsimp only; decide +kernel)) ?_
    exact Goes.refl _ _
  obtain ⟨s6, g6⟩ := g6 s5 i3 t
  obtain ⟨s7, g7⟩ := call_out (o := o) (v := v) x _ hm4 (m 0x2004) f2 0x20 4 (r.sp - 2) (132 + waits wi + 7 + 10 + 12) s6 i3 t hn3
  rw [put_other _ _ (by bv_omega), put_other _ _ (by bv_omega), l1, l2, word_hi8_lo8,
    show 132 + waits wi + 7 + 10 + 12 + 18 = 179 + waits wi by omega] at g7
  have G := g.trans (.step e1 (g2.trans (.step e3 (g4.trans (.step e5 (g6.trans g7))))))
  rw [← hN] at G
  refine ⟨_, f2, word (m 0x2004) f2.byte, G, fz2, ?_⟩
  subst hx
  exact call_alike r h2 hh _ _ 0x20 4 _ _ _ _ s7 (by bv_omega)

end Z80.Kernel
