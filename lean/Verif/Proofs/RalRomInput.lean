import Verif.Proofs.RalRom

/-!
# The interrupt routine for a character received
-/

set_option linter.unusedVariables false
set_option linter.unusedSimpArgs false

namespace Z80.Kernel
open Spec Spec.RalRom
open Routine (put push put_same put_other push_eq)
variable {w : Nat} {O R I : Type} {o : Opt} {v : Env w O R I}

/-- Registers within a routine with interrupts enabled; `b` says if EI was the last instruction. -/
def Cfg.open (c : Cfg) (x : Regs) (s : Hid) (b : Bool) : Regs :=
  { c.regs x s with iff1 := true, iff2 := true, ei := b }

attribute [local semireducible] put push in
/-- A reset bit is set; SET n,(HL). -/
theorem setM (n : Nat) (op : U8) (hop : decodeCb op = .set n .m) (x : Regs) (c : Cfg) (hc : c.mem c.pc = 0xCB) (h1 : c.mem (c.pc + 1) = op) : Goes o v x c
    { c with mem := put c.mem (word c.h c.l) (set8 n (c.mem (word c.h c.l))), pc := c.pc + 1 + 1, t := c.t + 15 } := by
  subst h1
  refine Goes.of 0xCB 11 hc (fun s i t => ?_) rfl
  have e : execOp o v 0xCB (fetch ⟨c.regs x s, c.mem, i, t⟩) =
      (let s : Mach w I := (fetch ⟨c.regs x s, c.mem, i, t⟩).upd
        fun r => { r with ei := false, halted := false }
      Eff.finish (O := O) (R := R) (done (execCb (decodeCb (c.mem (c.pc + 1))) ((s.skip 1).upd Regs.bumpR))) (fCb (decodeCb (c.mem (c.pc + 1))))
        (tCb (decodeCb (c.mem (c.pc + 1))) - 4)) := rfl
  rw [e, hop]
  exact ⟨⟨_, _, _⟩, rfl⟩

theorem decHl (x : Regs) (c : Cfg) (hc : c.mem c.pc = 0x2B) : Goes o v x c
    { c with h := hi8 (word c.h c.l - 1), l := lo8 (word c.h c.l - 1), pc := c.pc + 1, t := c.t + 6 } :=
  Goes.of 0x2B 2 hc (fun s i t => ⟨⟨_, _, _⟩, rfl⟩) rfl

attribute [local semireducible] put push in
theorem ldMA (x : Regs) (c : Cfg) (hc : c.mem c.pc = 0x77) : Goes o v x c
    { c with mem := put c.mem (word c.h c.l) c.a, pc := c.pc + 1, t := c.t + 7 } :=
  Goes.of 0x77 3 hc (fun s i t => ⟨⟨_, _, _⟩, rfl⟩) rfl

theorem jr (x : Regs) (c : Cfg) (a : U16) (d : U8) (hc : c.mem c.pc = 0x18)
    (h1 : c.mem (c.pc + 1) = d) (ha : c.pc + 1 + 1 + disp d = a) : Goes o v x c { c with pc := a, t := c.t + 12 } := by
  subst h1 ha
  exact Goes.of 0x18 8 hc (fun s i t => ⟨⟨_, _, _⟩, rfl⟩) rfl

/-- IN A,(n). -/
theorem inA (x : Regs) (c : Cfg) (n : U8) (hc : c.mem c.pc = 0xDB) (h1 : c.mem (c.pc + 1) = n) (s : Hid) (i : I)
    (t : BitVec w) : ∃ s' : Hid,
    let p := v.inp (word c.a n) (t + BitVec.ofNat w (c.t + 8)) i
    step o v (c.mach x s i t) =
      ({ c with a := p.1.1, pc := c.pc + 2, t := c.t + 11 + waits p.1.2 }.mach x s' p.2 t, .ok) := by
  subst h1
  have e : step o v (c.mach x s i t) = execOp o v (c.mem c.pc)
    (fetch ⟨c.regs x s, c.mem, i, t + BitVec.ofNat w c.t⟩) := rfl
  have ht : t + BitVec.ofNat w (c.t + 8) = t + BitVec.ofNat w c.t + BitVec.ofNat w 4 + BitVec.ofNat w 4 := by
    rw [BitVec.add_assoc, BitVec.add_assoc, ← BitVec.ofNat_add, ← BitVec.ofNat_add]
  have e2 : execOp o v 0xDB (fetch ⟨c.regs x s, c.mem, i, t + BitVec.ofNat w c.t⟩) =
      Eff.finish (O := O) (R := R) (done (((⟨{ c.regs x s with a := (v.inp (word c.a (c.mem (c.pc + 1))) (t + BitVec.ofNat w c.t + BitVec.ofNat w 4 + BitVec.ofNat w 4) i).1.1, wz := word c.a (c.mem (c.pc + 1)) + 1, pc := c.pc + 1 + 1, r := ((c.regs x s).bumpR).r }, c.mem,
        (v.inp (word c.a (c.mem (c.pc + 1))) (t + BitVec.ofNat w c.t + BitVec.ofNat w 4 + BitVec.ofNat w 4) i).2,
        t + BitVec.ofNat w c.t + BitVec.ofNat w 4⟩ : Mach w I)).wait
          (v.inp (word c.a (c.mem (c.pc + 1))) (t + BitVec.ofNat w c.t + BitVec.ofNat w 4 + BitVec.ofNat w 4) i).1.2)) false 7 := rfl
  rw [e, hc, ht, e2]
  generalize v.inp (word c.a (c.mem (c.pc + 1))) (t + BitVec.ofNat w c.t + BitVec.ofNat w 4 + BitVec.ofNat w 4) i = p
  obtain ⟨⟨y, ws⟩, i'⟩ := p
  have hw : t + BitVec.ofNat w (c.t + 11 + waits ws) =
      t + BitVec.ofNat w c.t + BitVec.ofNat w 4 + BitVec.ofNat w (waits ws) + BitVec.ofNat w 7 := by
    rw [BitVec.add_assoc, BitVec.add_assoc, BitVec.add_assoc, ← BitVec.ofNat_add, ← BitVec.ofNat_add, ← BitVec.ofNat_add]
    congr 2
    omega
  simp only [Cfg.mach]
  rw [hw, show c.pc + 2 = c.pc + 1 + 1 by bv_omega]
  cases ws with
  | none =>
    rw [show t + BitVec.ofNat w c.t + BitVec.ofNat w 4 + BitVec.ofNat w (waits none) = t + BitVec.ofNat w c.t + BitVec.ofNat w 4
      from BitVec.add_zero _]
    exact ⟨⟨_, _, _⟩, rfl⟩
  | some k => exact ⟨⟨_, _, _⟩, rfl⟩

/-- A step with interrupts enabled and none requested. -/
theorem open_step (c : Cfg) (x : Regs) (s : Hid) (b : Bool) (i : I) (t : BitVec w)
    (hn : b = true ∨ v.irq t i = (false, i)) : step o v ⟨c.open x s b, c.mem, i, t⟩ =
      execOp o v (c.mem c.pc) (fetch ⟨c.open x s b, c.mem, i, t⟩) := by
  rcases hn with rfl | hn
  · rfl
  · cases b
    · have e : step o v ⟨c.open x s false, c.mem, i, t⟩ = if (v.irq t i).1 then interrupt o v ⟨c.open x s false, c.mem, (v.irq t i).2, t⟩
        else execOp o v (c.mem c.pc) (fetch ⟨c.open x s false, c.mem, (v.irq t i).2, t⟩) := rfl
      rw [e, hn, if_neg Bool.false_ne_true]
    · rfl

theorem ei_open (x : Regs) (c : Cfg) (hc : c.mem c.pc = 0xFB) (s : Hid) (i : I) (t : BitVec w) : ∃ s' : Hid,
    step o v (c.mach x s i t) = (⟨{ c with pc := c.pc + 1 }.open x s' true, c.mem, i, t + BitVec.ofNat w (c.t + 4)⟩, .ok) :=
  ei x c hc s i t

theorem popHl_open (x : Regs) (c : Cfg) (hc : c.mem c.pc = 0xE1) (s : Hid) (i : I) (t : BitVec w) : ∃ s' : Hid,
    step o v ⟨c.open x s true, c.mem, i, t⟩ =
      (⟨{ c with h := hi8 (word (c.mem (c.sp + 1)) (c.mem c.sp)), l := lo8 (word (c.mem (c.sp + 1)) (c.mem c.sp)), sp := c.sp + 2, pc := c.pc + 1 }.open x s' false,
        c.mem, i, t + BitVec.ofNat w 10⟩, .ok) := by
  have h10 : t + BitVec.ofNat w 10 = t + BitVec.ofNat w 4 + BitVec.ofNat w 6 := by
    rw [BitVec.add_assoc, ← BitVec.ofNat_add]
  rw [open_step c x s true i t (.inl rfl), hc, h10]
  exact ⟨⟨_, _, _⟩, rfl⟩

theorem popAf_open (x : Regs) (c : Cfg) (hc : c.mem c.pc = 0xF1) (s : Hid) (i : I) (t : BitVec w)
    (hn : v.irq t i = (false, i)) : ∃ s' : Hid,
    step o v ⟨c.open x s false, c.mem, i, t⟩ =
      (⟨{ c with a := hi8 (word (c.mem (c.sp + 1)) (c.mem c.sp)), f := Fl.of (lo8 (word (c.mem (c.sp + 1)) (c.mem c.sp))), sp := c.sp + 2, pc := c.pc + 1 }.open x s' false,
        c.mem, i, t + BitVec.ofNat w 10⟩, .ok) := by
  have h10 : t + BitVec.ofNat w 10 = t + BitVec.ofNat w 4 + BitVec.ofNat w 6 := by
    rw [BitVec.add_assoc, ← BitVec.ofNat_add]
  rw [open_step c x s false i t (.inr hn), hc, h10]
  exact ⟨⟨_, _, _⟩, rfl⟩

theorem reti_open (x : Regs) (c : Cfg) (hc : c.mem c.pc = 0xED) (hd : c.mem (c.pc + 1) = 0x4D) (s : Hid) (i : I)
    (t : BitVec w) (hn : v.irq t i = (false, i)) : ∃ s' : Hid,
    step o v ⟨c.open x s false, c.mem, i, t⟩ =
      (⟨{ c with pc := word (c.mem (c.sp + 1)) (c.mem c.sp), sp := c.sp + 2 }.open x s' false,
        c.mem, (v.reti (c.pc + 1 + 1) (t + BitVec.ofNat w 8) i).2, t + BitVec.ofNat w 14⟩,
        match (v.reti (c.pc + 1 + 1) (t + BitVec.ofNat w 8) i).1 with | some x => .reti x | none => .ok) := by
  have h8 : t + BitVec.ofNat w 8 = t + BitVec.ofNat w 4 + BitVec.ofNat w 4 := by
    rw [BitVec.add_assoc, ← BitVec.ofNat_add]
  have h14 : t + BitVec.ofNat w 14 = t + BitVec.ofNat w 4 + BitVec.ofNat w 10 := by
    rw [BitVec.add_assoc, ← BitVec.ofNat_add]
  rw [open_step c x s false i t (.inr hn), hc, h8, h14]
  have e' : ∀ op : U8, c.mem (c.pc + 1) = op → execOp o v 0xED (fetch ⟨c.open x s false, c.mem, i, t⟩) =
      (let s : Mach w I := (fetch ⟨c.open x s false, c.mem, i, t⟩).upd
        fun r => { r with ei := false, halted := false }
      let e := execEd o v (decodeEd op) ((s.skip 1).upd Regs.bumpR)
      Eff.finish e (fEd (decodeEd op)) (tEd (decodeEd op) e.2.1 - 4)) := by
    intro op h
    subst h
    rfl
  rw [e' _ hd]
  exact ⟨⟨_, _, _⟩, rfl⟩

attribute [local semireducible] put push in
/-- BIT 1,(HL); the other flags are not followed. -/
theorem bit1' (x : Regs) (c : Cfg) (hc : c.mem c.pc = 0xCB) (h1 : c.mem (c.pc + 1) = 0x4E) (s : Hid) (i : I) (t : BitVec w) :
    ∃ (s' : Hid) (f : Fl), f.z = !(c.mem (word c.h c.l)).toNat.testBit 1 ∧
    step o v (c.mach x s i t) = ({ c with f := f, pc := c.pc + 2, t := c.t + 12 }.mach x s' i t, .ok) := by
  have e : step o v (c.mach x s i t) = execOp o v (c.mem c.pc)
    (fetch ⟨c.regs x s, c.mem, i, t + BitVec.ofNat w c.t⟩) := rfl
  have e' : ∀ op : U8, c.mem (c.pc + 1) = op → execOp o v 0xCB (fetch ⟨c.regs x s, c.mem, i, t + BitVec.ofNat w c.t⟩) =
      (let s : Mach w I := (fetch ⟨c.regs x s, c.mem, i, t + BitVec.ofNat w c.t⟩).upd
        fun r => { r with ei := false, halted := false }
      Eff.finish (O := O) (R := R) (done (execCb (decodeCb op) ((s.skip 1).upd Regs.bumpR))) (fCb (decodeCb op))
        (tCb (decodeCb op) - 4)) := by
    intro op h
    subst h
    rfl
  have ht : t + BitVec.ofNat w (c.t + 12) = t + BitVec.ofNat w c.t + BitVec.ofNat w 4 + BitVec.ofNat w 8 := by
    rw [BitVec.add_assoc, BitVec.add_assoc, ← BitVec.ofNat_add, ← BitVec.ofNat_add]
  rw [e, hc, e' _ h1]
  simp only [Cfg.mach, ht]
  rw [show c.pc + 2 = c.pc + 1 + 1 by bv_omega]
  refine ⟨⟨_, _, _⟩, _, ?_, rfl⟩
  rfl

theorem set8_or : ∀ y : U8, set8 0 y = y ||| 1 ∧ set8 1 y = y ||| 2 := by decide +kernel

/-- EI; POP HL; POP AF; RETI. -/
theorem leave (x : Regs) (m : U16 → U8) (hm : Rom m) (c : Cfg) (hc : c.mem = m) (hp : c.pc = 0x135) (s : Hid) (i : I)
    (t : BitVec w) (hn : ∀ t', v.irq t' i = (false, i)) : ∃ (s' : Hid) (b : Mach w I),
    Reach o v (c.mach x s i t) b ∧ b.io = i ∧ step o v b =
      (⟨{ c with a := m (c.sp + 3), f := Fl.of (m (c.sp + 2)), h := m (c.sp + 1), l := m c.sp, pc := word (m (c.sp + 5)) (m (c.sp + 4)), sp := c.sp + 6 }.open x s' false,
        m, (v.reti 0x13A (t + BitVec.ofNat w (c.t + 32)) i).2, t + BitVec.ofNat w (c.t + 38)⟩,
        match (v.reti 0x13A (t + BitVec.ofNat w (c.t + 32)) i).1 with | some x => .reti x | none => .ok) := by
  subst hc
  obtain ⟨a, f, h, l, sp, pc, m, tt⟩ := c
  simp only at hm hp ⊢
  subst hp
  obtain ⟨s1, e1⟩ := ei_open (o := o) (v := v) x ⟨a, f, h, l, sp, 0x135, m, tt⟩ (opc hm) s i t
  obtain ⟨s2, e2⟩ := popHl_open (o := o) (v := v) x ⟨a, f, h, l, sp, 0x135 + 1, m, tt⟩ (opc hm) s1 i (t + BitVec.ofNat w (tt + 4))
  obtain ⟨s3, e3⟩ := popAf_open (o := o) (v := v) x ⟨a, f, hi8 (word (m (sp + 1)) (m sp)), lo8 (word (m (sp + 1)) (m sp)),
    sp + 2, 0x135 + 1 + 1, m, tt⟩ (opc hm) s2 i (t + BitVec.ofNat w (tt + 4) + BitVec.ofNat w 10) (hn _)
  obtain ⟨s4, e4⟩ := reti_open (o := o) (v := v) x ⟨hi8 (word (m (sp + 2 + 1)) (m (sp + 2))),
    Fl.of (lo8 (word (m (sp + 2 + 1)) (m (sp + 2)))), hi8 (word (m (sp + 1)) (m sp)), lo8 (word (m (sp + 1)) (m sp)),
    sp + 2 + 2, 0x135 + 1 + 1 + 1, m, tt⟩ (opc hm) (opc hm) s3 i
    (t + BitVec.ofNat w (tt + 4) + BitVec.ofNat w 10 + BitVec.ofNat w 10) (hn _)
  refine ⟨s4, _, .step e1 (.step e2 (.step e3 (.refl _))), rfl, e4.trans ?_⟩
  simp only [hi8_word, lo8_word, BitVec.add_assoc, ← BitVec.ofNat_add, BitVec.reduceAdd]
  rfl

/-- Execute an instruction. -/
local macro "exec" t:term:max h:term:max : tactic => `(tactic| (refine Goes.trans ($t _ _ (opc $h)) ?_; tidy))
/-- Execute an instruction with a word operand. -/
local macro "exec" t:term:max h:term:max "arg16" x:term:max : tactic =>
  `(tactic| (refine Goes.trans ($t _ _ $x (opc $h) (opc $h) (opc $h)) ?_; tidy))

/-- The stack within the routine. -/
def stacked (r : Regs) (m : U16 → U8) : U16 → U8 :=
  push (push (push m r.sp (resume r)) (r.sp - 2) (word r.a r.f.byte)) (r.sp - 2 - 2) (word r.h r.l)

/-- From the acceptance to the test of the flag. -/
theorem enter (r : Regs) (m : U16 → U8) (i i1 i2 : I) (t : BitVec w) (ws : Option U16) (hm : Rom m)
    (h1 : r.iff1 = true) (h2 : r.idx = .hl) (h3 : r.ei = false) (him : r.im = 2) (hir : r.i = 1)
    (hs : Room r.sp 6) (hi : v.irq t i = (true, i1))
    (ha : v.ack (resume r) (t + BitVec.ofNat w 2) i1 = ((8, ws), i2)) : ∃ s f,
      Rom (stacked r m) ∧ f.z = !(m 0x2005).getLsbD 1 ∧ Reach o v ⟨r, m, i, t⟩
        ((Cfg.mk r.a f 0x20 5 (r.sp - 2 - 2 - 2) 0x12D (stacked r m) 63).mach { r with iff2 := false } s i2
          (t + BitVec.ofNat w (waits ws))) := by
  obtain ⟨s, e1⟩ := accept (o := o) r m i i1 i2 t 8 ws h1 h2 h3 him hi ha
  have s2 : Room r.sp 2 := room_less hs (by omega)
  have s6 : Room (r.sp - 2) 4 := room_sub hs
  have s4 : Room (r.sp - 2) 2 := room_less s6 (by omega)
  have s8 : Room (r.sp - 2 - 2) 2 := room_sub s6
  have hm1 := rom_push hm (resume r) s2
  have hm2 := rom_push hm1 (word r.a r.f.byte) s4
  have hm3 := rom_push hm2 (word r.h r.l) s8
  have v0 : word r.i 8 = 0x108 := by rw [hir]; decide
  rw [v0, hm1.at_code (0x108 + 1) 0x01 (by decide +kernel), hm1.at_code 0x108 0x26 (by decide +kernel)] at e1
  have g1 : Goes o v { r with iff2 := false } (Cfg.mk r.a r.f r.h r.l (r.sp - 2) (word 0x01 0x26) (push m r.sp (resume r)) 19)
      ⟨r.a, r.f, 0x20, 5, r.sp - 2 - 2 - 2, 0x12B, stacked r m, 51⟩ := by
    rw [show word 0x01 0x26 = 0x126 by decide]
    exec pushAf hm1
    exec pushHl hm2
    exec ldHlNN hm3 arg16 0x2005
    exact Goes.refl _ _
  obtain ⟨s1, g1⟩ := g1 s i2 (t + BitVec.ofNat w (waits ws))
  obtain ⟨s3, f, hf, e2⟩ := bit1' (o := o) (v := v) { r with iff2 := false } ⟨r.a, r.f, 0x20, 5, r.sp - 2 - 2 - 2, 0x12B, stacked r m, 51⟩
    (opc hm3) (opc hm3) s1 i2 (t + BitVec.ofNat w (waits ws))
  have w5 : word (0x20 : U8) (5 : U8) = 0x2005 := by decide
  have hM : stacked r m 0x2005 = m 0x2005 := by
    unfold stacked
    rw [push_low _ _ s8 (by decide), push_low _ _ s4 (by decide), push_low _ _ s2 (by decide)]
  simp only [w5, hM, Nat.reduceAdd, show (0x12B : U16) + 2 = 0x12D by decide] at hf e2
  exact ⟨s3, f, hm3, hf, .step e1 (g1.trans (.step e2 (.refl _)))⟩

/-- What is on the stack, in memory that differs in the system variables only. -/
theorem unstack (r : Regs) (m M : U16 → U8) (hs : Room r.sp 6)
    (hM : ∀ a : U16, 0x200C ≤ a.toNat → M a = stacked r m a) :
    M (r.sp - 2 - 2 - 2 + 1) = r.h ∧ M (r.sp - 2 - 2 - 2) = r.l ∧ M (r.sp - 2 - 2 - 2 + 3) = r.a ∧
    M (r.sp - 2 - 2 - 2 + 2) = r.f.byte ∧ M (r.sp - 2 - 2 - 2 + 5) = hi8 (resume r) ∧
    M (r.sp - 2 - 2 - 2 + 4) = lo8 (resume r) := by
  have h1 := hs 1 (by omega) (by omega)
  have h2 := hs 2 (by omega) (by omega)
  have h3 := hs 3 (by omega) (by omega)
  have h4 := hs 4 (by omega) (by omega)
  have h5 := hs 5 (by omega) (by omega)
  have h6 := hs 6 (by omega) (by omega)
  refine ⟨?_, ?_, ?_, ?_, ?_, ?_⟩
  · rw [hM _ (by bv_omega), stacked, push_hi, hi8_word]
  · rw [hM _ (by bv_omega), stacked, push_lo, lo8_word]
  · rw [hM _ (by bv_omega), stacked, push_at _ _ (by bv_omega) (by bv_omega),
      show r.sp - 2 - 2 - 2 + 3 = r.sp - 2 - 2 + 1 by bv_omega, push_hi, hi8_word]
  · rw [hM _ (by bv_omega), stacked, push_at _ _ (by bv_omega) (by bv_omega),
      show r.sp - 2 - 2 - 2 + 2 = r.sp - 2 - 2 by bv_omega, push_lo, lo8_word]
  · rw [hM _ (by bv_omega), stacked, push_at _ _ (by bv_omega) (by bv_omega), push_at _ _ (by bv_omega) (by bv_omega),
      show r.sp - 2 - 2 - 2 + 5 = r.sp - 2 + 1 by bv_omega, push_hi]
  · rw [hM _ (by bv_omega), stacked, push_at _ _ (by bv_omega) (by bv_omega), push_at _ _ (by bv_omega) (by bv_omega),
      show r.sp - 2 - 2 - 2 + 4 = r.sp - 2 by bv_omega, push_lo]

theorem stacked_at (r : Regs) (m : U16 → U8) (a : U16) (hj : ∀ j, 1 ≤ j → j ≤ 6 → a ≠ r.sp - BitVec.ofNat 16 j) :
    stacked r m a = m a := by
  have j1 := hj 1 (by omega) (by omega)
  have j2 := hj 2 (by omega) (by omega)
  have j3 := hj 3 (by omega) (by omega)
  have j4 := hj 4 (by omega) (by omega)
  have j5 := hj 5 (by omega) (by omega)
  have j6 := hj 6 (by omega) (by omega)
  rw [stacked, push_at _ _ (by bv_omega) (by bv_omega), push_at _ _ (by bv_omega) (by bv_omega),
    push_at _ _ (by bv_omega) (by bv_omega)]

theorem room_var {sp : U16} {n : Nat} (hs : Room sp n) {a : U16} (ha : a.toNat < 0x200C) :
    ∀ j, 1 ≤ j → j ≤ n → a ≠ sp - BitVec.ofNat 16 j := by
  rintro j h1 h2 rfl
  have := hs j h1 h2
  omega

/-- The routine when the buffer is full. -/
theorem input_full (r : Regs) (m : U16 → U8) (i i1 i2 : I) (t : BitVec w) (ws : Option U16) (hm : Rom m)
    (h1 : r.iff1 = true) (h2 : r.idx = .hl) (h3 : r.ei = false) (him : r.im = 2) (hir : r.i = 1)
    (hs : Room r.sp 6) (hi : v.irq t i = (true, i1))
    (ha : v.ack (resume r) (t + BitVec.ofNat w 2) i1 = ((8, ws), i2)) (hfull : (m 0x2005).getLsbD 1 = true)
    (hn : ∀ t', v.irq t' i2 = (false, i2)) :
    let n := 102 + waits ws
    let p := v.reti 0x13A (t + BitVec.ofNat w (n + 32)) i2
    ∃ b r' m', Reach o v ⟨r, m, i, t⟩ b ∧ b.io = i2 ∧ step o v b =
      (⟨r', m', p.2, t + BitVec.ofNat w (n + 38)⟩, match p.1 with | some x => .reti x | none => .ok) ∧
      Alike { r with pc := resume r, halted := false, iff2 := true } r' ∧
      m' 0x2004 = m 0x2004 ∧ m' 0x2005 = m 0x2005 ||| 1 ∧
      ∀ a : U16, a ≠ 0x2004 → a ≠ 0x2005 → (∀ j, 1 ≤ j → j ≤ 6 → a ≠ r.sp - BitVec.ofNat 16 j) → m' a = m a := by
  intro n p
  obtain ⟨s, f, hm3, hf, g⟩ := enter (o := o) r m i i1 i2 t ws hm h1 h2 h3 him hir hs hi ha
  rw [hfull] at hf
  have w5 : word (0x20 : U8) (5 : U8) = 0x2005 := by decide
  have v5 := stacked_at r m 0x2005 (room_var hs (by decide))
  have v4 := stacked_at r m 0x2004 (room_var hs (by decide))
  have hm4 : Rom (put (stacked r m) 0x2005 (m 0x2005 ||| 1)) := rom_put hm3 _ (by decide)
  have g2 : Goes o v { r with iff2 := false } (Cfg.mk r.a f 0x20 5 (r.sp - 2 - 2 - 2) 0x12D (stacked r m) 63)
      (Cfg.mk r.a f 0x20 5 (r.sp - 2 - 2 - 2) 0x135 (put (stacked r m) 0x2005 (m 0x2005 ||| 1)) 102) := by
    refine Goes.trans (jrNz _ _ 0x13A 0x0B (opc hm3) (opc hm3) (by dsimp only; decide +kernel) (by simp only [hf]; rfl)) ?_
    refine Goes.trans (setM 0 0xC6 (by decide +kernel) _ _ (opc hm3) (opc hm3)) ?_
    simp only [w5, v5, (set8_or _).1]
    refine Goes.trans (jr _ _ 0x135 0xF7 (opc hm4) (opc hm4) (by dsimp only; decide +kernel)) ?_
    exact Goes.refl _ _
  obtain ⟨s1, g2⟩ := g2 s i2 (t + BitVec.ofNat w (waits ws))
  obtain ⟨s2, b, g3, bi, e⟩ := leave (o := o) (v := v) { r with iff2 := false } _ hm4
    (Cfg.mk r.a f 0x20 5 (r.sp - 2 - 2 - 2) 0x135 (put (stacked r m) 0x2005 (m 0x2005 ||| 1)) 102) rfl rfl s1 i2
    (t + BitVec.ofNat w (waits ws)) hn
  obtain ⟨q1, q2, q3, q4, q5, q6⟩ := unstack r m (put (stacked r m) 0x2005 (m 0x2005 ||| 1)) hs (by
    intro a h
    rw [put_other]
    rintro rfl
    exact absurd h (by decide))
  simp only [q1, q2, q3, q4, q5, q6, of_byte, word_hi8_lo8] at e
  rw [BitVec.add_assoc, BitVec.add_assoc, ← BitVec.ofNat_add, ← BitVec.ofNat_add,
    show waits ws + (102 + 32) = n + 32 by simp only [n]; omega,
    show waits ws + (102 + 38) = n + 38 by simp only [n]; omega] at e
  refine ⟨b, _, _, g.trans (g2.trans g3), bi, e, ⟨s2.wz, s2.r, s2.q, ?_⟩, ?_, put_same _ _ _, ?_⟩
  · simp only [Cfg.open, Cfg.regs, show r.sp - 2 - 2 - 2 + 6 = r.sp by bv_omega, h1, h2, h3]
  · rw [put_other _ _ (by decide), v4]
  · intro a _ a5 hj
    rw [put_other _ _ a5, stacked_at r m a hj]

/-- The routine when the buffer is empty. -/
theorem input_empty (r : Regs) (m : U16 → U8) (i i1 i2 : I) (t : BitVec w) (ws : Option U16) (hm : Rom m)
    (h1 : r.iff1 = true) (h2 : r.idx = .hl) (h3 : r.ei = false) (him : r.im = 2) (hir : r.i = 1)
    (hs : Room r.sp 6) (hi : v.irq t i = (true, i1))
    (ha : v.ack (resume r) (t + BitVec.ofNat w 2) i1 = ((8, ws), i2)) (hempty : (m 0x2005).getLsbD 1 = false)
    (y : U8) (wi : Option U16) (i3 : I)
    (hin : v.inp (word r.a 8) (t + BitVec.ofNat w (78 + waits ws)) i2 = ((y, wi), i3))
    (hn : ∀ t', v.irq t' i3 = (false, i3)) :
    let n := 109 + waits ws + waits wi
    let p := v.reti 0x13A (t + BitVec.ofNat w (n + 32)) i3
    ∃ b r' m', Reach o v ⟨r, m, i, t⟩ b ∧ b.io = i3 ∧ step o v b =
      (⟨r', m', p.2, t + BitVec.ofNat w (n + 38)⟩, match p.1 with | some x => .reti x | none => .ok) ∧
      Alike { r with pc := resume r, halted := false, iff2 := true } r' ∧
      m' 0x2004 = y ∧ m' 0x2005 = m 0x2005 ||| 2 ∧
      ∀ a : U16, a ≠ 0x2004 → a ≠ 0x2005 → (∀ j, 1 ≤ j → j ≤ 6 → a ≠ r.sp - BitVec.ofNat 16 j) → m' a = m a := by
  intro n p
  obtain ⟨s, f, hm3, hf, g⟩ := enter (o := o) r m i i1 i2 t ws hm h1 h2 h3 him hir hs hi ha
  rw [hempty] at hf
  have w5 : word (0x20 : U8) (5 : U8) = 0x2005 := by decide
  have e4 : hi8 (0x2005 - 1 : U16) = 0x20 ∧ lo8 (0x2005 - 1 : U16) = 4 := by decide
  have w4 : word (0x20 : U8) (4 : U8) = 0x2004 := by decide
  have v5 := stacked_at r m 0x2005 (room_var hs (by decide))
  have hm4 : Rom (put (stacked r m) 0x2005 (m 0x2005 ||| 2)) := rom_put hm3 _ (by decide)
  have hm5 : Rom (put (put (stacked r m) 0x2005 (m 0x2005 ||| 2)) 0x2004 y) := rom_put hm4 _ (by decide)
  have g2 : Goes o v { r with iff2 := false } (Cfg.mk r.a f 0x20 5 (r.sp - 2 - 2 - 2) 0x12D (stacked r m) 63)
      (Cfg.mk r.a f 0x20 5 (r.sp - 2 - 2 - 2) 0x12F (stacked r m) 70) :=
    jrNzNot _ _ (opc hm3) (by simp only [hf]; decide)
  obtain ⟨s1, g2⟩ := g2 s i2 (t + BitVec.ofNat w (waits ws))
  obtain ⟨s2, e2⟩ := inA (o := o) (v := v) { r with iff2 := false }
    (Cfg.mk r.a f 0x20 5 (r.sp - 2 - 2 - 2) 0x12F (stacked r m) 70) 8 (opc hm3) (opc hm3) s1 i2
    (t + BitVec.ofNat w (waits ws))
  simp only at e2
  rw [BitVec.add_assoc, ← BitVec.ofNat_add, show waits ws + (70 + 8) = 78 + waits ws by omega, hin] at e2
  simp only [show (0x12F : U16) + 2 = 0x131 by decide] at e2
  have g3 : Goes o v { r with iff2 := false } (Cfg.mk y f 0x20 5 (r.sp - 2 - 2 - 2) 0x131 (stacked r m) (70 + 11 + waits wi))
      (Cfg.mk y f 0x20 4 (r.sp - 2 - 2 - 2) 0x135 (put (put (stacked r m) 0x2005 (m 0x2005 ||| 2)) 0x2004 y)
        (70 + 11 + waits wi + 15 + 6 + 7)) := by
    refine Goes.trans (setM 1 0xCE (by decide +kernel) _ _ (opc hm3) (opc hm3)) ?_
    simp only [w5, v5, (set8_or _).2]
    refine Goes.trans (decHl _ _ (opc hm4)) ?_
    simp only [w5, e4.1, e4.2]
    refine Goes.trans (ldMA _ _ (opc hm4)) ?_
    simp only [w4]
    exact Goes.refl _ _
  obtain ⟨s3, g3⟩ := g3 s2 i3 (t + BitVec.ofNat w (waits ws))
  obtain ⟨s4, b, g4, bi, e⟩ := leave (o := o) (v := v) { r with iff2 := false } _ hm5
    (Cfg.mk y f 0x20 4 (r.sp - 2 - 2 - 2) 0x135 (put (put (stacked r m) 0x2005 (m 0x2005 ||| 2)) 0x2004 y)
        (70 + 11 + waits wi + 15 + 6 + 7)) rfl rfl s3 i3 (t + BitVec.ofNat w (waits ws)) hn
  obtain ⟨q1, q2, q3, q4, q5, q6⟩ := unstack r m (put (put (stacked r m) 0x2005 (m 0x2005 ||| 2)) 0x2004 y) hs (by
    intro a h
    rw [put_other, put_other]
    · rintro rfl
      exact absurd h (by decide)
    · rintro rfl
      exact absurd h (by decide))
  simp only [q1, q2, q3, q4, q5, q6, of_byte, word_hi8_lo8] at e
  rw [BitVec.add_assoc, BitVec.add_assoc, ← BitVec.ofNat_add, ← BitVec.ofNat_add,
    show waits ws + (70 + 11 + waits wi + 15 + 6 + 7 + 32) = n + 32 by simp only [n]; omega,
    show waits ws + (70 + 11 + waits wi + 15 + 6 + 7 + 38) = n + 38 by simp only [n]; omega] at e
  refine ⟨b, _, _, g.trans (g2.trans (.step e2 (g3.trans g4))), bi, e, ⟨s4.wz, s4.r, s4.q, ?_⟩, put_same _ _ _, ?_, ?_⟩
  · simp only [Cfg.open, Cfg.regs, show r.sp - 2 - 2 - 2 + 6 = r.sp by bv_omega, h1, h2, h3]
  · rw [put_other _ _ (by decide), put_same]
  · intro a a4 a5 hj
    rw [put_other _ _ a4, put_other _ _ a5, stacked_at r m a hj]

end Z80.Kernel
