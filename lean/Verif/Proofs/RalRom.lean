import Verif.Spec.RalRom
import Verif.Proofs.RoutineMore
import Verif.Proofs.Alu
import Verif.Props.Refine

/-!
# Interrupt routines and forwarding calls of the system program of the example computer
-/

set_option linter.unusedVariables false
set_option linter.unusedSimpArgs false

namespace Z80.Kernel
open Spec Spec.RalRom
open Routine (put push put_same put_other push_eq)
variable {w : Nat} {O R I : Type}

/-- What the routines change. -/
structure Cfg where
  a : U8
  f : Fl
  h : U8
  l : U8
  sp : U16
  pc : U16
  mem : U16 → U8
  t : Nat

/-- What is not followed. -/
structure Hid where
  wz : U16
  r : U8
  q : Option Bool

/-- Registers within a routine with interrupts disabled; `x` has those that stay. -/
def Cfg.regs (c : Cfg) (x : Regs) (s : Hid) : Regs :=
  { x with a := c.a, f := c.f, h := c.h, l := c.l, sp := c.sp, pc := c.pc, iff1 := false, halted := false,
           ei := false, idx := .hl, wz := s.wz, r := s.r, q := s.q }

def Cfg.mach (c : Cfg) (x : Regs) (s : Hid) (i : I) (t : BitVec w) : Mach w I :=
  ⟨c.regs x s, c.mem, i, t + BitVec.ofNat w c.t⟩

/-- Several steps that report nothing. -/
inductive Reach (o : Opt) (v : Env w O R I) : Mach w I → Mach w I → Prop
  | refl (a : Mach w I) : Reach o v a a
  | step {a b c : Mach w I} : step o v a = (b, .ok) → Reach o v b c → Reach o v a c

variable {o : Opt} {v : Env w O R I}

theorem Reach.trans {a b c : Mach w I} (h : Reach o v a b) (g : Reach o v b c) : Reach o v a c := by
  induction h with
  | refl => exact g
  | step s _ ih => exact .step s (ih g)

/-- Several steps, whatever the hidden registers, the devices and the time. -/
def Goes (o : Opt) (v : Env w O R I) (x : Regs) (c d : Cfg) : Prop :=
  ∀ s i t, ∃ s', Reach o v (c.mach x s i t) (d.mach x s' i t)

theorem Goes.refl (x : Regs) (c : Cfg) : Goes o v x c c := fun s i t => ⟨s, .refl _⟩

theorem Goes.trans {x : Regs} {a b c : Cfg} (h : Goes o v x a b) (g : Goes o v x b c) : Goes o v x a c := by
  intro s i t
  obtain ⟨s1, h⟩ := h s i t
  obtain ⟨s2, g⟩ := g s1 i t
  exact ⟨s2, h.trans g⟩

theorem Goes.of {x : Regs} {c d : Cfg} (op : U8) (n : Nat) (hop : c.mem c.pc = op)
    (h : ∀ s i (t : BitVec w), ∃ s', execOp o v op (fetch ⟨c.regs x s, c.mem, i, t⟩) =
      (⟨d.regs x s', d.mem, i, t + BitVec.ofNat w 4 + BitVec.ofNat w n⟩, .ok))
    (ht : d.t = c.t + (4 + n)) : Goes o v x c d := by
  intro s i t
  obtain ⟨s', h⟩ := h s i (t + BitVec.ofNat w c.t)
  refine ⟨s', .step ?_ (.refl _)⟩
  have e : step o v (c.mach x s i t) = execOp o v (c.mem c.pc)
    (fetch ⟨c.regs x s, c.mem, i, t + BitVec.ofNat w c.t⟩) := rfl
  rw [e, hop, h]
  simp only [Cfg.mach, ht, BitVec.add_assoc, BitVec.ofNat_add]

attribute [local semireducible] put push

local macro "plain" op:num n:num h:ident : term =>
  `(Goes.of $op $n $h (fun s i t => ⟨⟨_, _, _⟩, rfl⟩) rfl)

theorem pushAf (x : Regs) (c : Cfg) (hc : c.mem c.pc = 0xF5) : Goes o v x c
    { c with mem := push c.mem c.sp (word c.a c.f.byte), sp := c.sp - 2, pc := c.pc + 1, t := c.t + 11 } := plain 0xF5 7 hc

theorem pushHl (x : Regs) (c : Cfg) (hc : c.mem c.pc = 0xE5) : Goes o v x c
    { c with mem := push c.mem c.sp (word c.h c.l), sp := c.sp - 2, pc := c.pc + 1, t := c.t + 11 } := plain 0xE5 7 hc

theorem popAf (x : Regs) (c : Cfg) (hc : c.mem c.pc = 0xF1) : Goes o v x c
    { c with a := hi8 (word (c.mem (c.sp + 1)) (c.mem c.sp)), f := Fl.of (lo8 (word (c.mem (c.sp + 1)) (c.mem c.sp))), sp := c.sp + 2, pc := c.pc + 1, t := c.t + 10 } := plain 0xF1 6 hc

theorem popHl (x : Regs) (c : Cfg) (hc : c.mem c.pc = 0xE1) : Goes o v x c
    { c with h := hi8 (word (c.mem (c.sp + 1)) (c.mem c.sp)), l := lo8 (word (c.mem (c.sp + 1)) (c.mem c.sp)), sp := c.sp + 2, pc := c.pc + 1, t := c.t + 10 } := plain 0xE1 6 hc

theorem ldHlNN (x : Regs) (c : Cfg) (a : U16) (hc : c.mem c.pc = 0x21) (h1 : c.mem (c.pc + 1) = lo8 a)
    (h2 : c.mem (c.pc + 1 + 1) = hi8 a) : Goes o v x c
    { c with h := hi8 a, l := lo8 a, pc := c.pc + 1 + 2, t := c.t + 10 } := by
  have e : a = word (c.mem (c.pc + 1 + 1)) (c.mem (c.pc + 1)) := by rw [h1, h2, word_hi8_lo8]
  subst e
  exact plain 0x21 6 hc

theorem incM (x : Regs) (c : Cfg) (hc : c.mem c.pc = 0x34) : Goes o v x c
    { c with mem := put c.mem (word c.h c.l) (inc8 (c.mem (word c.h c.l)) c.f).1, f := (inc8 (c.mem (word c.h c.l)) c.f).2,
             pc := c.pc + 1, t := c.t + 11 } := plain 0x34 7 hc

theorem incHl (x : Regs) (c : Cfg) (hc : c.mem c.pc = 0x23) : Goes o v x c
    { c with h := hi8 (word c.h c.l + 1), l := lo8 (word c.h c.l + 1), pc := c.pc + 1, t := c.t + 6 } := plain 0x23 2 hc

theorem jrNz (x : Regs) (c : Cfg) (a : U16) (d : U8) (hc : c.mem c.pc = 0x20)
    (h1 : c.mem (c.pc + 1) = d) (ha : c.pc + 1 + 1 + disp d = a) (hb : (!c.f.z) = true) : Goes o v x c
    { c with pc := a, t := c.t + 12 } := by
  subst h1 ha
  exact Goes.of 0x20 8 hc (fun s i t => ⟨⟨_, _, _⟩,
    (congrArg (fun e => Eff.finish e false (t0 (.jrCc .nz) e.2.1 - 4)) (if_pos hb)).trans rfl⟩) rfl
theorem jrNzNot (x : Regs) (c : Cfg) (hc : c.mem c.pc = 0x20) (hb : ¬ ((!c.f.z) = true)) : Goes o v x c
    { c with pc := c.pc + 1 + 1, t := c.t + 7 } :=
  Goes.of 0x20 3 hc (fun s i t => ⟨⟨_, _, _⟩,
    (congrArg (fun e => Eff.finish e false (t0 (.jrCc .nz) e.2.1 - 4)) (if_neg hb)).trans rfl⟩) rfl
theorem jrZ (x : Regs) (c : Cfg) (a : U16) (d : U8) (hc : c.mem c.pc = 0x28)
    (h1 : c.mem (c.pc + 1) = d) (ha : c.pc + 1 + 1 + disp d = a) (hb : c.f.z = true) : Goes o v x c
    { c with pc := a, t := c.t + 12 } := by
  subst h1 ha
  exact Goes.of 0x28 8 hc (fun s i t => ⟨⟨_, _, _⟩,
    (congrArg (fun e => Eff.finish e false (t0 (.jrCc .z) e.2.1 - 4)) (if_pos hb)).trans rfl⟩) rfl

/-- EI. -/
theorem ei (x : Regs) (c : Cfg) (hc : c.mem c.pc = 0xFB) (s : Hid) (i : I) (t : BitVec w) : ∃ s' : Hid,
    step o v (c.mach x s i t) =
      (⟨{ c.regs x s' with pc := c.pc + 1, iff1 := true, iff2 := true, ei := true }, c.mem, i,
        t + BitVec.ofNat w (c.t + 4)⟩, .ok) := by
  have e : step o v (c.mach x s i t) = execOp o v (c.mem c.pc)
    (fetch ⟨c.regs x s, c.mem, i, t + BitVec.ofNat w c.t⟩) := rfl
  have ht : t + BitVec.ofNat w (c.t + 4) = t + BitVec.ofNat w c.t + BitVec.ofNat w 4 + BitVec.ofNat w 0 := by
    rw [BitVec.ofNat_add, ← BitVec.add_assoc]
    exact (BitVec.add_zero _).symm
  rw [e, hc, ht]
  exact ⟨⟨_, _, _⟩, rfl⟩

/-- RETI after EI. -/
theorem reti (x : Regs) (c : Cfg) (hc : c.mem (c.pc + 1) = 0xED) (hd : c.mem (c.pc + 1 + 1) = 0x4D) (s : Hid) (i : I)
    (t : BitVec w) : ∃ s' : Hid,
    step o v ⟨{ c.regs x s with pc := c.pc + 1, iff1 := true, iff2 := true, ei := true }, c.mem, i, t⟩ =
      (⟨{ c.regs x s' with pc := word (c.mem (c.sp + 1)) (c.mem c.sp), sp := c.sp + 2, iff1 := true, iff2 := true },
        c.mem, (v.reti (c.pc + 1 + 1 + 1) (t + BitVec.ofNat w 8) i).2, t + BitVec.ofNat w 14⟩,
        match (v.reti (c.pc + 1 + 1 + 1) (t + BitVec.ofNat w 8) i).1 with | some x => .reti x | none => .ok) := by
  have e : step o v ⟨{ c.regs x s with pc := c.pc + 1, iff1 := true, iff2 := true, ei := true }, c.mem, i, t⟩ =
    execOp o v (c.mem (c.pc + 1)) (fetch ⟨{ c.regs x s with pc := c.pc + 1, iff1 := true, iff2 := true, ei := true }, c.mem, i, t⟩) := rfl
  have h8 : t + BitVec.ofNat w 8 = t + BitVec.ofNat w 4 + BitVec.ofNat w 4 := by
    rw [BitVec.add_assoc, ← BitVec.ofNat_add]
  have h14 : t + BitVec.ofNat w 14 = t + BitVec.ofNat w 4 + BitVec.ofNat w 10 := by
    rw [BitVec.add_assoc, ← BitVec.ofNat_add]
  rw [e, hc, h8, h14]
  have e' : ∀ op : U8, c.mem (c.pc + 1 + 1) = op → execOp o v 0xED
      (fetch ⟨{ c.regs x s with pc := c.pc + 1, iff1 := true, iff2 := true, ei := true }, c.mem, i, t⟩) =
      (let s : Mach w I := (fetch ⟨{ c.regs x s with pc := c.pc + 1, iff1 := true, iff2 := true, ei := true }, c.mem, i, t⟩).upd
        fun r => { r with ei := false, halted := false }
      let e := execEd o v (decodeEd op) ((s.skip 1).upd Regs.bumpR)
      Eff.finish e (fEd (decodeEd op)) (tEd (decodeEd op) e.2.1 - 4)) := by
    intro op h
    subst h
    rfl
  rw [e' _ hd]
  exact ⟨⟨_, _, _⟩, rfl⟩

attribute [local irreducible] put push

theorem _root_.Z80.Spec.RalRom.Rom.at_code {m : U16 → U8} (h : Rom m) (a : U16) (x : U8)
    (ha : a.toNat < 0x195 ∧ bytes.getD a.toNat 0 = x) : m a = x := by
  have := h a.toNat ha.1
  rw [BitVec.ofNat_toNat, BitVec.setWidth_eq] at this
  rw [this, ha.2]

theorem rom_put {m : U16 → U8} (h : Rom m) {a : U16} (x : U8) (ha : 0x195 ≤ a.toNat) : Rom (put m a x) := by
  intro i hi
  rw [put_other m x, h i hi]
  intro e
  rw [← e, BitVec.toNat_ofNat] at ha
  omega

theorem inc8_z (b : U8) (f : Fl) : (inc8 b f).2.z = decide (b = 255) := by
  have := b.isLt
  simp only [inc8, add8]
  by_cases h : b = 255
  · subst h; rfl
  · rw [decide_eq_false h]
    simp only [Fl.res]
    exact decide_eq_false (fun e => h (by
      have := e
      simp at this
      bv_omega))

theorem inc8_1 (b : U8) (f : Fl) : (inc8 b f).1.toNat = (b.toNat + 1) % 256 := by
  simp only [inc8, add8, BitVec.toNat_ofNat]
  simp

/-- Execute an instruction. -/
local macro "exec" t:term:max h:term:max : tactic => `(tactic| (refine Goes.trans ($t _ _ (opc $h)) ?_; tidy))
/-- Execute a relative jump. -/
local macro "exec" t:term:max h:term:max "goto" a:term "rel" d:term "if" p:term : tactic =>
  `(tactic| (refine Goes.trans ($t _ _ $a $d (opc $h) (opc $h) (by (try dsimp only); decide +kernel) $p) ?_; tidy))
/-- Execute a conditional instruction. -/
local macro "exec" t:term:max h:term:max "if" p:term : tactic =>
  `(tactic| (refine Goes.trans ($t _ _ (opc $h) $p) ?_; tidy))
/-- Execute an instruction with a word operand. -/
local macro "exec" t:term:max h:term:max "arg16" x:term:max : tactic =>
  `(tactic| (refine Goes.trans ($t _ _ $x (opc $h) (opc $h) (opc $h)) ?_; tidy))

/-- A byte of the counter that is not at its end. -/
theorem last (x : Regs) (c : Cfg) (p : U16) (d : U8) (hm : Rom c.mem) (h1 : c.mem c.pc = 0x34) (h2 : c.mem (c.pc + 1) = 0x20)
    (h3 : c.mem (c.pc + 1 + 1) = d) (h4 : c.pc + 1 + 1 + 1 + disp d = p) (hr : 0x195 ≤ (word c.h c.l).toNat)
    (hq : c.pc.toNat < 0x120) (hn : c.mem (word c.h c.l) ≠ 255) :
    Goes o v x c { c with
      mem := put c.mem (word c.h c.l) (inc8 (c.mem (word c.h c.l)) c.f).1,
      f := (inc8 (c.mem (word c.h c.l)) c.f).2, pc := p, t := c.t + 23 } := by
  refine Goes.trans (incM x c h1) ?_
  refine jrNz x { c with
      mem := put c.mem (word c.h c.l) (inc8 (c.mem (word c.h c.l)) c.f).1,
      f := (inc8 (c.mem (word c.h c.l)) c.f).2, pc := c.pc + 1, t := c.t + 11 } p d ?_ ?_ h4 ?_
  · simp only
    rw [put_other _ _ (by bv_omega), h2]
  · simp only
    rw [put_other _ _ (by bv_omega), h3]
  · simp only [inc8_z, decide_eq_false hn, Bool.not_false]

/-- A byte of the counter that is at its end. -/
theorem carry (x : Regs) (c : Cfg) (hm : Rom c.mem) (h1 : c.mem c.pc = 0x34) (h2 : c.mem (c.pc + 1) = 0x20)
    (h3 : c.mem (c.pc + 1 + 1 + 1) = 0x23) (hr : 0x195 ≤ (word c.h c.l).toNat)
    (hq : c.pc.toNat < 0x120) (hn : c.mem (word c.h c.l) = 255) :
    Goes o v x c { c with
      mem := put c.mem (word c.h c.l) 0,
      f := (inc8 (c.mem (word c.h c.l)) c.f).2, h := hi8 (word c.h c.l + 1), l := lo8 (word c.h c.l + 1),
      pc := c.pc + 1 + 1 + 1 + 1, t := c.t + 24 } := by
  have h0 : (inc8 (c.mem (word c.h c.l)) c.f).1 = 0 := by
    apply BitVec.eq_of_toNat_eq
    rw [inc8_1, hn]
    rfl
  refine Goes.trans (incM x c h1) ?_
  rw [h0]
  refine Goes.trans (jrNzNot x _ ?_ ?_) (incHl x _ ?_)
  · simp only
    rw [put_other _ _ (by bv_omega), h2]
  · simp only [inc8_z, decide_eq_true hn, Bool.not_true, Bool.false_eq_true, not_false_iff]
  · simp only
    rw [put_other _ _ (by bv_omega), h3]

/-- Memory where the four bytes of the counter differ at most. -/
def Apart (m m' : U16 → U8) : Prop := ∀ a : U16, ¬ (0x2000 ≤ a.toNat ∧ a.toNat < 0x2004) → m' a = m a

theorem apart_put {m n : U16 → U8} (h : Apart m n) {a : U16} (x : U8) (ha : 0x2000 ≤ a.toNat ∧ a.toNat < 0x2004) :
    Apart m (put n a x) := by
  intro b hb
  rw [put_other _ _ (fun e => hb (by rw [e]; exact ha)), h b hb]

theorem apart_rom {m n : U16 → U8} (h : Apart m n) (hm : Rom m) : Rom n := by
  intro j hj
  rw [h _ (by rw [BitVec.toNat_ofNat]; omega), hm j hj]

/-- The counter. -/
theorem bump (x : Regs) (c : Cfg) (hm : Rom c.mem) (hp : c.pc = 0x114) (hh : c.h = 0x20) (hl : c.l = 0) :
    ∃ d : Cfg, Goes o v x c d ∧ d.pc = 0x121 ∧ d.a = c.a ∧ d.sp = c.sp ∧
      d.t = c.t + (24 * carries c.mem + if carries c.mem < 3 then 23 else 11) ∧
      frames d.mem = (frames c.mem + 1) % 2 ^ 32 ∧ Apart c.mem d.mem := by
  obtain ⟨a, f, h, l, sp, pc, m, t⟩ := c
  simp only at hm hp hh hl ⊢
  subst hp hh hl
  have w0 : word (0x20 : U8) (0 : U8) = 0x2000 := by decide
  have e0 : hi8 (0x2000 + 1 : U16) = 0x20 ∧ lo8 (0x2000 + 1 : U16) = 1 := by decide
  have w1 : word (0x20 : U8) (1 : U8) = 0x2001 := by decide
  have e1 : hi8 (0x2001 + 1 : U16) = 0x20 ∧ lo8 (0x2001 + 1 : U16) = 2 := by decide
  have w2 : word (0x20 : U8) (2 : U8) = 0x2002 := by decide
  have e2 : hi8 (0x2002 + 1 : U16) = 0x20 ∧ lo8 (0x2002 + 1 : U16) = 3 := by decide
  have w3 : word (0x20 : U8) (3 : U8) = 0x2003 := by decide
  have ap0 : Apart m m := fun _ _ => rfl
  have b0 := (m 0x2000).isLt
  have b1 := (m 0x2001).isLt
  have b2 := (m 0x2002).isLt
  have b3 := (m 0x2003).isLt
  by_cases k0 : m 0x2000 ≠ 255
  · refine ⟨_, last x _ 0x121 0x0A hm (opc hm) (opc hm) (opc hm) (by dsimp only; decide +kernel) (by simp only [w0]; decide)
      (by dsimp only; decide) (by simp only [w0]; exact k0), rfl, rfl, rfl, ?_, ?_, ?_⟩
    · simp only [carries, if_pos k0]; rfl
    · simp only [w0, frames]
      rw [put_same, put_other _ _ (by decide), put_other _ _ (by decide), put_other _ _ (by decide), inc8_1]
      have : (m 0x2000).toNat ≠ 255 := fun e => k0 (BitVec.eq_of_toNat_eq e)
      omega
    · simp only [w0]; exact apart_put ap0 _ (by decide)
  have k0 := Classical.not_not.1 k0
  have g0 := carry (o := o) (v := v) x ⟨a, f, 0x20, 0, sp, 0x114, m, t⟩ hm (opc hm) (opc hm) (opc hm)
    (by simp only [w0]; decide) (by dsimp only; decide) (by simp only [w0]; exact k0)
  simp only [w0, e0.1, e0.2] at g0
  have ap1 := apart_put ap0 (0 : U8) (a := 0x2000) (by decide)
  have hm1 := apart_rom ap1 hm
  have o1 : put m 0x2000 0 0x2001 = m 0x2001 := put_other _ _ (by decide)
  by_cases k1 : m 0x2001 ≠ 255
  · refine ⟨_, g0.trans (last x _ 0x121 0x06 hm1 (opc hm1) (opc hm1) (opc hm1) (by dsimp only; decide +kernel) (by simp only [w1]; decide)
      (by dsimp only; decide) (by simp only [w1, o1]; exact k1)), rfl, rfl, rfl, ?_, ?_, ?_⟩
    · simp only [carries, k0, if_pos k1, ne_eq, not_true_eq_false, if_false]; simp only [Nat.reduceLT, if_true, if_false]
    · simp only [w1, frames, o1]
      rw [put_other _ _ (by decide), put_same, put_same, put_other _ _ (by decide), put_other _ _ (by decide),
        put_other _ _ (by decide), put_other _ _ (by decide), inc8_1, k0]
      have : (m 0x2001).toNat ≠ 255 := fun e => k1 (BitVec.eq_of_toNat_eq e)
      simp only [BitVec.toNat_ofNat, BitVec.reduceToNat]
      omega
    · simp only [w1]; exact apart_put ap1 _ (by decide)
  have k1 := Classical.not_not.1 k1
  have g1 := carry (o := o) (v := v) x _ hm1 (opc hm1) (opc hm1) (opc hm1)
    (by simp only [w1]; decide) (by dsimp only; decide) (by simp only [w1, o1]; exact k1) |> g0.trans
  simp only [w1, e1.1, e1.2, o1] at g1
  have ap2 := apart_put ap1 (0 : U8) (a := 0x2001) (by decide)
  have hm2 := apart_rom ap2 hm
  have o2 : put (put m 0x2000 0) 0x2001 0 0x2002 = m 0x2002 :=
    (put_other _ _ (by decide)).trans (put_other _ _ (by decide))
  by_cases k2 : m 0x2002 ≠ 255
  · refine ⟨_, g1.trans (last x _ 0x121 0x02 hm2 (opc hm2) (opc hm2) (opc hm2) (by dsimp only; decide +kernel) (by simp only [w2]; decide)
      (by dsimp only; decide) (by simp only [w2, o2]; exact k2)), rfl, rfl, rfl, ?_, ?_, ?_⟩
    · simp only [carries, k0, k1, if_pos k2, ne_eq, not_true_eq_false, if_false]; simp only [Nat.reduceLT, if_true, if_false]
    · simp only [w2, frames, o2]
      rw [put_other _ _ (by decide), put_other _ _ (by decide), put_same, put_other _ _ (by decide), put_same,
        put_same, put_other _ _ (by decide), put_other _ _ (by decide),
        put_other _ _ (by decide), inc8_1, k0, k1]
      have : (m 0x2002).toNat ≠ 255 := fun e => k2 (BitVec.eq_of_toNat_eq e)
      simp only [BitVec.toNat_ofNat, BitVec.reduceToNat]
      omega
    · simp only [w2]; exact apart_put ap2 _ (by decide)
  have k2 := Classical.not_not.1 k2
  have g2 := carry (o := o) (v := v) x _ hm2 (opc hm2) (opc hm2) (opc hm2)
    (by simp only [w2]; decide) (by dsimp only; decide) (by simp only [w2, o2]; exact k2) |> g1.trans
  simp only [w2, e2.1, e2.2, o2] at g2
  have ap3 := apart_put ap2 (0 : U8) (a := 0x2002) (by decide)
  have hm3 := apart_rom ap3 hm
  have o3 : put (put (put m 0x2000 0) 0x2001 0) 0x2002 0 0x2003 = m 0x2003 :=
    (put_other _ _ (by decide)).trans ((put_other _ _ (by decide)).trans (put_other _ _ (by decide)))
  refine ⟨_, g2.trans (incM x _ (opc hm3)), rfl, rfl, rfl, ?_, ?_, ?_⟩
  · simp only [carries, k0, k1, k2, ne_eq, not_true_eq_false, if_false]; simp only [Nat.reduceLT, if_true, if_false]
  · simp only [w3, frames, o3]
    rw [put_other _ _ (by decide), put_other _ _ (by decide), put_other _ _ (by decide), put_same,
      put_other _ _ (by decide), put_other _ _ (by decide), put_same,
      put_other _ _ (by decide), put_same, put_same, inc8_1, k0, k1, k2]
    simp only [BitVec.toNat_ofNat, BitVec.reduceToNat]
    omega
  · simp only [w3]; exact apart_put ap3 _ (by decide)

theorem room1 {sp : U16} {n : Nat} (h : Room sp n) (hn : 1 ≤ n) : 0x200C ≤ (sp - 1).toNat := h 1 (by omega) hn
theorem room2 {sp : U16} {n : Nat} (h : Room sp n) (hn : 2 ≤ n) : 0x200C ≤ (sp - 2).toNat := h 2 (by omega) hn
theorem room_sub {sp : U16} {n : Nat} (h : Room sp (n + 2)) : Room (sp - 2) n := by
  intro j h1 h2
  have := h (j + 2) (by omega) (by omega)
  rwa [show sp - 2 - BitVec.ofNat 16 j = sp - BitVec.ofNat 16 (j + 2) by
    rw [Nat.add_comm, BitVec.ofNat_add]
    have : ∀ a b c : U16, a - b - c = a - (b + c) := by intro a b c; bv_omega
    exact this _ _ _]

theorem push_at (m : U16 → U8) {sp a : U16} (x : U16) (h1 : a ≠ sp - 1) (h2 : a ≠ sp - 2) : push m sp x a = m a := by
  rw [push_eq, put_other _ _ h2, put_other _ _ h1]

theorem push_hi (m : U16 → U8) (sp x : U16) : push m sp x (sp - 2 + 1) = hi8 x := by
  rw [push_eq, put_other _ _ (by bv_omega), show sp - 2 + 1 = sp - 1 by bv_omega, put_same]

theorem push_lo (m : U16 → U8) (sp x : U16) : push m sp x (sp - 2) = lo8 x := by
  rw [push_eq, put_same]

theorem push_low (m : U16 → U8) {sp : U16} (x : U16) (h : Room sp 2) {a : U16} (ha : a.toNat < 0x200C) :
    push m sp x a = m a := by
  have h1 := room1 h (by omega)
  have h2 := room2 h (by omega)
  refine push_at m x ?_ ?_
  · rintro rfl; omega
  · rintro rfl; omega

theorem rom_push {m : U16 → U8} (hm : Rom m) {sp : U16} (x : U16) (h : Room sp 2) : Rom (push m sp x) := by
  intro j hj
  rw [push_low m x h (by rw [BitVec.toNat_ofNat]; omega), hm j hj]

theorem frames_push {m : U16 → U8} {sp : U16} (x : U16) (h : Room sp 2) : frames (push m sp x) = frames m := by
  simp only [frames]
  rw [push_low m x h (by decide), push_low m x h (by decide), push_low m x h (by decide), push_low m x h (by decide)]

theorem carries_push {m : U16 → U8} {sp : U16} (x : U16) (h : Room sp 2) : carries (push m sp x) = carries m := by
  simp only [carries]
  rw [push_low m x h (by decide), push_low m x h (by decide), push_low m x h (by decide)]

theorem room_less {sp : U16} {n k : Nat} (h : Room sp n) (hk : k ≤ n) : Room sp k := fun j h1 h2 => h j h1 (by omega)

/-- Time of counting. -/
def countT (k : Nat) : Nat := 24 * k + if k < 3 then 23 else 11

/-- The routine of the first counter, up to EI. -/
theorem frame (x : Regs) (c : Cfg) (hm : Rom c.mem) (hp : c.pc = 0x10F) (hs : Room c.sp 4) :
    ∃ d : Cfg, Goes o v x c d ∧ d.pc = 0x123 ∧ d.a = c.a ∧ d.f = c.f ∧ d.h = c.h ∧ d.l = c.l ∧ d.sp = c.sp ∧
      d.t = c.t + (52 + countT (carries c.mem)) ∧ frames d.mem = (frames c.mem + 1) % 2 ^ 32 ∧ Rom d.mem ∧
      ∀ a : U16, ¬ (0x2000 ≤ a.toNat ∧ a.toNat < 0x2004) → (∀ j, 1 ≤ j → j ≤ 4 → a ≠ c.sp - BitVec.ofNat 16 j) →
        d.mem a = c.mem a := by
  obtain ⟨a, f, h, l, sp, pc, m, t⟩ := c
  simp only at hm hp hs ⊢
  subst hp
  have s2 : Room sp 2 := room_less hs (by omega)
  have s4 : Room (sp - 2) 2 := room_sub hs
  have hm1 := rom_push hm (word a f.byte) s2
  have hm2 := rom_push hm1 (word h l) s4
  have r1 := room1 s2 (by omega)
  have r2 := room2 s2 (by omega)
  have r3 := room1 s4 (by omega)
  have r4 := room2 s4 (by omega)
  have g1 : Goes o v x ⟨a, f, h, l, sp, 0x10F, m, t⟩
      ⟨a, f, 0x20, 0, sp - 2 - 2, 0x114, push (push m sp (word a f.byte)) (sp - 2) (word h l), t + 32⟩ := by
    exec pushAf hm
    exec pushHl hm1
    exec ldHlNN hm2 arg16 0x2000
    exact Goes.refl _ _
  obtain ⟨d, g2, dp, da, ds, dt, df, dm⟩ := bump (o := o) (v := v) x
    ⟨a, f, 0x20, 0, sp - 2 - 2, 0x114, push (push m sp (word a f.byte)) (sp - 2) (word h l), t + 32⟩ hm2 rfl rfl rfl
  rw [frames_push _ s4, frames_push _ s2] at df
  rw [carries_push _ s4, carries_push _ s2] at dt
  have hm3 := apart_rom dm hm2
  obtain ⟨da', f1, h1, l1, sp1, pc1, m1, t1⟩ := d
  simp only at g2 dp da ds dt df dm hm3
  have da := da.symm
  subst dp da ds
  have q1 : m1 (sp - 2 - 2 + 1) = hi8 (word h l) := by
    rw [dm _ (by bv_omega), push_hi]
  have q2 : m1 (sp - 2 - 2) = lo8 (word h l) := by
    rw [dm _ (by bv_omega), push_lo]
  have q3 : m1 (sp - 2 + 1) = hi8 (word a f.byte) := by
    rw [dm _ (by bv_omega), push_at _ _ (by bv_omega) (by bv_omega), push_hi]
  have q4 : m1 (sp - 2) = lo8 (word a f.byte) := by
    rw [dm _ (by bv_omega), push_at _ _ (by bv_omega) (by bv_omega), push_lo]
  have g3 : Goes o v x ⟨a, f1, h1, l1, sp - 2 - 2, 0x121, m1, t1⟩ ⟨a, f, h, l, sp, 0x123, m1, t1 + 20⟩ := by
    exec popHl hm3
    rw [show sp - 2 - 2 + 2 = sp - 2 by bv_omega]
    exec popAf hm3
    rw [show sp - 2 + 2 = sp by bv_omega, q1, q2, q3, q4]
    simp only [hi8_word, lo8_word, of_byte]
    exact Goes.refl _ _
  refine ⟨_, g1.trans (g2.trans g3), rfl, rfl, rfl, rfl, rfl, rfl, ?_, df, hm3, ?_⟩
  · simp only [dt, countT]; omega
  · intro b hb hj
    have j1 := hj 1 (by omega) (by omega)
    have j2 := hj 2 (by omega) (by omega)
    have j3 := hj 3 (by omega) (by omega)
    have j4 := hj 4 (by omega) (by omega)
    simp only
    rw [dm b hb, push_at _ _ (by bv_omega) (by bv_omega), push_at _ _ (by bv_omega) (by bv_omega)]

/-- Wait states. -/
def waits (ws : Option U16) : Nat := (ws.map BitVec.toNat).getD 0

attribute [local semireducible] put push in
/-- Acceptance of an interrupt in mode 2. -/
theorem accept (r : Regs) (m : U16 → U8) (i i1 i2 : I) (t : BitVec w) (vec : U8) (ws : Option U16)
    (h1 : r.iff1 = true) (h2 : r.idx = .hl) (h3 : r.ei = false) (him : r.im = 2) (hi : v.irq t i = (true, i1))
    (ha : v.ack (resume r) (t + BitVec.ofNat w 2) i1 = ((vec, ws), i2)) :
    ∃ s, step o v ⟨r, m, i, t⟩ = ((Cfg.mk r.a r.f r.h r.l (r.sp - 2)
      (word (push m r.sp (resume r) (word r.i vec + 1)) (push m r.sp (resume r) (word r.i vec)))
      (push m r.sp (resume r)) 19).mach { r with iff2 := false } s i2 (t + BitVec.ofNat w (waits ws)), .ok) := by
  have e : step o v ⟨r, m, i, t⟩ = interrupt o v ⟨r, m, i1, t⟩ := by
    have : step o v ⟨r, m, i, t⟩ = if irqOk r then (if (v.irq t i).1 then interrupt o v ⟨r, m, (v.irq t i).2, t⟩ else
      if r.halted then (((⟨r, m, (v.irq t i).2, t⟩ : Mach w I).upd Regs.bumpR).tick 4, .ok)
      else execOp o v (m r.pc) (fetch ⟨r, m, (v.irq t i).2, t⟩)) else
      if r.halted then (((⟨r, m, i, t⟩ : Mach w I).upd Regs.bumpR).tick 4, .ok)
      else execOp o v (m r.pc) (fetch ⟨r, m, i, t⟩) := rfl
    rw [this, if_pos (by simp only [irqOk, h1, h2, h3]; rfl), hi, if_pos rfl]
  rw [e]
  have ht : t + BitVec.ofNat w 6 + BitVec.ofNat w (waits ws) + BitVec.ofNat w 13 =
      t + BitVec.ofNat w (waits ws) + BitVec.ofNat w 19 := by
    rw [BitVec.add_assoc, BitVec.add_assoc, BitVec.add_assoc, ← BitVec.ofNat_add, ← BitVec.ofNat_add,
      ← BitVec.ofNat_add]
    congr 2
    omega
  have hz : t + BitVec.ofNat w 6 = t + BitVec.ofNat w 6 + BitVec.ofNat w 0 := (BitVec.add_zero _).symm
  obtain ⟨a, f, b, c, d, ee, h, l, a', f', b', c', d', e', h', l', ixh, ixl, iyh, iyl, sp, pc, wz, ir, rr, iff1, iff2,
    im, halted, eii, idx, q⟩ := r
  simp only at h1 h2 h3 him
  subst h1 h2 h3 him
  cases halted
  · unfold interrupt
    simp only [wake, Mach.upd, Regs.bumpR, Bool.false_eq_true, if_false, resume] at ha ⊢
    rw [ha]
    simp only [Cfg.mach]
    rw [← ht]
    cases ws with
    | none => simp only [waits]; dsimp only [Option.map, Option.getD]; rw [← hz]; exact ⟨⟨_, _, _⟩, rfl⟩
    | some k => exact ⟨⟨_, _, _⟩, rfl⟩
  · unfold interrupt
    simp only [wake, Mach.upd, Regs.bumpR, if_true, resume] at ha ⊢
    rw [ha]
    simp only [Cfg.mach]
    rw [← ht]
    cases ws with
    | none => simp only [waits]; dsimp only [Option.map, Option.getD]; rw [← hz]; exact ⟨⟨_, _, _⟩, rfl⟩
    | some k => exact ⟨⟨_, _, _⟩, rfl⟩

/-- EI; RETI. -/
theorem ending (x : Regs) (d : Cfg) (h1 : d.mem d.pc = 0xFB) (h2 : d.mem (d.pc + 1) = 0xED)
    (h3 : d.mem (d.pc + 1 + 1) = 0x4D) (s : Hid) (i : I) (t : BitVec w) : ∃ (s' : Hid) (b : Mach w I),
    Reach o v (d.mach x s i t) b ∧ b.io = i ∧ step o v b =
      (⟨{ d.regs x s' with pc := word (d.mem (d.sp + 1)) (d.mem d.sp), sp := d.sp + 2, iff1 := true, iff2 := true },
        d.mem, (v.reti (d.pc + 3) (t + BitVec.ofNat w (d.t + 12)) i).2, t + BitVec.ofNat w (d.t + 18)⟩,
        match (v.reti (d.pc + 3) (t + BitVec.ofNat w (d.t + 12)) i).1 with | some x => .reti x | none => .ok) := by
  obtain ⟨s1, e1⟩ := ei (o := o) (v := v) x d h1 s i t
  obtain ⟨s2, e2⟩ := reti (o := o) (v := v) x d h2 h3 s1 i (t + BitVec.ofNat w (d.t + 4))
  refine ⟨s2, _, .step e1 (.refl _), rfl, e2.trans ?_⟩
  rw [show d.pc + 1 + 1 + 1 = d.pc + 3 by bv_omega, BitVec.add_assoc, BitVec.add_assoc, ← BitVec.ofNat_add,
    ← BitVec.ofNat_add]

/-- The whole of an interrupt of the first counter. -/
theorem frame_int (r : Regs) (m : U16 → U8) (i i1 i2 : I) (t : BitVec w) (ws : Option U16) (hm : Rom m)
    (h1 : r.iff1 = true) (h2 : r.idx = .hl) (h3 : r.ei = false) (him : r.im = 2) (hir : r.i = 1)
    (hs : Room r.sp 6) (hi : v.irq t i = (true, i1))
    (ha : v.ack (resume r) (t + BitVec.ofNat w 2) i1 = ((0, ws), i2)) :
    let n := 71 + waits ws + countT (carries m)
    let p := v.reti 0x126 (t + BitVec.ofNat w (n + 12)) i2
    ∃ b r' m', Reach o v ⟨r, m, i, t⟩ b ∧ b.io = i2 ∧ step o v b =
      (⟨r', m', p.2, t + BitVec.ofNat w (n + 18)⟩, match p.1 with | some x => .reti x | none => .ok) ∧
      Alike { r with pc := resume r, halted := false, iff2 := true } r' ∧ frames m' = (frames m + 1) % 2 ^ 32 ∧
      ∀ a : U16, ¬ (0x2000 ≤ a.toNat ∧ a.toNat < 0x2004) → (∀ j, 1 ≤ j → j ≤ 6 → a ≠ r.sp - BitVec.ofNat 16 j) →
        m' a = m a := by
  intro n p
  obtain ⟨s, e1⟩ := accept (o := o) r m i i1 i2 t 0 ws h1 h2 h3 him hi ha
  have s2 : Room r.sp 2 := room_less hs (by omega)
  have s6 : Room (r.sp - 2) 4 := room_sub hs
  have hm1 := rom_push hm (resume r) s2
  have v0 : word r.i 0 = 0x100 := by rw [hir]; decide
  rw [v0, hm1.at_code (0x100 + 1) 0x01 (by decide +kernel), hm1.at_code 0x100 0x0F (by decide +kernel)] at e1
  obtain ⟨d, g, dp, da, df, dh, dl, ds, dt, dc, dr, dm⟩ := frame (o := o) (v := v) { r with iff2 := false }
    (Cfg.mk r.a r.f r.h r.l (r.sp - 2) 0x10F (push m r.sp (resume r)) 19) hm1 rfl s6
  simp only at da df dh dl ds dt dc dm
  rw [carries_push _ s2] at dt
  rw [frames_push _ s2] at dc
  obtain ⟨s1, g⟩ := g s i2 (t + BitVec.ofNat w (waits ws))
  obtain ⟨s3, b, g', bi, e2⟩ := ending (o := o) (v := v) { r with iff2 := false } d (by rw [dp]; exact opc dr) (by rw [dp]; exact opc dr)
    (by rw [dp]; exact opc dr) s1 i2 (t + BitVec.ofNat w (waits ws))
  have r1 := room1 s2 (by omega)
  have r2 := room2 s2 (by omega)
  have q1 : d.mem (d.sp + 1) = hi8 (resume r) := by
    rw [ds, dm _ (by bv_omega), push_hi]
    intro j j1 j2
    have : j = 1 ∨ j = 2 ∨ j = 3 ∨ j = 4 := by omega
    rcases this with rfl | rfl | rfl | rfl <;> bv_omega
  have q2 : d.mem d.sp = lo8 (resume r) := by
    rw [ds, dm _ (by bv_omega), push_lo]
    intro j j1 j2
    have : j = 1 ∨ j = 2 ∨ j = 3 ∨ j = 4 := by omega
    rcases this with rfl | rfl | rfl | rfl <;> bv_omega
  rw [dp, show (0x123 : U16) + 3 = 0x126 by decide, BitVec.add_assoc, BitVec.add_assoc, ← BitVec.ofNat_add,
    ← BitVec.ofNat_add, show waits ws + (d.t + 12) = n + 12 by simp only [n, dt]; omega,
    show waits ws + (d.t + 18) = n + 18 by simp only [n, dt]; omega] at e2
  refine ⟨b, _, d.mem, (Reach.step e1 g).trans g', bi, e2, ⟨s3.wz, s3.r, s3.q, ?_⟩, dc, ?_⟩
  · rw [q1, q2, word_hi8_lo8, ds, show r.sp - 2 + 2 = r.sp by bv_omega]
    simp only [Cfg.regs, da, df, dh, dl, h1, h2, h3]
  · intro a ha hj
    have j1 := hj 1 (by omega) (by omega)
    have j2 := hj 2 (by omega) (by omega)
    rw [dm a ha, push_at _ _ j1 j2]
    intro j k1 k2
    have := hj (j + 2) (by omega) (by omega)
    rwa [show r.sp - 2 - BitVec.ofNat 16 j = r.sp - BitVec.ofNat 16 (j + 2) by
      rw [Nat.add_comm, BitVec.ofNat_add]
      have : ∀ a b c : U16, a - b - c = a - (b + c) := by intro a b c; bv_omega
      exact this _ _ _]

/-- The whole of an interrupt of the other counters. -/
theorem none_int (r : Regs) (m : U16 → U8) (i i1 i2 : I) (t : BitVec w) (vec : U8) (ws : Option U16) (hm : Rom m)
    (h1 : r.iff1 = true) (h2 : r.idx = .hl) (h3 : r.ei = false) (him : r.im = 2) (hir : r.i = 1)
    (hs : Room r.sp 2) (hv : vec = 2 ∨ vec = 4 ∨ vec = 6) (hi : v.irq t i = (true, i1))
    (ha : v.ack (resume r) (t + BitVec.ofNat w 2) i1 = ((vec, ws), i2)) :
    let n := 19 + waits ws
    let p := v.reti 0x10F (t + BitVec.ofNat w (n + 12)) i2
    ∃ b r' m', Reach o v ⟨r, m, i, t⟩ b ∧ b.io = i2 ∧ step o v b =
      (⟨r', m', p.2, t + BitVec.ofNat w (n + 18)⟩, match p.1 with | some x => .reti x | none => .ok) ∧
      Alike { r with pc := resume r, halted := false, iff2 := true } r' ∧
      ∀ a : U16, a ≠ r.sp - 1 → a ≠ r.sp - 2 → m' a = m a := by
  intro n p
  obtain ⟨s, e1⟩ := accept (o := o) r m i i1 i2 t vec ws h1 h2 h3 him hi ha
  have hm1 := rom_push hm (resume r) hs
  have hvec : word (push m r.sp (resume r) (word r.i vec + 1)) (push m r.sp (resume r) (word r.i vec)) = 0x10C := by
    rw [hir]
    rcases hv with rfl | rfl | rfl
    · rw [show word (1 : U8) 2 = 0x102 by decide, hm1.at_code (0x102 + 1) 0x01 (by decide +kernel), hm1.at_code 0x102 0x0C (by decide +kernel)]; decide
    · rw [show word (1 : U8) 4 = 0x104 by decide, hm1.at_code (0x104 + 1) 0x01 (by decide +kernel), hm1.at_code 0x104 0x0C (by decide +kernel)]; decide
    · rw [show word (1 : U8) 6 = 0x106 by decide, hm1.at_code (0x106 + 1) 0x01 (by decide +kernel), hm1.at_code 0x106 0x0C (by decide +kernel)]; decide
  rw [hvec] at e1
  obtain ⟨s3, b, g', bi, e2⟩ := ending (o := o) (v := v) { r with iff2 := false }
    (Cfg.mk r.a r.f r.h r.l (r.sp - 2) 0x10C (push m r.sp (resume r)) 19) (opc hm1) (opc hm1) (opc hm1) s i2
    (t + BitVec.ofNat w (waits ws))
  simp only at e2
  rw [show (0x10C : U16) + 3 = 0x10F by decide, BitVec.add_assoc, BitVec.add_assoc, ← BitVec.ofNat_add,
    ← BitVec.ofNat_add, show waits ws + (19 + 12) = n + 12 by simp only [n]; omega,
    show waits ws + (19 + 18) = n + 18 by simp only [n]; omega] at e2
  refine ⟨b, _, _, Reach.step e1 g', bi, e2, ⟨s3.wz, s3.r, s3.q, ?_⟩, fun a k1 k2 => push_at _ _ k1 k2⟩
  rw [push_hi, push_lo, word_hi8_lo8, show r.sp - 2 + 2 = r.sp by bv_omega]
  simp only [Cfg.regs, h1, h2, h3]

attribute [local semireducible] put push in
/-- BIT 1,(HL) of a reset bit; the other flags are not followed. -/
theorem bit1 (x : Regs) (c : Cfg) (hc : c.mem c.pc = 0xCB) (h1 : c.mem (c.pc + 1) = 0x4E)
    (hb : (c.mem (word c.h c.l)).toNat.testBit 1 = false) (s : Hid) (i : I) (t : BitVec w) : ∃ (s' : Hid) (f : Fl), f.z = true ∧
    step o v (c.mach x s i t) = ({ c with f := f, pc := c.pc + 2, t := c.t + 12 }.mach x s' i t, .ok) := by
  have e : step o v (c.mach x s i t) = execOp o v (c.mem c.pc)
    (fetch ⟨c.regs x s, c.mem, i, t + BitVec.ofNat w c.t⟩) := rfl
  have e' : ∀ op : U8, c.mem (c.pc + 1) = op → execOp o v 0xCB (fetch ⟨c.regs x s, c.mem, i, t + BitVec.ofNat w c.t⟩) =
      (let s : Mach w I := (fetch ⟨c.regs x s, c.mem, i, t + BitVec.ofNat w c.t⟩).upd
        fun r => { r with ei := false, halted := false }
      Eff.finish (O := O) (R := R) (done (execCb (decodeCb op) ((s.skip 1).upd Regs.bumpR))) (fCb (decodeCb op))
        (tCb (decodeCb op) - 4)) := by
    intro op h
    subst h
    rfl
  have ht : t + BitVec.ofNat w (c.t + 12) = t + BitVec.ofNat w c.t + BitVec.ofNat w 4 + BitVec.ofNat w 8 := by
    rw [BitVec.add_assoc, BitVec.add_assoc, ← BitVec.ofNat_add, ← BitVec.ofNat_add]
  rw [e, hc, e' _ h1]
  simp only [Cfg.mach, ht]
  rw [show c.pc + 2 = c.pc + 1 + 1 by bv_omega]
  refine ⟨⟨_, _, _⟩, _, ?_, rfl⟩
  exact congrArg not hb

/-- RETN. -/
theorem retn (x : Regs) (c : Cfg) (hc : c.mem c.pc = 0xED) (hd : c.mem (c.pc + 1) = 0x45) (s : Hid) (i : I)
    (t : BitVec w) : ∃ s' : Hid, step o v (c.mach x s i t) =
      (⟨{ c.regs x s' with pc := word (c.mem (c.sp + 1)) (c.mem c.sp), sp := c.sp + 2, iff1 := x.iff2 },
        c.mem, i, t + BitVec.ofNat w (c.t + 14)⟩, .ok) := by
  have e : step o v (c.mach x s i t) = execOp o v (c.mem c.pc)
    (fetch ⟨c.regs x s, c.mem, i, t + BitVec.ofNat w c.t⟩) := rfl
  have e' : ∀ op : U8, c.mem (c.pc + 1) = op → execOp o v 0xED (fetch ⟨c.regs x s, c.mem, i, t + BitVec.ofNat w c.t⟩) =
      (let s : Mach w I := (fetch ⟨c.regs x s, c.mem, i, t + BitVec.ofNat w c.t⟩).upd
        fun r => { r with ei := false, halted := false }
      let e := execEd o v (decodeEd op) ((s.skip 1).upd Regs.bumpR)
      Eff.finish e (fEd (decodeEd op)) (tEd (decodeEd op) e.2.1 - 4)) := by
    intro op h
    subst h
    rfl
  have ht : t + BitVec.ofNat w (c.t + 14) = t + BitVec.ofNat w c.t + BitVec.ofNat w 4 + BitVec.ofNat w 10 := by
    rw [BitVec.add_assoc, BitVec.add_assoc, ← BitVec.ofNat_add, ← BitVec.ofNat_add]
  rw [e, hc, e' _ hd, ht]
  exact ⟨⟨_, _, _⟩, rfl⟩

attribute [local semireducible] put push in
theorem nmi_cfg (r : Regs) (m : U16 → U8) (i : I) (t : BitVec w) (h : r.idx = .hl) : ∃ s, Spec.nmi ⟨r, m, i, t⟩ =
    (Cfg.mk r.a r.f r.h r.l (r.sp - 2) 0x66 (push m r.sp (resume r)) 11).mach r s i t := by
  obtain ⟨a, f, b, c, d, ee, h, l, a', f', b', c', d', e', h', l', ixh, ixl, iyh, iyl, sp, pc, wz, ir, rr, iff1, iff2,
    im, halted, eii, idx, q⟩ := r
  simp only at h
  subst h
  cases halted
  · exact ⟨⟨_, _, _⟩, rfl⟩
  · exact ⟨⟨_, _, _⟩, rfl⟩

/-- The whole of a non-maskable interrupt that is not allowed. -/
theorem nmi_not (r : Regs) (m : U16 → U8) (i : I) (t : BitVec w) (hm : Rom m) (h2 : r.idx = .hl) (h3 : r.ei = false)
    (hs : Room r.sp 6) (hb : (m 0x2007).toNat.testBit 1 = false) :
    ∃ r' m', Reach o v (Spec.nmi ⟨r, m, i, t⟩) ⟨r', m', i, t + BitVec.ofNat w 101⟩ ∧
      Alike { r with pc := resume r, halted := false, iff1 := r.iff2 } r' ∧
      ∀ a : U16, (∀ j, 1 ≤ j → j ≤ 6 → a ≠ r.sp - BitVec.ofNat 16 j) → m' a = m a := by
  obtain ⟨s, e⟩ := nmi_cfg r m i t h2
  rw [e]
  have s2 : Room r.sp 2 := room_less hs (by omega)
  have s6 : Room (r.sp - 2) 4 := room_sub hs
  have s4 : Room (r.sp - 2) 2 := room_less s6 (by omega)
  have s8 : Room (r.sp - 2 - 2) 2 := room_sub s6
  have hm1 := rom_push hm (resume r) s2
  have hm2 := rom_push hm1 (word r.h r.l) s4
  have hm3 := rom_push hm2 (word r.a r.f.byte) s8
  have g1 : Goes o v r (Cfg.mk r.a r.f r.h r.l (r.sp - 2) 0x66 (push m r.sp (resume r)) 11)
      ⟨r.a, r.f, 0x20, 7, r.sp - 2 - 2 - 2, 0x6B, push (push (push m r.sp (resume r)) (r.sp - 2) (word r.h r.l))
        (r.sp - 2 - 2) (word r.a r.f.byte), 43⟩ := by
    exec pushHl hm1
    exec pushAf hm2
    exec ldHlNN hm3 arg16 0x2007
    exact Goes.refl _ _
  obtain ⟨s1, g1⟩ := g1 s i t
  have w7 : word (0x20 : U8) (7 : U8) = 0x2007 := by decide
  obtain ⟨s3, f, hf, e2⟩ := bit1 (o := o) (v := v) r ⟨r.a, r.f, 0x20, 7, r.sp - 2 - 2 - 2, 0x6B,
    push (push (push m r.sp (resume r)) (r.sp - 2) (word r.h r.l)) (r.sp - 2 - 2) (word r.a r.f.byte), 43⟩
    (opc hm3) (opc hm3) (by simp only [w7]; rw [push_low _ _ s8 (by decide), push_low _ _ s4 (by decide),
      push_low _ _ s2 (by decide)]; exact hb) s1 i t
  simp only [Nat.reduceAdd, show (0x6B : U16) + 2 = 0x6D by decide] at e2
  generalize hM : push (push (push m r.sp (resume r)) (r.sp - 2) (word r.h r.l)) (r.sp - 2 - 2)
    (word r.a r.f.byte) = M at hm3 g1 e2
  have q1 : M (r.sp - 2 - 2 - 2 + 1) = hi8 (word r.a r.f.byte) := by rw [← hM, push_hi]
  have q2 : M (r.sp - 2 - 2 - 2) = lo8 (word r.a r.f.byte) := by rw [← hM, push_lo]
  have q3 : M (r.sp - 2 - 2 + 1) = hi8 (word r.h r.l) := by
    rw [← hM, push_at _ _ (by bv_omega) (by bv_omega), push_hi]
  have q4 : M (r.sp - 2 - 2) = lo8 (word r.h r.l) := by
    rw [← hM, push_at _ _ (by bv_omega) (by bv_omega), push_lo]
  have q5 : M (r.sp - 2 + 1) = hi8 (resume r) := by
    rw [← hM, push_at _ _ (by bv_omega) (by bv_omega), push_at _ _ (by bv_omega) (by bv_omega), push_hi]
  have q6 : M (r.sp - 2) = lo8 (resume r) := by
    rw [← hM, push_at _ _ (by bv_omega) (by bv_omega), push_at _ _ (by bv_omega) (by bv_omega), push_lo]
  have g3 : Goes o v r ⟨r.a, f, 0x20, 7, r.sp - 2 - 2 - 2, 0x6D, M, 55⟩ ⟨r.a, r.f, r.h, r.l, r.sp - 2, 0x75, M, 87⟩ := by
    exec jrZ hm3 goto 0x73 rel 4 if hf
    exec popAf hm3
    rw [show r.sp - 2 - 2 - 2 + 2 = r.sp - 2 - 2 by bv_omega]
    exec popHl hm3
    rw [show r.sp - 2 - 2 + 2 = r.sp - 2 by bv_omega, q1, q2, q3, q4]
    simp only [hi8_word, lo8_word, of_byte]
    exact Goes.refl _ _
  obtain ⟨s4', g3⟩ := g3 s3 i t
  obtain ⟨s5, e4⟩ := retn (o := o) (v := v) r ⟨r.a, r.f, r.h, r.l, r.sp - 2, 0x75, M, 87⟩ (opc hm3) (opc hm3) s4' i t
  refine ⟨_, M, g1.trans (.step e2 (g3.trans (.step e4 (.refl _)))), ⟨s5.wz, s5.r, s5.q, ?_⟩, ?_⟩
  · simp only [q5, q6, word_hi8_lo8, show r.sp - 2 + 2 = r.sp by bv_omega, Cfg.regs, h2, h3]
  · intro a hj
    have j1 := hj 1 (by omega) (by omega)
    have j2 := hj 2 (by omega) (by omega)
    have j3 := hj 3 (by omega) (by omega)
    have j4 := hj 4 (by omega) (by omega)
    have j5 := hj 5 (by omega) (by omega)
    have j6 := hj 6 (by omega) (by omega)
    rw [← hM, push_at _ _ (by bv_omega) (by bv_omega), push_at _ _ (by bv_omega) (by bv_omega),
      push_at _ _ (by bv_omega) (by bv_omega)]

/-! ### Forwarding -/

attribute [local semireducible] put push in
theorem rst18 (x : Regs) (c : Cfg) (hc : c.mem c.pc = 0xDF) : Goes o v x c
    { c with mem := push c.mem c.sp (c.pc + 1), sp := c.sp - 2, pc := 0x18, t := c.t + 11 } := plain 0xDF 7 hc
attribute [local semireducible] put push in
theorem rst20 (x : Regs) (c : Cfg) (hc : c.mem c.pc = 0xE7) : Goes o v x c
    { c with mem := push c.mem c.sp (c.pc + 1), sp := c.sp - 2, pc := 0x20, t := c.t + 11 } := plain 0xE7 7 hc
attribute [local semireducible] put push in
theorem rst30 (x : Regs) (c : Cfg) (hc : c.mem c.pc = 0xF7) : Goes o v x c
    { c with mem := push c.mem c.sp (c.pc + 1), sp := c.sp - 2, pc := 0x30, t := c.t + 11 } := plain 0xF7 7 hc
theorem jpHl (x : Regs) (c : Cfg) (hc : c.mem c.pc = 0xE9) : Goes o v x c
    { c with pc := word c.h c.l, t := c.t + 4 } := plain 0xE9 0 hc

theorem jpIx (x : Regs) (c : Cfg) (hc : c.mem c.pc = 0xDD) (h1 : c.mem (c.pc + 1) = 0xE9) : Goes o v x c
    { c with pc := word x.ixh x.ixl, t := c.t + 8 } := by
  intro s i t
  have e : step o v (c.mach x s i t) = execOp o v (c.mem c.pc)
    (fetch ⟨c.regs x s, c.mem, i, t + BitVec.ofNat w c.t⟩) := rfl
  have e' : execOp o v 0xDD (fetch ⟨c.regs x s, c.mem, i, t + BitVec.ofNat w c.t⟩) =
    (⟨{ c.regs x ⟨s.wz, ((c.regs x s).bumpR).r, s.q.map fun _ => false⟩ with pc := c.pc + 1, idx := .ix }, c.mem, i,
      t + BitVec.ofNat w c.t + BitVec.ofNat w 4⟩, .ok) := rfl
  have f : ∀ s, step o v ⟨{ c.regs x s with pc := c.pc + 1, idx := .ix }, c.mem, i,
      t + BitVec.ofNat w c.t + BitVec.ofNat w 4⟩ = execOp o v (c.mem (c.pc + 1))
    (fetch ⟨{ c.regs x s with pc := c.pc + 1, idx := .ix }, c.mem, i, t + BitVec.ofNat w c.t + BitVec.ofNat w 4⟩) := fun _ => rfl
  have ht : t + BitVec.ofNat w (c.t + 8) = t + BitVec.ofNat w c.t + BitVec.ofNat w 4 + BitVec.ofNat w 4 + BitVec.ofNat w 0 := by
    rw [BitVec.add_assoc, BitVec.add_assoc, BitVec.add_assoc, ← BitVec.ofNat_add, ← BitVec.ofNat_add, ← BitVec.ofNat_add]
  rw [hc, e'] at e
  refine ⟨⟨?_, ?_, ?_⟩, .step e (.step ((f _).trans ?_) (.refl _))⟩
  rotate_right
  · rw [h1]
    simp only [Cfg.mach, ht]
    rfl

theorem jpIy (x : Regs) (c : Cfg) (hc : c.mem c.pc = 0xFD) (h1 : c.mem (c.pc + 1) = 0xE9) : Goes o v x c
    { c with pc := word x.iyh x.iyl, t := c.t + 8 } := by
  intro s i t
  have e : step o v (c.mach x s i t) = execOp o v (c.mem c.pc)
    (fetch ⟨c.regs x s, c.mem, i, t + BitVec.ofNat w c.t⟩) := rfl
  have e' : execOp o v 0xFD (fetch ⟨c.regs x s, c.mem, i, t + BitVec.ofNat w c.t⟩) =
    (⟨{ c.regs x ⟨s.wz, ((c.regs x s).bumpR).r, s.q.map fun _ => false⟩ with pc := c.pc + 1, idx := .iy }, c.mem, i,
      t + BitVec.ofNat w c.t + BitVec.ofNat w 4⟩, .ok) := rfl
  have f : ∀ s, step o v ⟨{ c.regs x s with pc := c.pc + 1, idx := .iy }, c.mem, i,
      t + BitVec.ofNat w c.t + BitVec.ofNat w 4⟩ = execOp o v (c.mem (c.pc + 1))
    (fetch ⟨{ c.regs x s with pc := c.pc + 1, idx := .iy }, c.mem, i, t + BitVec.ofNat w c.t + BitVec.ofNat w 4⟩) := fun _ => rfl
  have ht : t + BitVec.ofNat w (c.t + 8) = t + BitVec.ofNat w c.t + BitVec.ofNat w 4 + BitVec.ofNat w 4 + BitVec.ofNat w 0 := by
    rw [BitVec.add_assoc, BitVec.add_assoc, BitVec.add_assoc, ← BitVec.ofNat_add, ← BitVec.ofNat_add, ← BitVec.ofNat_add]
  rw [hc, e'] at e
  refine ⟨⟨?_, ?_, ?_⟩, .step e (.step ((f _).trans ?_) (.refl _))⟩
  rotate_right
  · rw [h1]
    simp only [Cfg.mach, ht]
    rfl

/-- The forwarding restarts. -/
theorem forward (r : Regs) (m : U16 → U8) (i : I) (t : BitVec w) (hm : Rom m) (h1 : r.iff1 = false) (h2 : r.idx = .hl)
    (hh : r.halted = false) (he : r.ei = false) (hs : Room r.sp 2) (a : U16) (hf : forwards (m r.pc) r = some a) : ∃ r' n,
    Reach o v ⟨r, m, i, t⟩ ⟨r', push m r.sp (r.pc + 1), i, t + BitVec.ofNat w n⟩ ∧
    Alike { r with sp := r.sp - 2, pc := a } r' ∧ n = (if m r.pc = 0xF7 then 15 else 19) := by
  have e : (⟨r, m, i, t⟩ : Mach w I) = (Cfg.mk r.a r.f r.h r.l r.sp r.pc m 0).mach r ⟨r.wz, r.r, r.q⟩ i t := by
    simp only [Cfg.mach, Cfg.regs]
    obtain ⟨a, f, b, c, d, ee, h, l, a', f', b', c', d', e', h', l', ixh, ixl, iyh, iyl, sp, pc, wz, ir, rr, iff1, iff2,
      im, halted, eii, idx, q⟩ := r
    simp only at h1 h2 hh he
    subst h1 h2 hh he
    rw [show t + BitVec.ofNat w 0 = t from BitVec.add_zero _]
  have hm1 := rom_push hm (r.pc + 1) hs
  rw [e]
  simp only [forwards] at hf
  have al : ∀ (s : Hid) (a : U16) k, Alike { r with sp := r.sp - 2, pc := a }
      ((Cfg.mk r.a r.f r.h r.l (r.sp - 2) a (push m r.sp (r.pc + 1)) k).regs r s) := by
    intro s a k
    refine ⟨s.wz, s.r, s.q, ?_⟩
    simp only [Cfg.regs, h1, h2, hh, he]
  split at hf
  · rename_i ho
    cases hf
    have g : Goes o v r (Cfg.mk r.a r.f r.h r.l r.sp r.pc m 0)
        (Cfg.mk r.a r.f r.h r.l (r.sp - 2) (word r.ixh r.ixl) (push m r.sp (r.pc + 1)) 19) :=
      (rst18 r _ ho).trans (jpIx r _ (opc hm1) (opc hm1))
    obtain ⟨s, g⟩ := g ⟨r.wz, r.r, r.q⟩ i t
    exact ⟨_, 19, g, al s _ _, by rw [ho]; rfl⟩
  · split at hf
    · rename_i ho
      cases hf
      have g : Goes o v r (Cfg.mk r.a r.f r.h r.l r.sp r.pc m 0)
          (Cfg.mk r.a r.f r.h r.l (r.sp - 2) (word r.iyh r.iyl) (push m r.sp (r.pc + 1)) 19) :=
        (rst20 r _ ho).trans (jpIy r _ (opc hm1) (opc hm1))
      obtain ⟨s, g⟩ := g ⟨r.wz, r.r, r.q⟩ i t
      exact ⟨_, 19, g, al s _ _, by rw [ho]; rfl⟩
    · split at hf
      · rename_i ho
        cases hf
        have g : Goes o v r (Cfg.mk r.a r.f r.h r.l r.sp r.pc m 0)
            (Cfg.mk r.a r.f r.h r.l (r.sp - 2) (word r.h r.l) (push m r.sp (r.pc + 1)) 15) :=
          (rst30 r _ ho).trans (jpHl r _ (opc hm1))
        obtain ⟨s, g⟩ := g ⟨r.wz, r.r, r.q⟩ i t
        exact ⟨_, 15, g, al s _ _, by rw [ho]; rfl⟩
      · cases hf

/-! ### `execute_next` -/

/-- `execute_next` called `n` times, each time reporting nothing. -/
def nexts {Q : Type} [Flavour Q] (io : Handler (tsSig w O R) I) (deb : Bool) : Nat → Cpu Q → BitVec w × Mem × I →
    Option (Cpu Q × (BitVec w × Mem × I))
  | 0, c, h => some (c, h)
  | n + 1, c, h =>
    let r := (executeNext deb c).run (ramHost io) h
    match r.1.1 with
    | .ok => nexts io deb n r.1.2 r.2
    | _ => none

variable {Q : Type} [FlavourSpec Q]

theorem nexts_reach (io : Handler (tsSig w O R) I) (deb : Bool) {a b : Mach w I}
    (h : Reach (FlavourSpec.opt Q) (envOf io) a b) : ∀ {c : Cpu Q} {t : BitVec w} {m : Mem} {i : I},
    (⟨abs c, m, i, t⟩ : Mach w I) = a → ∃ n c', nexts io deb n c (t, m, i) = some (c', b.t, b.mem, b.io) ∧ abs c' = b.r := by
  induction h with
  | refl a =>
    intro c t m i e
    subst e
    exact ⟨0, c, rfl, rfl⟩
  | @step a b d s _ ih =>
    intro c t m i e
    have h := C44_execute_next io deb c t m i
    rw [e, s] at h
    obtain ⟨h1, h2⟩ := h
    generalize hr : (executeNext deb c).run (ramHost io) (t, m, i) = r at h1 h2
    obtain ⟨⟨res, c1⟩, t1, m1, i1⟩ := r
    simp only at h1 h2
    obtain ⟨n, c', g1, g2⟩ := ih h1
    refine ⟨n + 1, c', ?_, g2⟩
    have hres : res = .ok := by
      cases res with
      | ok => rfl
      | _ => cases h2
    subst hres
    simp only [nexts]
    rw [hr]
    exact g1

end Z80.Kernel
