import Verif.Spec.Shuffle
import Verif.Spec.Machine
import Verif.Proofs.Alu

/-!
# Symbolic execution of machine code

Steps of the specified machine (`Verif/Spec/Machine.lean`) with interrupts disabled, instruction by instruction.
-/

set_option linter.unusedVariables false

namespace Z80.Routine
open Spec Spec.Shuffle
variable {w : Nat} {O R I : Type}

/-- What the routines use of the processor and its memory, and the time since the start. -/
structure Core where
  a : U8
  f : Fl
  b : U8
  c : U8
  d : U8
  e : U8
  h : U8
  l : U8
  a' : U8
  f' : Fl
  b' : U8
  c' : U8
  d' : U8
  e' : U8
  h' : U8
  l' : U8
  sp : U16
  pc : U16
  mem : U16 → U8
  t : Nat

/-- What they do not use. -/
structure Rest where
  ixh : U8
  ixl : U8
  iyh : U8
  iyl : U8
  wz : U16
  i : U8
  r : U8
  iff2 : Bool
  im : Nat
  ei : Bool
  q : Option Bool

/-- Registers with interrupts disabled. -/
def Core.regs (c : Core) (x : Rest) : Regs :=
  { a := c.a, f := c.f, b := c.b, c := c.c, d := c.d, e := c.e, h := c.h, l := c.l
    a' := c.a', f' := c.f', b' := c.b', c' := c.c', d' := c.d', e' := c.e', h' := c.h', l' := c.l'
    ixh := x.ixh, ixl := x.ixl, iyh := x.iyh, iyl := x.iyl, sp := c.sp, pc := c.pc, wz := x.wz
    i := x.i, r := x.r, iff1 := false, iff2 := x.iff2, im := x.im, halted := false, ei := x.ei
    idx := .hl, q := x.q }

/-- The machine. -/
def Core.mach (c : Core) (x : Rest) (i : I) (t : BitVec w) : Mach w I :=
  ⟨c.regs x, c.mem, i, t + BitVec.ofNat w c.t⟩

/-- One step leads from one to the other. -/
def One (o : Opt) (v : Env w O R I) (c d : Core) : Prop :=
  ∀ x i t, ∃ y, step o v (c.mach x i t) = (d.mach y i t, .ok)

/-- A step given by the opcode. -/
theorem One.of {o : Opt} {v : Env w O R I} {c d : Core} (op : U8) (n : Nat) (hop : c.mem c.pc = op)
    (h : ∀ x i (t : BitVec w), ∃ y, execOp o v op (fetch ⟨c.regs x, c.mem, i, t⟩) =
      (⟨d.regs y, d.mem, i, t + BitVec.ofNat w 4 + BitVec.ofNat w n⟩, .ok))
    (ht : d.t = c.t + (4 + n)) : One o v c d := by
  intro x i t
  obtain ⟨y, h⟩ := h x i (t + BitVec.ofNat w c.t)
  refine ⟨y, ?_⟩
  have e : step o v (c.mach x i t) = execOp o v (c.mem c.pc)
    (fetch ⟨c.regs x, c.mem, i, t + BitVec.ofNat w c.t⟩) := rfl
  rw [e, hop, h]
  simp only [Core.mach, ht, BitVec.add_assoc, BitVec.ofNat_add]

variable {o : Opt} {v : Env w O R I}


/-- Two steps lead from one to the other; flags in between may depend on what is in `Rest`. -/
def Two (o : Opt) (v : Env w O R I) (c d : Core) : Prop :=
  ∀ x i t, ∃ m y, step o v (c.mach x i t) = (m, .ok) ∧ m.mem = c.mem ∧ m.io = i ∧ step o v m = (d.mach y i t, .ok)

/-- Several steps. -/
inductive Run (o : Opt) (v : Env w O R I) : Core → Core → Prop
  | refl (c : Core) : Run o v c c
  | step {a b c : Core} : One o v a b → Run o v b c → Run o v a c
  | pair {a b c : Core} : Two o v a b → Run o v b c → Run o v a c

theorem Run.trans {a b c : Core} (h : Run o v a b) (g : Run o v b c) : Run o v a c := by
  induction h with
  | refl => exact g
  | step s _ ih => exact .step s (ih g)
  | pair s _ ih => exact .pair s (ih g)

theorem Run.to {a b c : Core} (h : Run o v a b) (e : b = c) : Run o v a c := e ▸ h

/-- Memory with a byte stored. -/
def put (m : U16 → U8) (a : U16) (x : U8) : U16 → U8 := fun b => if b = a then x else m b

/-- Memory with a word pushed. -/
def push (m : U16 → U8) (sp : U16) (x : U16) : U16 → U8 := put (put m (sp - 1) (hi8 x)) (sp - 2) (lo8 x)

/-- A proof for an instruction without condition. -/
local macro "plain" op:num n:num h:ident : term =>
  `(One.of $op $n $h (fun x i t => ⟨⟨_, _, _, _, _, _, _, _, _, _, _⟩, rfl⟩) rfl)

theorem ldBH (c : Core) (hc : c.mem c.pc = 0x44) : One o v c
    { c with b := c.h, pc := c.pc + 1, t := c.t + 4 } := plain 0x44 0 hc

theorem ldCL (c : Core) (hc : c.mem c.pc = 0x4D) : One o v c
    { c with c := c.l, pc := c.pc + 1, t := c.t + 4 } := plain 0x4D 0 hc

theorem ldAB (c : Core) (hc : c.mem c.pc = 0x78) : One o v c
    { c with a := c.b, pc := c.pc + 1, t := c.t + 4 } := plain 0x78 0 hc

theorem ldBA (c : Core) (hc : c.mem c.pc = 0x47) : One o v c
    { c with b := c.a, pc := c.pc + 1, t := c.t + 4 } := plain 0x47 0 hc

theorem ldDA (c : Core) (hc : c.mem c.pc = 0x57) : One o v c
    { c with d := c.a, pc := c.pc + 1, t := c.t + 4 } := plain 0x57 0 hc

theorem ldCB (c : Core) (hc : c.mem c.pc = 0x48) : One o v c
    { c with c := c.b, pc := c.pc + 1, t := c.t + 4 } := plain 0x48 0 hc

theorem ldAM (c : Core) (hc : c.mem c.pc = 0x7E) : One o v c
    { c with a := c.mem (word c.h c.l), pc := c.pc + 1, t := c.t + 7 } := plain 0x7E 3 hc

theorem ldEL (c : Core) (hc : c.mem c.pc = 0x5D) : One o v c
    { c with e := c.l, pc := c.pc + 1, t := c.t + 4 } := plain 0x5D 0 hc

theorem ldDH (c : Core) (hc : c.mem c.pc = 0x54) : One o v c
    { c with d := c.h, pc := c.pc + 1, t := c.t + 4 } := plain 0x54 0 hc

theorem ldBC (c : Core) (hc : c.mem c.pc = 0x41) : One o v c
    { c with b := c.c, pc := c.pc + 1, t := c.t + 4 } := plain 0x41 0 hc

theorem ldCM (c : Core) (hc : c.mem c.pc = 0x4E) : One o v c
    { c with c := c.mem (word c.h c.l), pc := c.pc + 1, t := c.t + 7 } := plain 0x4E 3 hc

theorem ldMA (c : Core) (hc : c.mem c.pc = 0x77) : One o v c
    { c with mem := put c.mem (word c.h c.l) c.a, pc := c.pc + 1, t := c.t + 7 } := plain 0x77 3 hc

theorem ldAC (c : Core) (hc : c.mem c.pc = 0x79) : One o v c
    { c with a := c.c, pc := c.pc + 1, t := c.t + 4 } := plain 0x79 0 hc

theorem ldEM (c : Core) (hc : c.mem c.pc = 0x5E) : One o v c
    { c with e := c.mem (word c.h c.l), pc := c.pc + 1, t := c.t + 7 } := plain 0x5E 3 hc

theorem ldEA (c : Core) (hc : c.mem c.pc = 0x5F) : One o v c
    { c with e := c.a, pc := c.pc + 1, t := c.t + 4 } := plain 0x5F 0 hc

theorem ldHlNN (c : Core) (x : U16) (hc : c.mem c.pc = 0x21) (h1 : c.mem (c.pc + 1) = lo8 x)
    (h2 : c.mem (c.pc + 1 + 1) = hi8 x) : One o v c
    { c with h := hi8 x, l := lo8 x, pc := c.pc + 1 + 2, t := c.t + 10 } := by
  have e : x = word (c.mem (c.pc + 1 + 1)) (c.mem (c.pc + 1)) := by rw [h1, h2, word_hi8_lo8]
  subst e
  exact plain 0x21 6 hc

theorem ldDeNN (c : Core) (x : U16) (hc : c.mem c.pc = 0x11) (h1 : c.mem (c.pc + 1) = lo8 x)
    (h2 : c.mem (c.pc + 1 + 1) = hi8 x) : One o v c
    { c with d := hi8 x, e := lo8 x, pc := c.pc + 1 + 2, t := c.t + 10 } := by
  have e : x = word (c.mem (c.pc + 1 + 1)) (c.mem (c.pc + 1)) := by rw [h1, h2, word_hi8_lo8]
  subst e
  exact plain 0x11 6 hc

theorem ldBN (c : Core) (x : U8) (hc : c.mem c.pc = 0x06) (h1 : c.mem (c.pc + 1) = x) : One o v c
    { c with b := x, pc := c.pc + 1 + 1, t := c.t + 7 } := by
  subst h1
  exact plain 0x06 3 hc

theorem ldCN (c : Core) (x : U8) (hc : c.mem c.pc = 0x0E) (h1 : c.mem (c.pc + 1) = x) : One o v c
    { c with c := x, pc := c.pc + 1 + 1, t := c.t + 7 } := by
  subst h1
  exact plain 0x0E 3 hc

theorem decB (c : Core) (hc : c.mem c.pc = 0x05) : One o v c
    { c with b := (dec8 c.b c.f).1, f := (dec8 c.b c.f).2, pc := c.pc + 1, t := c.t + 4 } := plain 0x05 0 hc

theorem incC (c : Core) (hc : c.mem c.pc = 0x0C) : One o v c
    { c with c := (inc8 c.c c.f).1, f := (inc8 c.c c.f).2, pc := c.pc + 1, t := c.t + 4 } := plain 0x0C 0 hc

theorem decHl (c : Core) (hc : c.mem c.pc = 0x2B) : One o v c
    { c with h := hi8 (word c.h c.l - 1), l := lo8 (word c.h c.l - 1), pc := c.pc + 1, t := c.t + 6 } := plain 0x2B 2 hc

theorem incHl (c : Core) (hc : c.mem c.pc = 0x23) : One o v c
    { c with h := hi8 (word c.h c.l + 1), l := lo8 (word c.h c.l + 1), pc := c.pc + 1, t := c.t + 6 } := plain 0x23 2 hc

theorem exDeHl (c : Core) (hc : c.mem c.pc = 0xEB) : One o v c
    { c with d := c.h, e := c.l, h := c.d, l := c.e, pc := c.pc + 1, t := c.t + 4 } := plain 0xEB 0 hc

theorem addHlBc (c : Core) (hc : c.mem c.pc = 0x09) : One o v c
    { c with h := hi8 (add16 (word c.h c.l) (word c.b c.c) c.f).1, l := lo8 (add16 (word c.h c.l) (word c.b c.c) c.f).1, f := (add16 (word c.h c.l) (word c.b c.c) c.f).2, pc := c.pc + 1, t := c.t + 11 } := plain 0x09 7 hc

theorem addHlDe (c : Core) (hc : c.mem c.pc = 0x19) : One o v c
    { c with h := hi8 (add16 (word c.h c.l) (word c.d c.e) c.f).1, l := lo8 (add16 (word c.h c.l) (word c.d c.e) c.f).1, f := (add16 (word c.h c.l) (word c.d c.e) c.f).2, pc := c.pc + 1, t := c.t + 11 } := plain 0x19 7 hc

theorem addHlHl (c : Core) (hc : c.mem c.pc = 0x29) : One o v c
    { c with h := hi8 (add16 (word c.h c.l) (word c.h c.l) c.f).1, l := lo8 (add16 (word c.h c.l) (word c.h c.l) c.f).1, f := (add16 (word c.h c.l) (word c.h c.l) c.f).2, pc := c.pc + 1, t := c.t + 11 } := plain 0x29 7 hc

theorem exx (c : Core) (hc : c.mem c.pc = 0xD9) : One o v c
    { c with b := c.b', c := c.c', d := c.d', e := c.e', h := c.h', l := c.l', b' := c.b, c' := c.c, d' := c.d, e' := c.e, h' := c.h, l' := c.l, pc := c.pc + 1, t := c.t + 4 } := plain 0xD9 0 hc

theorem exAf (c : Core) (hc : c.mem c.pc = 0x08) : One o v c
    { c with a := c.a', f := c.f', a' := c.a, f' := c.f, pc := c.pc + 1, t := c.t + 4 } := plain 0x08 0 hc

theorem adcAA (c : Core) (hc : c.mem c.pc = 0x8F) : One o v c
    { c with a := (add8 c.a c.a c.f.c).1, f := (add8 c.a c.a c.f.c).2, pc := c.pc + 1, t := c.t + 4 } := plain 0x8F 0 hc

theorem addAA (c : Core) (hc : c.mem c.pc = 0x87) : One o v c
    { c with a := (add8 c.a c.a false).1, f := (add8 c.a c.a false).2, pc := c.pc + 1, t := c.t + 4 } := plain 0x87 0 hc

theorem cpM (c : Core) (hc : c.mem c.pc = 0xBE) : One o v c
    { c with f := cp8 c.a (c.mem (word c.h c.l)), pc := c.pc + 1, t := c.t + 7 } := plain 0xBE 3 hc

theorem cpE (c : Core) (hc : c.mem c.pc = 0xBB) : One o v c
    { c with f := cp8 c.a c.e, pc := c.pc + 1, t := c.t + 4 } := plain 0xBB 0 hc

theorem ldDeA (c : Core) (hc : c.mem c.pc = 0x12) : One o v c
    { c with mem := put c.mem (word c.d c.e) c.a, pc := c.pc + 1, t := c.t + 7 } := plain 0x12 3 hc

theorem pushHl (c : Core) (hc : c.mem c.pc = 0xE5) : One o v c
    { c with mem := push c.mem c.sp (word c.h c.l), sp := c.sp - 2, pc := c.pc + 1, t := c.t + 11 } := plain 0xE5 7 hc

theorem pushBc (c : Core) (hc : c.mem c.pc = 0xC5) : One o v c
    { c with mem := push c.mem c.sp (word c.b c.c), sp := c.sp - 2, pc := c.pc + 1, t := c.t + 11 } := plain 0xC5 7 hc

theorem popHl (c : Core) (hc : c.mem c.pc = 0xE1) : One o v c
    { c with h := hi8 (word (c.mem (c.sp + 1)) (c.mem c.sp)), l := lo8 (word (c.mem (c.sp + 1)) (c.mem c.sp)), sp := c.sp + 2, pc := c.pc + 1, t := c.t + 10 } := plain 0xE1 6 hc

theorem popBc (c : Core) (hc : c.mem c.pc = 0xC1) : One o v c
    { c with b := hi8 (word (c.mem (c.sp + 1)) (c.mem c.sp)), c := lo8 (word (c.mem (c.sp + 1)) (c.mem c.sp)), sp := c.sp + 2, pc := c.pc + 1, t := c.t + 10 } := plain 0xC1 6 hc

theorem ret (c : Core) (hc : c.mem c.pc = 0xC9) : One o v c
    { c with pc := word (c.mem (c.sp + 1)) (c.mem c.sp), sp := c.sp + 2, t := c.t + 10 } := plain 0xC9 6 hc

theorem di (c : Core) (hc : c.mem c.pc = 0xF3) : One o v c
    { c with pc := c.pc + 1, t := c.t + 4 } := plain 0xF3 0 hc

theorem ldSpHl (c : Core) (hc : c.mem c.pc = 0xF9) : One o v c
    { c with sp := word c.h c.l, pc := c.pc + 1, t := c.t + 6 } := plain 0xF9 2 hc

theorem ldMemHl (c : Core) (x : U16) (hc : c.mem c.pc = 0x22) (h1 : c.mem (c.pc + 1) = lo8 x)
    (h2 : c.mem (c.pc + 1 + 1) = hi8 x) : One o v c
    { c with mem := put (put c.mem x (lo8 (word c.h c.l))) (x + 1) (hi8 (word c.h c.l)), pc := c.pc + 1 + 2, t := c.t + 16 } := by
  have e : x = word (c.mem (c.pc + 1 + 1)) (c.mem (c.pc + 1)) := by rw [h1, h2, word_hi8_lo8]
  subst e
  exact plain 0x22 12 hc

theorem jp (c : Core) (x : U16) (hc : c.mem c.pc = 0xC3) (h1 : c.mem (c.pc + 1) = lo8 x)
    (h2 : c.mem (c.pc + 1 + 1) = hi8 x) : One o v c
    { c with pc := x, t := c.t + 10 } := by
  have e : x = word (c.mem (c.pc + 1 + 1)) (c.mem (c.pc + 1)) := by rw [h1, h2, word_hi8_lo8]
  subst e
  exact plain 0xC3 6 hc

theorem jpHl (c : Core) (hc : c.mem c.pc = 0xE9) : One o v c
    { c with pc := word c.h c.l, t := c.t + 4 } := plain 0xE9 0 hc

theorem ldHlMem (c : Core) (x : U16) (hc : c.mem c.pc = 0x2A) (h1 : c.mem (c.pc + 1) = lo8 x)
    (h2 : c.mem (c.pc + 1 + 1) = hi8 x) : One o v c
    { c with h := hi8 (word (c.mem (x + 1)) (c.mem x)), l := lo8 (word (c.mem (x + 1)) (c.mem x)), pc := c.pc + 1 + 2, t := c.t + 16 } := by
  have e : x = word (c.mem (c.pc + 1 + 1)) (c.mem (c.pc + 1)) := by rw [h1, h2, word_hi8_lo8]
  subst e
  exact plain 0x2A 12 hc

theorem rst8 (c : Core) (hc : c.mem c.pc = 0xCF) : One o v c
    { c with mem := push c.mem c.sp (c.pc + 1), sp := c.sp - 2, pc := 8, t := c.t + 11 } := plain 0xCF 7 hc

theorem jr (c : Core) (a : U16) (d : U8) (hc : c.mem c.pc = 0x18)
    (h1 : c.mem (c.pc + 1) = d) (ha : c.pc + 1 + 1 + disp d = a) : One o v c
    { c with pc := a, t := c.t + 12 } := by
  subst h1 ha
  exact plain 0x18 8 hc

theorem jrZ (c : Core) (a : U16) (d : U8) (hc : c.mem c.pc = 0x28)
    (h1 : c.mem (c.pc + 1) = d) (ha : c.pc + 1 + 1 + disp d = a) (hb : c.f.z = true) : One o v c
    { c with pc := a, t := c.t + 12 } := by
  subst h1 ha
  exact One.of 0x28 8 hc (fun x i t => ⟨⟨_, _, _, _, _, _, _, _, _, _, _⟩,
    (congrArg (fun e => Eff.finish e false (t0 (.jrCc .z) e.2.1 - 4)) (if_pos hb)).trans rfl⟩) rfl
theorem jrZNot (c : Core) (hc : c.mem c.pc = 0x28) (hb : ¬ (c.f.z = true)) : One o v c
    { c with pc := c.pc + 1 + 1, t := c.t + 7 } :=
  One.of 0x28 3 hc (fun x i t => ⟨⟨_, _, _, _, _, _, _, _, _, _, _⟩,
    (congrArg (fun e => Eff.finish e false (t0 (.jrCc .z) e.2.1 - 4)) (if_neg hb)).trans rfl⟩) rfl

theorem jrNz (c : Core) (a : U16) (d : U8) (hc : c.mem c.pc = 0x20)
    (h1 : c.mem (c.pc + 1) = d) (ha : c.pc + 1 + 1 + disp d = a) (hb : (!c.f.z) = true) : One o v c
    { c with pc := a, t := c.t + 12 } := by
  subst h1 ha
  exact One.of 0x20 8 hc (fun x i t => ⟨⟨_, _, _, _, _, _, _, _, _, _, _⟩,
    (congrArg (fun e => Eff.finish e false (t0 (.jrCc .nz) e.2.1 - 4)) (if_pos hb)).trans rfl⟩) rfl
theorem jrNzNot (c : Core) (hc : c.mem c.pc = 0x20) (hb : ¬ ((!c.f.z) = true)) : One o v c
    { c with pc := c.pc + 1 + 1, t := c.t + 7 } :=
  One.of 0x20 3 hc (fun x i t => ⟨⟨_, _, _, _, _, _, _, _, _, _, _⟩,
    (congrArg (fun e => Eff.finish e false (t0 (.jrCc .nz) e.2.1 - 4)) (if_neg hb)).trans rfl⟩) rfl

theorem djnz (c : Core) (a : U16) (d : U8) (hc : c.mem c.pc = 0x10)
    (h1 : c.mem (c.pc + 1) = d) (ha : c.pc + 1 + 1 + disp d = a) (hb : c.b - 1 ≠ 0) : One o v c
    { c with b := c.b - 1, pc := a, t := c.t + 13 } := by
  subst h1 ha
  exact One.of 0x10 9 hc (fun x i t => ⟨⟨_, _, _, _, _, _, _, _, _, _, _⟩,
    (congrArg (fun e => Eff.finish e false (t0 (.djnz) e.2.1 - 4)) (if_pos hb)).trans rfl⟩) rfl
theorem djnzNot (c : Core) (hc : c.mem c.pc = 0x10) (hb : ¬ (c.b - 1 ≠ 0)) : One o v c
    { c with b := c.b - 1, pc := c.pc + 1 + 1, t := c.t + 8 } :=
  One.of 0x10 4 hc (fun x i t => ⟨⟨_, _, _, _, _, _, _, _, _, _, _⟩,
    (congrArg (fun e => Eff.finish e false (t0 (.djnz) e.2.1 - 4)) (if_neg hb)).trans rfl⟩) rfl

theorem jrNc (c : Core) (a : U16) (d : U8) (hc : c.mem c.pc = 0x30)
    (h1 : c.mem (c.pc + 1) = d) (ha : c.pc + 1 + 1 + disp d = a) (hb : (!c.f.c) = true) : One o v c
    { c with pc := a, t := c.t + 12 } := by
  subst h1 ha
  exact One.of 0x30 8 hc (fun x i t => ⟨⟨_, _, _, _, _, _, _, _, _, _, _⟩,
    (congrArg (fun e => Eff.finish e false (t0 (.jrCc .nc) e.2.1 - 4)) (if_pos hb)).trans rfl⟩) rfl
theorem jrNcNot (c : Core) (hc : c.mem c.pc = 0x30) (hb : ¬ ((!c.f.c) = true)) : One o v c
    { c with pc := c.pc + 1 + 1, t := c.t + 7 } :=
  One.of 0x30 3 hc (fun x i t => ⟨⟨_, _, _, _, _, _, _, _, _, _, _⟩,
    (congrArg (fun e => Eff.finish e false (t0 (.jrCc .nc) e.2.1 - 4)) (if_neg hb)).trans rfl⟩) rfl

theorem jrC (c : Core) (a : U16) (d : U8) (hc : c.mem c.pc = 0x38)
    (h1 : c.mem (c.pc + 1) = d) (ha : c.pc + 1 + 1 + disp d = a) (hb : c.f.c = true) : One o v c
    { c with pc := a, t := c.t + 12 } := by
  subst h1 ha
  exact One.of 0x38 8 hc (fun x i t => ⟨⟨_, _, _, _, _, _, _, _, _, _, _⟩,
    (congrArg (fun e => Eff.finish e false (t0 (.jrCc .c) e.2.1 - 4)) (if_pos hb)).trans rfl⟩) rfl
theorem jrCNot (c : Core) (hc : c.mem c.pc = 0x38) (hb : ¬ (c.f.c = true)) : One o v c
    { c with pc := c.pc + 1 + 1, t := c.t + 7 } :=
  One.of 0x38 3 hc (fun x i t => ⟨⟨_, _, _, _, _, _, _, _, _, _, _⟩,
    (congrArg (fun e => Eff.finish e false (t0 (.jrCc .c) e.2.1 - 4)) (if_neg hb)).trans rfl⟩) rfl

theorem retZ (c : Core) (hc : c.mem c.pc = 0xC8) (hb : c.f.z = true) : One o v c
    { c with pc := word (c.mem (c.sp + 1)) (c.mem c.sp), sp := c.sp + 2, t := c.t + 11 } := by
  exact One.of 0xC8 7 hc (fun x i t => ⟨⟨_, _, _, _, _, _, _, _, _, _, _⟩,
    (congrArg (fun e => Eff.finish e false (t0 (.retCc .z) e.2.1 - 4)) (if_pos hb)).trans rfl⟩) rfl
theorem retZNot (c : Core) (hc : c.mem c.pc = 0xC8) (hb : ¬ (c.f.z = true)) : One o v c
    { c with pc := c.pc + 1, t := c.t + 5 } :=
  One.of 0xC8 1 hc (fun x i t => ⟨⟨_, _, _, _, _, _, _, _, _, _, _⟩,
    (congrArg (fun e => Eff.finish e false (t0 (.retCc .z) e.2.1 - 4)) (if_neg hb)).trans rfl⟩) rfl

theorem jpPo (c : Core) (x : U16) (hc : c.mem c.pc = 0xE2) (h1 : c.mem (c.pc + 1) = lo8 x)
    (h2 : c.mem (c.pc + 1 + 1) = hi8 x) (hb : (!c.f.pv) = true) : One o v c { c with pc := x, t := c.t + 10 } := by
  have e : x = word (c.mem (c.pc + 1 + 1)) (c.mem (c.pc + 1)) := by rw [h1, h2, word_hi8_lo8]
  subst e
  refine One.of 0xE2 6 hc (fun x i t => ⟨⟨_, _, _, _, _, _, _, _, _, _, _⟩,
    (congrArg (fun e : Mach w I => Eff.finish (done (e.wz (word (c.mem (c.pc + 1 + 1)) (c.mem (c.pc + 1))))) false 6) (if_pos hb)).trans rfl⟩) rfl
theorem jpPoNot (c : Core) (hc : c.mem c.pc = 0xE2) (hb : ¬ ((!c.f.pv) = true)) : One o v c
    { c with pc := c.pc + 1 + 2, t := c.t + 10 } :=
  One.of 0xE2 6 hc (fun x i t => ⟨⟨_, _, _, _, _, _, _, _, _, _, _⟩,
    (congrArg (fun e : Mach w I => Eff.finish (done (e.wz (word (c.mem (c.pc + 1 + 1)) (c.mem (c.pc + 1))))) false 6) (if_neg hb)).trans rfl⟩) rfl

/-- A step given by the opcode after ED. -/
theorem One.ofEd {c d : Core} (op : U8) (n : Nat) (hc : c.mem c.pc = 0xED) (h1 : c.mem (c.pc + 1) = op)
    (h : ∀ x i (t : BitVec w), ∃ y, (
      let s : Mach w I := (fetch ⟨c.regs x, c.mem, i, t⟩).upd fun r => { r with ei := false, halted := false }
      let e := execEd o v (decodeEd op) ((s.skip 1).upd Regs.bumpR)
      Eff.finish e (fEd (decodeEd op)) (tEd (decodeEd op) e.2.1 - 4)) =
      (⟨d.regs y, d.mem, i, t + BitVec.ofNat w 4 + BitVec.ofNat w n⟩, .ok))
    (ht : d.t = c.t + (4 + n)) : One o v c d := by
  subst h1
  exact One.of 0xED n hc h ht

theorem ldd (c : Core) (hc : c.mem c.pc = 0xED) (h1 : c.mem (c.pc + 1) = 0xA8) : One o v c
    { c with mem := put c.mem (word c.d c.e) (c.mem (word c.h c.l)),
             f := ldxFl c.a (c.mem (word c.h c.l)) (word c.b c.c - 1 ≠ 0) c.f,
             b := hi8 (word c.b c.c - 1), c := lo8 (word c.b c.c - 1), d := hi8 (word c.d c.e - 1),
             e := lo8 (word c.d c.e - 1), h := hi8 (word c.h c.l - 1), l := lo8 (word c.h c.l - 1),
             pc := c.pc + 1 + 1, t := c.t + 16 } :=
  One.ofEd 0xA8 12 hc h1 (fun x i t => ⟨⟨_, _, _, _, _, _, _, _, _, _, _⟩,
    (congrArg (fun e => Eff.finish e true (tEd (.blk .ld true false) e.2.1 - 4))
      (if_neg (fun h => Bool.false_ne_true h.1))).trans rfl⟩) rfl

theorem ldi (c : Core) (hc : c.mem c.pc = 0xED) (h1 : c.mem (c.pc + 1) = 0xA0) : One o v c
    { c with mem := put c.mem (word c.d c.e) (c.mem (word c.h c.l)),
             f := ldxFl c.a (c.mem (word c.h c.l)) (word c.b c.c - 1 ≠ 0) c.f,
             b := hi8 (word c.b c.c - 1), c := lo8 (word c.b c.c - 1), d := hi8 (word c.d c.e + 1),
             e := lo8 (word c.d c.e + 1), h := hi8 (word c.h c.l + 1), l := lo8 (word c.h c.l + 1),
             pc := c.pc + 1 + 1, t := c.t + 16 } :=
  One.ofEd 0xA0 12 hc h1 (fun x i t => ⟨⟨_, _, _, _, _, _, _, _, _, _, _⟩,
    (congrArg (fun e => Eff.finish e true (tEd (.blk .ld false false) e.2.1 - 4))
      (if_neg (fun h => Bool.false_ne_true h.1))).trans rfl⟩) rfl

/-- A step given by the opcode after CB. -/
theorem One.ofCb {c d : Core} (op : U8) (n : Nat) (hc : c.mem c.pc = 0xCB) (h1 : c.mem (c.pc + 1) = op)
    (h : ∀ x i (t : BitVec w), ∃ y, (
      let s : Mach w I := (fetch ⟨c.regs x, c.mem, i, t⟩).upd fun r => { r with ei := false, halted := false }
      Eff.finish (O := O) (R := R) (done (execCb (decodeCb op) ((s.skip 1).upd Regs.bumpR))) (fCb (decodeCb op))
        (tCb (decodeCb op) - 4)) =
      (⟨d.regs y, d.mem, i, t + BitVec.ofNat w 4 + BitVec.ofNat w n⟩, .ok))
    (ht : d.t = c.t + (4 + n)) : One o v c d := by
  subst h1
  exact One.of 0xCB n hc h ht

theorem srlB (c : Core) (hc : c.mem c.pc = 0xCB) (h1 : c.mem (c.pc + 1) = 0x38) : One o v c
    { c with b := (Sh.srl.op c.b c.f.c).1, f := (Sh.srl.op c.b c.f.c).2, pc := c.pc + 1 + 1, t := c.t + 8 } :=
  One.ofCb 0x38 4 hc h1 (fun x i t => ⟨⟨_, _, _, _, _, _, _, _, _, _, _⟩, rfl⟩) rfl

theorem rrC (c : Core) (hc : c.mem c.pc = 0xCB) (h1 : c.mem (c.pc + 1) = 0x19) : One o v c
    { c with c := (Sh.rr.op c.c c.f.c).1, f := (Sh.rr.op c.c c.f.c).2, pc := c.pc + 1 + 1, t := c.t + 8 } :=
  One.ofCb 0x19 4 hc h1 (fun x i t => ⟨⟨_, _, _, _, _, _, _, _, _, _, _⟩, rfl⟩) rfl

theorem rrB (c : Core) (hc : c.mem c.pc = 0xCB) (h1 : c.mem (c.pc + 1) = 0x18) : One o v c
    { c with b := (Sh.rr.op c.b c.f.c).1, f := (Sh.rr.op c.b c.f.c).2, pc := c.pc + 1 + 1, t := c.t + 8 } :=
  One.ofCb 0x18 4 hc h1 (fun x i t => ⟨⟨_, _, _, _, _, _, _, _, _, _, _⟩, rfl⟩) rfl

theorem slaD (c : Core) (hc : c.mem c.pc = 0xCB) (h1 : c.mem (c.pc + 1) = 0x22) : One o v c
    { c with d := (Sh.sla.op c.d c.f.c).1, f := (Sh.sla.op c.d c.f.c).2, pc := c.pc + 1 + 1, t := c.t + 8 } :=
  One.ofCb 0x22 4 hc h1 (fun x i t => ⟨⟨_, _, _, _, _, _, _, _, _, _, _⟩, rfl⟩) rfl

theorem rlC (c : Core) (hc : c.mem c.pc = 0xCB) (h1 : c.mem (c.pc + 1) = 0x11) : One o v c
    { c with c := (Sh.rl.op c.c c.f.c).1, f := (Sh.rl.op c.c c.f.c).2, pc := c.pc + 1 + 1, t := c.t + 8 } :=
  One.ofCb 0x11 4 hc h1 (fun x i t => ⟨⟨_, _, _, _, _, _, _, _, _, _, _⟩, rfl⟩) rfl

theorem adcHlBc (c : Core) (hc : c.mem c.pc = 0xED) (h1 : c.mem (c.pc + 1) = 0x4A) : One o v c
    { c with h := hi8 (adc16 (word c.h c.l) (word c.b c.c) c.f.c).1, l := lo8 (adc16 (word c.h c.l) (word c.b c.c) c.f.c).1,
             f := (adc16 (word c.h c.l) (word c.b c.c) c.f.c).2, pc := c.pc + 1 + 1, t := c.t + 15 } :=
  One.ofEd 0x4A 11 hc h1 (fun x i t => ⟨⟨_, _, _, _, _, _, _, _, _, _, _⟩, rfl⟩) rfl

theorem ldBcMem (c : Core) (a : U16) (hc : c.mem c.pc = 0xED) (h1 : c.mem (c.pc + 1) = 0x4B)
    (h2 : c.mem (c.pc + 1 + 1) = lo8 a) (h3 : c.mem (c.pc + 1 + 1 + 1) = hi8 a) : One o v c
    { c with b := hi8 (word (c.mem (a + 1)) (c.mem a)), c := lo8 (word (c.mem (a + 1)) (c.mem a)),
             pc := c.pc + 1 + 1 + 2, t := c.t + 20 } := by
  have e : a = word (c.mem (c.pc + 1 + 1 + 1)) (c.mem (c.pc + 1 + 1)) := by rw [h2, h3, word_hi8_lo8]
  subst e
  exact One.ofEd 0x4B 16 hc h1 (fun x i t => ⟨⟨_, _, _, _, _, _, _, _, _, _, _⟩, rfl⟩) rfl

theorem Two.of {c d : Core} (op op' : U8) (n n' : Nat) (hop : c.mem c.pc = op) (hop' : c.mem (c.pc + 1) = op')
    (h : ∀ x i (t : BitVec w), ∃ m y, execOp o v op (fetch ⟨c.regs x, c.mem, i, t⟩) = (m, .ok) ∧ m.mem = c.mem ∧ m.io = i ∧
      step o v m = execOp o v (m.mem m.r.pc) (fetch m) ∧ m.r.pc = c.pc + 1 ∧
      execOp o v op' (fetch m) = (⟨d.regs y, d.mem, i, t + BitVec.ofNat w 4 + BitVec.ofNat w n + BitVec.ofNat w 4 +
        BitVec.ofNat w n'⟩, .ok))
    (ht : d.t = c.t + (4 + n + (4 + n'))) : Two o v c d := by
  intro x i t
  obtain ⟨m, y, h1, h2, h3, h4, h5, h6⟩ := h x i (t + BitVec.ofNat w c.t)
  refine ⟨m, y, ?_, h2, h3, ?_⟩
  · have e : step o v (c.mach x i t) = execOp o v (c.mem c.pc)
      (fetch ⟨c.regs x, c.mem, i, t + BitVec.ofNat w c.t⟩) := rfl
    rw [e, hop, h1]
  · rw [h4, h2, h5, hop', h6]
    simp only [Core.mach, ht, BitVec.add_assoc, BitVec.ofNat_add]

theorem scfAdcAA (c : Core) (hc : c.mem c.pc = 0x37) (h1 : c.mem (c.pc + 1) = 0x8F) : Two o v c
    { c with a := (add8 c.a c.a true).1, f := (add8 c.a c.a true).2, pc := c.pc + 1 + 1, t := c.t + 8 } :=
  Two.of 0x37 0x8F 0 0 hc h1 (fun x i t => ⟨_, ⟨_, _, _, _, _, _, _, _, _, _, _⟩, rfl, rfl, rfl, rfl, rfl, rfl⟩) rfl

theorem scfRla (c : Core) (hc : c.mem c.pc = 0x37) (h1 : c.mem (c.pc + 1) = 0x17) : Two o v c
    { c with a := (Sh.rl.accOp c.a { c.f with c := true }).1, f := (Sh.rl.accOp c.a { c.f with c := true }).2,
             pc := c.pc + 1 + 1, t := c.t + 8 } :=
  Two.of 0x37 0x17 0 0 hc h1 (fun x i t => ⟨_, ⟨_, _, _, _, _, _, _, _, _, _, _⟩, rfl, rfl, rfl, rfl, rfl, rfl⟩) rfl

/-! ### Memory -/

theorem _root_.Z80.Spec.Shuffle.Loaded.at_code {m : U16 → U8} (h : Loaded m) (a : U16) (x : U8) (ha : a.toNat < 712 ∧ bytes.getD a.toNat 0 = x) :
    m a = x := by
  have := h a.toNat ha.1
  rw [BitVec.ofNat_toNat, BitVec.setWidth_eq] at this
  rw [this, ha.2]

theorem put_same (m : U16 → U8) (a : U16) (x : U8) : put m a x a = x := if_pos rfl

theorem put_other (m : U16 → U8) {a b : U16} (x : U8) (h : b ≠ a) : put m a x b = m b := if_neg h

theorem loaded_put {m : U16 → U8} (h : Loaded m) {a : U16} (x : U8) (ha : 712 ≤ a.toNat) : Loaded (put m a x) := by
  intro i hi
  rw [put_other m x, h i hi]
  intro e
  rw [← e, BitVec.toNat_ofNat] at ha
  omega

theorem loaded_push {m : U16 → U8} (h : Loaded m) {sp : U16} (x : U16) (ha : 714 ≤ sp.toNat) : Loaded (push m sp x) :=
  loaded_put (loaded_put h _ (by bv_omega)) _ (by bv_omega)

theorem push_eq (m : U16 → U8) (sp x : U16) : push m sp x = put (put m (sp - 1) (hi8 x)) (sp - 2) (lo8 x) := rfl

attribute [irreducible] put push

theorem cp8_c (a b : U8) : (cp8 a b).c = decide (a.toNat < b.toNat) := rfl

/-- Tidy up after an instruction. -/
macro "tidy" : tactic => `(tactic| ((try dsimp only); try simp only [word_hi8_lo8, hi8_word, lo8_word, BitVec.reduceAdd, BitVec.reduceSub]))
/-- Bytes of the code. -/
macro "opc" h:term:max : term => `(($h).at_code _ _ (by (try dsimp only); decide +kernel))
/-- Execute an instruction of the loaded code. -/
macro "exec" t:term:max h:term:max : tactic => `(tactic| (refine Run.step ($t _ (opc $h)) ?_; tidy))
/-- Execute a relative jump without condition. -/
macro "exec" t:term:max h:term:max "goto" a:term "rel" d:term : tactic =>
  `(tactic| (refine Run.step ($t _ $a $d (opc $h) (opc $h) (by (try dsimp only); decide +kernel)) ?_; tidy))
/-- Execute a pair of instructions. -/
macro "execs" t:term:max h:term:max : tactic => `(tactic| (refine Run.pair ($t _ (opc $h) (opc $h)) ?_; tidy))
/-- Execute an instruction of two opcode bytes with a word operand. -/
macro "exec" t:term:max h:term:max "two" "arg16" x:term:max : tactic =>
  `(tactic| (refine Run.step ($t _ $x (opc $h) (opc $h) (opc $h) (opc $h)) ?_; tidy))
/-- Execute a conditional instruction. -/
macro "exec" t:term:max h:term:max "if" p:term : tactic =>
  `(tactic| (refine Run.step ($t _ (opc $h) $p) ?_; tidy))
/-- Execute an instruction with a byte operand. -/
macro "exec" t:term:max h:term:max "arg8" x:term : tactic =>
  `(tactic| (refine Run.step ($t _ $x (opc $h) (opc $h)) ?_; tidy))
/-- Execute an instruction with a word operand. -/
macro "exec" t:term:max h:term:max "arg16" x:term:max : tactic =>
  `(tactic| (refine Run.step ($t _ $x (opc $h) (opc $h) (opc $h)) ?_; tidy))
/-- Execute a relative jump. -/
macro "exec" t:term:max h:term:max "goto" a:term "rel" d:term "if" p:term : tactic =>
  `(tactic| (refine Run.step ($t _ $a $d (opc $h) (opc $h) (by (try dsimp only); decide +kernel) $p) ?_; tidy))

/-- Execute an instruction of two opcode bytes. -/
macro "exec" t:term:max h:term:max "two" : tactic => `(tactic| (refine Run.step ($t _ (opc $h) (opc $h)) ?_; tidy))
/-- Execute a conditional instruction with a word operand. -/
macro "exec" t:term:max h:term:max "arg16" x:term:max "if" p:term : tactic =>
  `(tactic| (refine Run.step ($t _ $x (opc $h) (opc $h) (opc $h) $p) ?_; tidy))

end Z80.Routine
