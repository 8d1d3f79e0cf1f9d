import Verif.Proofs.Routine

/-!
# Symbolic execution of machine code: more instructions, and output
-/

set_option linter.unusedVariables false

namespace Z80.Routine
open Spec Spec.Shuffle
variable {w : Nat} {O R I : Type} {o : Opt} {v : Env w O R I}

attribute [local semireducible] put push

/-- A proof for an instruction without condition. -/
local macro "plain" op:num n:num h:ident : term =>
  `(One.of $op $n $h (fun x i t => ⟨⟨_, _, _, _, _, _, _, _, _, _, _⟩, rfl⟩) rfl)

theorem pushDe (c : Core) (hc : c.mem c.pc = 0xD5) : One o v c
    { c with mem := push c.mem c.sp (word c.d c.e), sp := c.sp - 2, pc := c.pc + 1, t := c.t + 11 } := plain 0xD5 7 hc

theorem pushAf (c : Core) (hc : c.mem c.pc = 0xF5) : One o v c
    { c with mem := push c.mem c.sp (word c.a c.f.byte), sp := c.sp - 2, pc := c.pc + 1, t := c.t + 11 } := plain 0xF5 7 hc

theorem popDe (c : Core) (hc : c.mem c.pc = 0xD1) : One o v c
    { c with d := hi8 (word (c.mem (c.sp + 1)) (c.mem c.sp)), e := lo8 (word (c.mem (c.sp + 1)) (c.mem c.sp)), sp := c.sp + 2, pc := c.pc + 1, t := c.t + 10 } := plain 0xD1 6 hc

theorem popAf (c : Core) (hc : c.mem c.pc = 0xF1) : One o v c
    { c with a := hi8 (word (c.mem (c.sp + 1)) (c.mem c.sp)), f := Fl.of (lo8 (word (c.mem (c.sp + 1)) (c.mem c.sp))), sp := c.sp + 2, pc := c.pc + 1, t := c.t + 10 } := plain 0xF1 6 hc

theorem addAE (c : Core) (hc : c.mem c.pc = 0x83) : One o v c
    { c with a := (add8 c.a c.e false).1, f := (add8 c.a c.e false).2, pc := c.pc + 1, t := c.t + 4 } := plain 0x83 0 hc

theorem adcAD (c : Core) (hc : c.mem c.pc = 0x8A) : One o v c
    { c with a := (add8 c.a c.d c.f.c).1, f := (add8 c.a c.d c.f.c).2, pc := c.pc + 1, t := c.t + 4 } := plain 0x8A 0 hc

theorem subE (c : Core) (hc : c.mem c.pc = 0x93) : One o v c
    { c with a := (sub8 c.a c.e false).1, f := (sub8 c.a c.e false).2, pc := c.pc + 1, t := c.t + 4 } := plain 0x93 0 hc

theorem xorA (c : Core) (hc : c.mem c.pc = 0xAF) : One o v c
    { c with a := (xor8 c.a c.a).1, f := (xor8 c.a c.a).2, pc := c.pc + 1, t := c.t + 4 } := plain 0xAF 0 hc

theorem decDe (c : Core) (hc : c.mem c.pc = 0x1B) : One o v c
    { c with d := hi8 (word c.d c.e - 1), e := lo8 (word c.d c.e - 1), pc := c.pc + 1, t := c.t + 6 } := plain 0x1B 2 hc

theorem ldADe (c : Core) (hc : c.mem c.pc = 0x1A) : One o v c
    { c with a := c.mem (word c.d c.e), pc := c.pc + 1, t := c.t + 7 } := plain 0x1A 3 hc

theorem daa (c : Core) (hc : c.mem c.pc = 0x27) : One o v c
    { c with a := (daa8 c.a c.f).1, f := (daa8 c.a c.f).2, pc := c.pc + 1, t := c.t + 4 } := plain 0x27 0 hc

theorem ldMN (c : Core) (x : U8) (hc : c.mem c.pc = 0x36) (h1 : c.mem (c.pc + 1) = x) : One o v c
    { c with mem := put c.mem (word c.h c.l) x, pc := c.pc + 1 + 1, t := c.t + 10 } := by
  subst h1
  exact plain 0x36 6 hc

theorem addAN (c : Core) (x : U8) (hc : c.mem c.pc = 0xC6) (h1 : c.mem (c.pc + 1) = x) : One o v c
    { c with a := (add8 c.a x false).1, f := (add8 c.a x false).2, pc := c.pc + 1 + 1, t := c.t + 7 } := by
  subst h1
  exact plain 0xC6 3 hc

theorem ldMemA (c : Core) (x : U16) (hc : c.mem c.pc = 0x32) (h1 : c.mem (c.pc + 1) = lo8 x)
    (h2 : c.mem (c.pc + 1 + 1) = hi8 x) : One o v c
    { c with mem := put c.mem x c.a, pc := c.pc + 1 + 2, t := c.t + 13 } := by
  have e : x = word (c.mem (c.pc + 1 + 1)) (c.mem (c.pc + 1)) := by rw [h1, h2, word_hi8_lo8]
  subst e
  exact plain 0x32 9 hc

theorem rst10 (c : Core) (hc : c.mem c.pc = 0xD7) : One o v c
    { c with mem := push c.mem c.sp (c.pc + 1), sp := c.sp - 2, pc := 16, t := c.t + 11 } := plain 0xD7 7 hc

theorem rst20 (c : Core) (hc : c.mem c.pc = 0xE7) : One o v c
    { c with mem := push c.mem c.sp (c.pc + 1), sp := c.sp - 2, pc := 32, t := c.t + 11 } := plain 0xE7 7 hc

theorem jpNz (c : Core) (x : U16) (hc : c.mem c.pc = 0xC2) (h1 : c.mem (c.pc + 1) = lo8 x)
    (h2 : c.mem (c.pc + 1 + 1) = hi8 x) (hb : (!c.f.z) = true) : One o v c { c with pc := x, t := c.t + 10 } := by
  have e : x = word (c.mem (c.pc + 1 + 1)) (c.mem (c.pc + 1)) := by rw [h1, h2, word_hi8_lo8]
  subst e
  exact One.of 0xC2 6 hc (fun x i t => ⟨⟨_, _, _, _, _, _, _, _, _, _, _⟩,
    (congrArg (fun e : Mach w I => Eff.finish (done (e.wz (word (c.mem (c.pc + 1 + 1)) (c.mem (c.pc + 1))))) false 6)
      (if_pos hb)).trans rfl⟩) rfl
theorem jpNzNot (c : Core) (hc : c.mem c.pc = 0xC2) (hb : ¬ ((!c.f.z) = true)) : One o v c
    { c with pc := c.pc + 1 + 2, t := c.t + 10 } :=
  One.of 0xC2 6 hc (fun x i t => ⟨⟨_, _, _, _, _, _, _, _, _, _, _⟩,
    (congrArg (fun e : Mach w I => Eff.finish (done (e.wz (word (c.mem (c.pc + 1 + 1)) (c.mem (c.pc + 1))))) false 6)
      (if_neg hb)).trans rfl⟩) rfl

theorem rld (c : Core) (hc : c.mem c.pc = 0xED) (h1 : c.mem (c.pc + 1) = 0x6F) : One o v c
    { c with a := (rld8 c.a (c.mem (word c.h c.l)) c.f.c).1, f := (rld8 c.a (c.mem (word c.h c.l)) c.f.c).2.2,
             mem := put c.mem (word c.h c.l) (rld8 c.a (c.mem (word c.h c.l)) c.f.c).2.1,
             pc := c.pc + 1 + 1, t := c.t + 18 } :=
  One.ofEd 0x6F 14 hc h1 (fun x i t => ⟨⟨_, _, _, _, _, _, _, _, _, _, _⟩, rfl⟩) rfl

/-! ### Output -/

/-- A step that sends a byte to the devices, which change their state with `em`. -/
def Sends (o : Opt) (v : Env w O R I) (em : U8 → I → I) (c : Core) (z : U8) (d : Core) : Prop :=
  ∀ x i t, ∃ y, step o v (c.mach x i t) = (d.mach y (em z i) t, .ok)

/-- Several steps and the bytes sent. -/
inductive RunOut (o : Opt) (v : Env w O R I) (em : U8 → I → I) : Core → List U8 → Core → Prop
  | run {a b : Core} : Run o v a b → RunOut o v em a [] b
  | send {a b c d : Core} {l : List U8} {z : U8} : Run o v a b → Sends o v em b z c → RunOut o v em c l d →
      RunOut o v em a (z :: l) d

theorem RunOut.before {em : U8 → I → I} {a b c : Core} {l : List U8} (h : Run o v a b) (g : RunOut o v em b l c) :
    RunOut o v em a l c := by
  cases g with
  | run g => exact .run (h.trans g)
  | send g s r => exact .send (h.trans g) s r

theorem RunOut.trans {em : U8 → I → I} {a b c : Core} {l l' : List U8} (h : RunOut o v em a l b)
    (g : RunOut o v em b l' c) : RunOut o v em a (l ++ l') c := by
  induction h with
  | run h => exact .before h g
  | send h s _ ih => exact .send h s (ih g)

theorem RunOut.behind {em : U8 → I → I} {a b c : Core} {l : List U8} (h : RunOut o v em a l b) (g : Run o v b c) :
    RunOut o v em a l c := by
  have := h.trans (.run g)
  rwa [List.append_nil] at this

/-- Ports with the low byte `n` take every byte without delay. -/
def Takes (v : Env w O R I) (n : U8) (em : U8 → I → I) : Prop :=
  ∀ h x t i, v.out (word h n) x t i = ((none, none), em x i)

theorem outNA {em : U8 → I → I} {c : Core} (n : U8) (he : Takes v n em) (hc : c.mem c.pc = 0xD3)
    (h1 : c.mem (c.pc + 1) = n) :
    Sends o v em c c.a { c with pc := c.pc + 1 + 1, t := c.t + 11 } := by
  subst h1
  intro x i t
  have key : ∀ (i : I) (t : BitVec w), ∃ y : Rest, execOp o v 0xD3 (fetch ⟨c.regs x, c.mem, i, t⟩) =
      (⟨Core.regs { c with pc := c.pc + 1 + 1 } y, c.mem, em c.a i, t + BitVec.ofNat w 4 + BitVec.ofNat w 7⟩, .ok) := by
    intro i t
    have he := he c.a c.a (t + BitVec.ofNat w 4 + BitVec.ofNat w 4) i
    refine ⟨⟨_, _, _, _, _, _, _, _, _, _, _⟩, (congrArg (fun p : (Option O × Option U16) × I =>
      Eff.finish (((({ (fetch (⟨c.regs x, c.mem, i, t⟩ : Mach w I)).upd (fun r => { r with ei := false, halted := false })
        with io := p.2 } : Mach w I).wzStore o (c.mem (c.pc + 1))).skip 1).wait p.1.2, false,
        match p.1.1 with | some o => (.writeIo o : Out O R) | none => .ok) false 7) he).trans rfl⟩
  obtain ⟨y, key⟩ := key i (t + BitVec.ofNat w c.t)
  refine ⟨y, ?_⟩
  have e : step o v (c.mach x i t) = execOp o v (c.mem c.pc) (fetch (c.mach x i t)) := rfl
  rw [e, hc]
  refine key.trans ?_
  have e2 : t + BitVec.ofNat w c.t + BitVec.ofNat w 4 + BitVec.ofNat w 7 = t + BitVec.ofNat w (c.t + 11) := by
    rw [BitVec.add_assoc, BitVec.add_assoc, ← BitVec.ofNat_add, ← BitVec.ofNat_add]
  rw [e2]
  rfl

end Z80.Routine
