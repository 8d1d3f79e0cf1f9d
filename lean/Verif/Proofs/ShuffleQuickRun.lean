import Verif.Proofs.RoutineMore
import Verif.Proofs.ShuffleSelect

/-!
# The quick sort routines of the test program: instructions and loops

`/repo/tests/shuffle/shuffle.bin` 399-485 on the specified machine.
-/

set_option linter.unusedVariables false

namespace Z80.Routine
open Spec Spec.Shuffle
variable {w : Nat} {O R I : Type} {o : Opt} {v : Env w O R I}

attribute [local semireducible] put push

/-- A proof for an instruction without condition. -/
local macro "plain" op:num n:num h:ident : term =>
  `(One.of $op $n $h (fun x i t => ⟨⟨_, _, _, _, _, _, _, _, _, _, _⟩, rfl⟩) rfl)

theorem ldAH (c : Core) (hc : c.mem c.pc = 0x7C) : One o v c
    { c with a := c.h, pc := c.pc + 1, t := c.t + 4 } := plain 0x7C 0 hc

theorem ldAL (c : Core) (hc : c.mem c.pc = 0x7D) : One o v c
    { c with a := c.l, pc := c.pc + 1, t := c.t + 4 } := plain 0x7D 0 hc

theorem ldAD (c : Core) (hc : c.mem c.pc = 0x7A) : One o v c
    { c with a := c.d, pc := c.pc + 1, t := c.t + 4 } := plain 0x7A 0 hc

theorem ldAE (c : Core) (hc : c.mem c.pc = 0x7B) : One o v c
    { c with a := c.e, pc := c.pc + 1, t := c.t + 4 } := plain 0x7B 0 hc

theorem ldBL (c : Core) (hc : c.mem c.pc = 0x45) : One o v c
    { c with b := c.l, pc := c.pc + 1, t := c.t + 4 } := plain 0x45 0 hc

theorem ldHA (c : Core) (hc : c.mem c.pc = 0x67) : One o v c
    { c with h := c.a, pc := c.pc + 1, t := c.t + 4 } := plain 0x67 0 hc

theorem ldLB (c : Core) (hc : c.mem c.pc = 0x68) : One o v c
    { c with l := c.b, pc := c.pc + 1, t := c.t + 4 } := plain 0x68 0 hc

theorem ldLC (c : Core) (hc : c.mem c.pc = 0x69) : One o v c
    { c with l := c.c, pc := c.pc + 1, t := c.t + 4 } := plain 0x69 0 hc

theorem ldBM (c : Core) (hc : c.mem c.pc = 0x46) : One o v c
    { c with b := c.mem (word c.h c.l), pc := c.pc + 1, t := c.t + 7 } := plain 0x46 3 hc

theorem cpB (c : Core) (hc : c.mem c.pc = 0xB8) : One o v c
    { c with f := cp8 c.a c.b, pc := c.pc + 1, t := c.t + 4 } := plain 0xB8 0 hc

theorem cpC (c : Core) (hc : c.mem c.pc = 0xB9) : One o v c
    { c with f := cp8 c.a c.c, pc := c.pc + 1, t := c.t + 4 } := plain 0xB9 0 hc

theorem cpD (c : Core) (hc : c.mem c.pc = 0xBA) : One o v c
    { c with f := cp8 c.a c.d, pc := c.pc + 1, t := c.t + 4 } := plain 0xBA 0 hc

theorem cpH (c : Core) (hc : c.mem c.pc = 0xBC) : One o v c
    { c with f := cp8 c.a c.h, pc := c.pc + 1, t := c.t + 4 } := plain 0xBC 0 hc

theorem cpL (c : Core) (hc : c.mem c.pc = 0xBD) : One o v c
    { c with f := cp8 c.a c.l, pc := c.pc + 1, t := c.t + 4 } := plain 0xBD 0 hc

theorem incDe (c : Core) (hc : c.mem c.pc = 0x13) : One o v c
    { c with d := hi8 (word c.d c.e + 1), e := lo8 (word c.d c.e + 1), pc := c.pc + 1, t := c.t + 6 } := plain 0x13 2 hc

theorem exSpHl (c : Core) (hc : c.mem c.pc = 0xE3) : One o v c
    { c with h := hi8 (word (c.mem (c.sp + 1)) (c.mem c.sp)), l := lo8 (word (c.mem (c.sp + 1)) (c.mem c.sp)),
             mem := put (put c.mem (c.sp + 1) (hi8 (word c.h c.l))) c.sp (lo8 (word c.h c.l)), pc := c.pc + 1, t := c.t + 19 } := plain 0xE3 15 hc

theorem rrH (c : Core) (hc : c.mem c.pc = 0xCB) (h1 : c.mem (c.pc + 1) = 0x1C) : One o v c
    { c with h := (Sh.rr.op c.h c.f.c).1, f := (Sh.rr.op c.h c.f.c).2, pc := c.pc + 1 + 1, t := c.t + 8 } :=
  One.ofCb 0x1C 4 hc h1 (fun x i t => ⟨⟨_, _, _, _, _, _, _, _, _, _, _⟩, rfl⟩) rfl

theorem rrL (c : Core) (hc : c.mem c.pc = 0xCB) (h1 : c.mem (c.pc + 1) = 0x1D) : One o v c
    { c with l := (Sh.rr.op c.l c.f.c).1, f := (Sh.rr.op c.l c.f.c).2, pc := c.pc + 1 + 1, t := c.t + 8 } :=
  One.ofCb 0x1D 4 hc h1 (fun x i t => ⟨⟨_, _, _, _, _, _, _, _, _, _, _⟩, rfl⟩) rfl

theorem retCNot (c : Core) (hc : c.mem c.pc = 0xD8) (hb : ¬ (c.f.c = true)) : One o v c
    { c with pc := c.pc + 1, t := c.t + 5 } :=
  One.of 0xD8 1 hc (fun x i t => ⟨⟨_, _, _, _, _, _, _, _, _, _, _⟩,
    (congrArg (fun e => Eff.finish e false (t0 (.retCc .c) e.2.1 - 4)) (if_neg hb)).trans rfl⟩) rfl

theorem jpC (c : Core) (x : U16) (hc : c.mem c.pc = 0xDA) (h1 : c.mem (c.pc + 1) = lo8 x)
    (h2 : c.mem (c.pc + 1 + 1) = hi8 x) (hb : c.f.c = true) : One o v c { c with pc := x, t := c.t + 10 } := by
  have e : x = word (c.mem (c.pc + 1 + 1)) (c.mem (c.pc + 1)) := by rw [h1, h2, word_hi8_lo8]
  subst e
  exact One.of 0xDA 6 hc (fun x i t => ⟨⟨_, _, _, _, _, _, _, _, _, _, _⟩,
    (congrArg (fun e : Mach w I => Eff.finish (done (e.wz (word (c.mem (c.pc + 1 + 1)) (c.mem (c.pc + 1))))) false 6)
      (if_pos hb)).trans rfl⟩) rfl
theorem jpCNot (c : Core) (hc : c.mem c.pc = 0xDA) (hb : ¬ (c.f.c = true)) : One o v c
    { c with pc := c.pc + 1 + 2, t := c.t + 10 } :=
  One.of 0xDA 6 hc (fun x i t => ⟨⟨_, _, _, _, _, _, _, _, _, _, _⟩,
    (congrArg (fun e : Mach w I => Eff.finish (done (e.wz (word (c.mem (c.pc + 1 + 1)) (c.mem (c.pc + 1))))) false 6)
      (if_neg hb)).trans rfl⟩) rfl

theorem callC (c : Core) (x : U16) (hc : c.mem c.pc = 0xDC) (h1 : c.mem (c.pc + 1) = lo8 x)
    (h2 : c.mem (c.pc + 1 + 1) = hi8 x) (hb : c.f.c = true) : One o v c
    { c with mem := push c.mem c.sp (c.pc + 1 + 2), sp := c.sp - 2, pc := x, t := c.t + 17 } := by
  have e : x = word (c.mem (c.pc + 1 + 1)) (c.mem (c.pc + 1)) := by rw [h1, h2, word_hi8_lo8]
  subst e
  exact One.of 0xDC 13 hc (fun x i t => ⟨⟨_, _, _, _, _, _, _, _, _, _, _⟩,
    (congrArg (fun e => Eff.finish e false (t0 (.callCc .c) e.2.1 - 4)) (if_pos hb)).trans rfl⟩) rfl
theorem callCNot (c : Core) (hc : c.mem c.pc = 0xDC) (hb : ¬ (c.f.c = true)) : One o v c
    { c with pc := c.pc + 1 + 2, t := c.t + 10 } :=
  One.of 0xDC 6 hc (fun x i t => ⟨⟨_, _, _, _, _, _, _, _, _, _, _⟩,
    (congrArg (fun e => Eff.finish e false (t0 (.callCc .c) e.2.1 - 4)) (if_neg hb)).trans rfl⟩) rfl

theorem cp8_z (a b : U8) : (cp8 a b).z = decide (a = b) := by
  have e : BitVec.ofInt 8 ((a.toNat : Int) - b.toNat - (false : Bool).toNat) = a - b := by
    apply BitVec.eq_of_toNat_eq
    rw [BitVec.toNat_ofInt, BitVec.toNat_sub]
    have h1 := a.isLt
    have h2 := b.isLt
    simp only [Bool.toNat_false]
    omega
  show (decide ((BitVec.ofInt 8 ((a.toNat : Int) - b.toNat - (false : Bool).toNat)).toNat = 0) : Bool) = _
  rw [e]
  apply decide_eq_decide.2
  constructor
  · intro h; bv_omega
  · rintro rfl; rw [BitVec.sub_self]; rfl

end Z80.Routine

namespace Z80.Routine
open Spec Spec.Shuffle
variable {w : Nat} {O R I : Type} {o : Opt} {v : Env w O R I}

/-- The pair DE. -/
abbrev Core.de (c : Core) : U16 := word c.d c.e
/-- The pair HL. -/
abbrev Core.hl (c : Core) : U16 := word c.h c.l

/-- Only A, B, the flags, PC and time may have changed. -/
structure Same (c d : Core) : Prop where
  mem : d.mem = c.mem
  sp : d.sp = c.sp
  pivot : d.c = c.c
  de : d.de = c.de
  hl : d.hl = c.hl

/-- Words are compared byte by byte. -/
theorem less_bytes {h l d e : U8} (hd : h ≠ d) :
    (h.toNat < d.toNat ↔ (word h l).toNat < (word d e).toNat) ∧ word h l ≠ word d e := by
  have h1 := l.isLt
  have h2 := e.isLt
  have h3 : h.toNat ≠ d.toNat := fun h => hd (BitVec.eq_of_toNat_eq h)
  rw [word_nat, word_nat]
  refine ⟨by omega, fun h => h3 ?_⟩
  have := congrArg BitVec.toNat h
  rw [word_nat, word_nat] at this
  omega

theorem less_low {h l e : U8} :
    (l.toNat < e.toNat ↔ (word h l).toNat < (word h e).toNat) ∧ (l = e ↔ word h l = word h e) := by
  rw [word_nat, word_nat]
  refine ⟨by omega, fun h => h ▸ rfl, fun h => BitVec.eq_of_toNat_eq ?_⟩
  have := congrArg BitVec.toNat h
  rw [word_nat, word_nat] at this
  omega

/-- Comparison of HL with DE, 0x1BA to 0x1C0. -/
theorem qaCmp {c : Core} (hm : Loaded c.mem) (hp : c.pc = 0x1BA) : ∃ d : Core, Run o v c d ∧ d.pc = 0x1C0 ∧ Same c d ∧
    d.f.c = decide (c.hl.toNat < c.de.toNat) ∧ d.f.z = decide (c.hl = c.de) := by
  obtain ⟨a, f, b, c, d, e, h, l, a', f', b', c', d', e', h', l', sp, pc, m, t⟩ := c
  simp only at hm hp ⊢
  subst hp
  by_cases hd : h = d
  · subst hd
    refine ⟨?_, ?_, ?_⟩
    rotate_left
    · exec ldAH hm
      exec cpD hm
      exec jrNzNot hm if (by simp only [cp8_z]; decide)
      exec ldAL hm
      exec cpE hm
      exact .refl _
    · refine ⟨rfl, ⟨rfl, rfl, rfl, rfl, rfl⟩, ?_, ?_⟩
      · simp only [cp8_c]; exact decide_eq_decide.2 less_low.1
      · simp only [cp8_z]; exact decide_eq_decide.2 less_low.2
  · refine ⟨?_, ?_, ?_⟩
    rotate_left
    · exec ldAH hm
      exec cpD hm
      exec jrNz hm goto 0x1C0 rel 2 if (by simp only [cp8_z, hd]; decide)
      exact .refl _
    · refine ⟨rfl, ⟨rfl, rfl, rfl, rfl, rfl⟩, ?_, ?_⟩
      · simp only [cp8_c]; exact decide_eq_decide.2 (less_bytes hd).1
      · simp only [cp8_z]; exact decide_eq_decide.2 ⟨fun h => absurd h hd, fun h => absurd h (less_bytes hd).2⟩

/-- Comparison of DE with HL, 0x1D1 to 0x1D7. -/
theorem qaCmp2 {c : Core} (hm : Loaded c.mem) (hp : c.pc = 0x1D1) : ∃ d : Core, Run o v c d ∧ d.pc = 0x1D7 ∧ Same c d ∧
    d.f.c = decide (c.de.toNat < c.hl.toNat) := by
  obtain ⟨a, f, b, c, d, e, h, l, a', f', b', c', d', e', h', l', sp, pc, m, t⟩ := c
  simp only at hm hp ⊢
  subst hp
  by_cases hd : d = h
  · subst hd
    refine ⟨?_, ?_, ?_⟩
    rotate_left
    · exec ldAD hm
      exec cpH hm
      exec jrNzNot hm if (by simp only [cp8_z]; decide)
      exec ldAE hm
      exec cpL hm
      exact .refl _
    · refine ⟨rfl, ⟨rfl, rfl, rfl, rfl, rfl⟩, ?_⟩
      simp only [cp8_c]; exact decide_eq_decide.2 less_low.1
  · refine ⟨?_, ?_, ?_⟩
    rotate_left
    · exec ldAD hm
      exec cpH hm
      exec jrNz hm goto 0x1D7 rel 2 if (by simp only [cp8_z, hd]; decide)
      exact .refl _
    · refine ⟨rfl, ⟨rfl, rfl, rfl, rfl, rfl⟩, ?_⟩
      simp only [cp8_c]; exact decide_eq_decide.2 (less_bytes hd).1

/-- Comparison of DE with HL, 0x1DC to 0x1E2. -/
theorem qaCmp3 {c : Core} (hm : Loaded c.mem) (hp : c.pc = 0x1DC) : ∃ d : Core, Run o v c d ∧ d.pc = 0x1E2 ∧ Same c d ∧
    d.f.c = decide (c.de.toNat < c.hl.toNat) := by
  obtain ⟨a, f, b, c, d, e, h, l, a', f', b', c', d', e', h', l', sp, pc, m, t⟩ := c
  simp only at hm hp ⊢
  subst hp
  by_cases hd : d = h
  · subst hd
    refine ⟨?_, ?_, ?_⟩
    rotate_left
    · exec ldAD hm
      exec cpH hm
      exec jrNzNot hm if (by simp only [cp8_z]; decide)
      exec ldAE hm
      exec cpL hm
      exact .refl _
    · refine ⟨rfl, ⟨rfl, rfl, rfl, rfl, rfl⟩, ?_⟩
      simp only [cp8_c]; exact decide_eq_decide.2 less_low.1
  · refine ⟨?_, ?_, ?_⟩
    rotate_left
    · exec ldAD hm
      exec cpH hm
      exec jrNz hm goto 0x1E2 rel 2 if (by simp only [cp8_z, hd]; decide)
      exact .refl _
    · refine ⟨rfl, ⟨rfl, rfl, rfl, rfl, rfl⟩, ?_⟩
      simp only [cp8_c]; exact decide_eq_decide.2 (less_bytes hd).1

/-- The beginning: 0x18F to 0x19D. -/
theorem qaStart {c : Core} (hm : Loaded c.mem) (hp : c.pc = 0x18F) : ∃ d : Core, Run o v c d ∧ d.pc = 0x19D ∧
    d.mem = c.mem ∧ d.sp = c.sp ∧ d.de = 0x2CC ∧ d.hl = 0x3CB := by
  obtain ⟨a, f, b, c, d, e, h, l, a', f', b', c', d', e', h', l', sp, pc, m, t⟩ := c
  simp only at hm hp ⊢
  subst hp
  have e1 : (cp8 (hi8 971) (hi8 716)).z = false := by decide
  have e2 : (cp8 (hi8 971) (hi8 716)).c = false := by decide
  refine ⟨?_, ?_, ?_⟩
  rotate_left
  · exec ldDeNN hm arg16 0x2CC
    exec ldHlNN hm arg16 0x3CB
    exec ldAH hm
    exec cpD hm
    exec jrNz hm goto 0x19B rel 2 if (by simp only [e1]; decide)
    exec retCNot hm if (by simp only [e2]; decide)
    exec retZNot hm if (by simp only [e1]; decide)
    exact .refl _
  · exact ⟨rfl, rfl, rfl, word_hi8_lo8 _, word_hi8_lo8 _⟩

/-- The next element from below: 0x1AD to 0x1AD or 0x1B2. -/
theorem qaUp1 {c : Core} (hm : Loaded c.mem) (hp : c.pc = 0x1AD) : ∃ d : Core, Run o v c d ∧
    d.pc = (if (c.mem (c.de + 1)).toNat < c.c.toNat then 0x1AD else 0x1B2) ∧ d.mem = c.mem ∧ d.sp = c.sp ∧
    d.c = c.c ∧ d.de = c.de + 1 ∧ d.hl = c.hl := by
  obtain ⟨a, f, b, c, d, e, h, l, a', f', b', c', d', e', h', l', sp, pc, m, t⟩ := c
  simp only at hm hp ⊢
  subst hp
  by_cases hc : (m (word d e + 1)).toNat < c.toNat
  · rw [if_pos hc]
    refine ⟨?_, ?_, ?_⟩
    rotate_left
    · exec incDe hm
      exec ldADe hm
      exec cpC hm
      exec jrC hm goto 0x1AD rel 0xFB if (by simp only [cp8_c, hc]; decide)
      exact .refl _
    · exact ⟨rfl, rfl, rfl, rfl, word_hi8_lo8 _, rfl⟩
  · rw [if_neg hc]
    refine ⟨?_, ?_, ?_⟩
    rotate_left
    · exec incDe hm
      exec ldADe hm
      exec cpC hm
      exec jrCNot hm if (by simp only [cp8_c, hc]; decide)
      exact .refl _
    · exact ⟨rfl, rfl, rfl, rfl, word_hi8_lo8 _, rfl⟩

/-- The first element from below: 0x1A9 to 0x1AD or 0x1B2. -/
theorem qaUp0 {c : Core} (hm : Loaded c.mem) (hp : c.pc = 0x1A9) : ∃ d : Core, Run o v c d ∧
    d.pc = (if (c.mem c.de).toNat < c.c.toNat then 0x1AD else 0x1B2) ∧ Same c d := by
  obtain ⟨a, f, b, c, d, e, h, l, a', f', b', c', d', e', h', l', sp, pc, m, t⟩ := c
  simp only at hm hp ⊢
  subst hp
  by_cases hc : (m (word d e)).toNat < c.toNat
  · rw [if_pos hc]
    refine ⟨?_, ?_, ?_⟩
    rotate_left
    · exec ldADe hm
      exec cpC hm
      exec jrNcNot hm if (by simp only [cp8_c, hc]; decide)
      exact .refl _
    · exact ⟨rfl, rfl, rfl, rfl, rfl, rfl⟩
  · rw [if_neg hc]
    refine ⟨?_, ?_, ?_⟩
    rotate_left
    · exec ldADe hm
      exec cpC hm
      exec jrNc hm goto 0x1B2 rel 5 if (by simp only [cp8_c, hc]; decide)
      exact .refl _
    · exact ⟨rfl, rfl, rfl, rfl, rfl, rfl⟩

/-- The next element from above: 0x1B6 to 0x1B6 or 0x1BA; A holds the pivot. -/
theorem qaDown1 {c : Core} (hm : Loaded c.mem) (hp : c.pc = 0x1B6) (ha : c.a = c.c) : ∃ d : Core, Run o v c d ∧
    d.pc = (if c.c.toNat < (c.mem (c.hl - 1)).toNat then 0x1B6 else 0x1BA) ∧ d.mem = c.mem ∧ d.sp = c.sp ∧
    d.c = c.c ∧ d.de = c.de ∧ d.hl = c.hl - 1 ∧ d.a = d.c := by
  obtain ⟨a, f, b, c, d, e, h, l, a', f', b', c', d', e', h', l', sp, pc, m, t⟩ := c
  simp only at hm hp ha ⊢
  subst hp ha
  by_cases hc : a.toNat < (m (word h l - 1)).toNat
  · rw [if_pos hc]
    refine ⟨?_, ?_, ?_⟩
    rotate_left
    · exec decHl hm
      exec cpM hm
      exec jrC hm goto 0x1B6 rel 0xFC if (by simp only [cp8_c, hc]; decide)
      exact .refl _
    · exact ⟨rfl, rfl, rfl, rfl, rfl, word_hi8_lo8 _, rfl⟩
  · rw [if_neg hc]
    refine ⟨?_, ?_, ?_⟩
    rotate_left
    · exec decHl hm
      exec cpM hm
      exec jrCNot hm if (by simp only [cp8_c, hc]; decide)
      exact .refl _
    · exact ⟨rfl, rfl, rfl, rfl, rfl, word_hi8_lo8 _, rfl⟩

/-- The first element from above: 0x1B2 to 0x1B6 or 0x1BA. -/
theorem qaDown0 {c : Core} (hm : Loaded c.mem) (hp : c.pc = 0x1B2) : ∃ d : Core, Run o v c d ∧
    d.pc = (if c.c.toNat < (c.mem c.hl).toNat then 0x1B6 else 0x1BA) ∧ Same c d ∧ d.a = d.c := by
  obtain ⟨a, f, b, c, d, e, h, l, a', f', b', c', d', e', h', l', sp, pc, m, t⟩ := c
  simp only at hm hp ⊢
  subst hp
  by_cases hc : c.toNat < (m (word h l)).toNat
  · rw [if_pos hc]
    refine ⟨?_, ?_, ?_⟩
    rotate_left
    · exec ldAC hm
      exec cpM hm
      exec jrNcNot hm if (by simp only [cp8_c, hc]; decide)
      exact .refl _
    · exact ⟨rfl, ⟨rfl, rfl, rfl, rfl, rfl⟩, rfl⟩
  · rw [if_neg hc]
    refine ⟨?_, ?_, ?_⟩
    rotate_left
    · exec ldAC hm
      exec cpM hm
      exec jrNc hm goto 0x1BA rel 4 if (by simp only [cp8_c, hc]; decide)
      exact .refl _
    · exact ⟨rfl, ⟨rfl, rfl, rfl, rfl, rfl⟩, rfl⟩

/-- After the comparison: 0x1C0 to 0x1D0 or 0x1A9. -/
theorem qaMeet {c : Core} (hm : Loaded c.mem) (hp : c.pc = 0x1C0) (hc : c.f.c = decide (c.hl.toNat < c.de.toNat))
    (hz : c.f.z = decide (c.hl = c.de)) (h1 : 712 ≤ c.hl.toNat) (h2 : 712 ≤ c.de.toNat) : ∃ d : Core, Run o v c d ∧
    d.sp = c.sp ∧ d.c = c.c ∧
    (c.hl.toNat < c.de.toNat ∧ d.pc = 0x1D0 ∧ d.mem = c.mem ∧ d.de = c.de ∧ d.hl = c.hl ∨
     c.hl = c.de ∧ d.pc = 0x1D0 ∧ d.mem = c.mem ∧ d.de = c.de + 1 ∧ d.hl = c.hl - 1 ∨
     c.de.toNat < c.hl.toNat ∧ d.pc = 0x1A9 ∧ d.mem = put (put c.mem c.hl (c.mem c.de)) c.de (c.mem c.hl) ∧
      d.de = c.de + 1 ∧ d.hl = c.hl - 1) := by
  obtain ⟨a, f, b, c, d, e, h, l, a', f', b', c', d', e', h', l', sp, pc, m, t⟩ := c
  simp only at hm hp hc hz h1 h2 ⊢
  subst hp
  by_cases hl : (word h l).toNat < (word d e).toNat
  · refine ⟨?_, ?_, ?_⟩
    rotate_left
    · exec jrC hm goto 0x1D0 rel 0x0E if (by rw [hc]; exact decide_eq_true hl)
      exact .refl _
    · exact ⟨rfl, rfl, .inl ⟨hl, rfl, rfl, rfl, rfl⟩⟩
  · by_cases he : word h l = word d e
    · refine ⟨?_, ?_, ?_⟩
      rotate_left
      · exec jrCNot hm if (by rw [hc, decide_eq_false hl]; decide)
        exec jrZ hm goto 0x1CE rel 0x0A if (by rw [hz]; exact decide_eq_true he)
        exec incDe hm
        exec decHl hm
        exact .refl _
      · exact ⟨rfl, rfl, .inr (.inl ⟨he, rfl, rfl, word_hi8_lo8 _, word_hi8_lo8 _⟩)⟩
    · have hg : (word d e).toNat < (word h l).toNat := by
        have : (word h l).toNat ≠ (word d e).toNat := fun h => he (BitVec.eq_of_toNat_eq h)
        omega
      refine ⟨?_, ?_, ?_⟩
      rotate_left
      · exec jrCNot hm if (by rw [hc, decide_eq_false hl]; decide)
        exec jrZNot hm if (by rw [hz, decide_eq_false he]; decide)
        exec ldBM hm
        exec ldADe hm
        exec ldMA hm
        have hm1 := loaded_put hm (m (word d e)) h1
        exec ldAB hm1
        exec ldDeA hm1
        have hm2 := loaded_put hm1 (m (word h l)) h2
        exec incDe hm2
        exec decHl hm2
        exec jp hm2 arg16 0x1A9
        exact .refl _
      · exact ⟨rfl, rfl, .inr (.inr ⟨hg, rfl, rfl, word_hi8_lo8 _, word_hi8_lo8 _⟩)⟩

/-- Adding and rotating right twice gives the middle. -/
theorem half (x y : U16) (f : Fl) (h : x.toNat + y.toNat < 65536) :
    word (Sh.rr.op (hi8 (add16 y x f).1) (add16 y x f).2.c).1
      (Sh.rr.op (lo8 (add16 y x f).1) (Sh.rr.op (hi8 (add16 y x f).1) (add16 y x f).2.c).2.c).1 =
      BitVec.ofNat 16 ((x.toNat + y.toNat) / 2) := by
  have hc : (add16 y x f).2.c = false := decide_eq_false (by omega)
  have hn : (add16 y x f).1.toNat = x.toNat + y.toNat := by
    show (BitVec.ofNat 16 (y.toNat + x.toNat)).toNat = _
    rw [BitVec.toNat_ofNat]
    omega
  rw [hc]
  generalize hs : (add16 y x f).1 = s at *
  apply BitVec.eq_of_toNat_eq
  have h1 : (Sh.rr.op (hi8 s) false).1.toNat = s.toNat / 512 := by
    show (BitVec.ofNat 8 ((hi8 s).toNat / 2 + 128 * (false : Bool).toNat)).toNat = _
    rw [hi8_nat, BitVec.toNat_ofNat, Bool.toNat_false]
    have := s.isLt
    omega
  have h2 : (Sh.rr.op (hi8 s) false).2.c = decide (s.toNat / 256 % 2 = 1) := by
    show (decide ((hi8 s).toNat % 2 = 1) : Bool) = _
    rw [hi8_nat]
  rw [word_nat, h1, h2]
  have h3 (b : Bool) : (Sh.rr.op (lo8 s) b).1.toNat = s.toNat % 256 / 2 + 128 * b.toNat := by
    show (BitVec.ofNat 8 ((lo8 s).toNat / 2 + 128 * b.toNat)).toNat = _
    rw [lo8_nat, BitVec.toNat_ofNat]
    have := b.toNat_lt
    omega
  rw [h3, BitVec.toNat_ofNat, ← hn]
  have := s.isLt
  by_cases hb : s.toNat / 256 % 2 = 1
  · rw [decide_eq_true hb, Bool.toNat_true]; omega
  · rw [decide_eq_false hb, Bool.toNat_false]; omega

/-- Before the scan: 0x19D to 0x1A9. -/
theorem qaEnter {c : Core} (hm : Loaded c.mem) (hp : c.pc = 0x19D) (hs : 718 ≤ c.sp.toNat)
    (hx : c.de.toNat + c.hl.toNat < 65536) : ∃ d : Core, Run o v c d ∧ d.pc = 0x1A9 ∧ d.sp = c.sp - 2 - 2 ∧
    d.mem = push (push c.mem c.sp c.de) (c.sp - 2) c.hl ∧ d.de = c.de ∧ d.hl = c.hl ∧
    d.c = d.mem (BitVec.ofNat 16 ((c.de.toNat + c.hl.toNat) / 2)) := by
  obtain ⟨a, f, b, c, d, e, h, l, a', f', b', c', d', e', h', l', sp, pc, m, t⟩ := c
  simp only at hm hp hs hx ⊢
  subst hp
  refine ⟨?_, ?_, ?_⟩
  rotate_left
  · exec pushDe hm
    have hm1 := loaded_push hm (word d e) (by omega : 714 ≤ sp.toNat)
    exec pushHl hm1
    have hm2 := loaded_push hm1 (word h l) (by bv_omega : 714 ≤ (sp - 2).toNat)
    exec ldBL hm2
    exec ldAH hm2
    exec addHlDe hm2
    exec rrH hm2 two
    exec rrL hm2 two
    exec ldCM hm2
    exec ldHA hm2
    exec ldLB hm2
    exact .refl _
  · exact ⟨rfl, rfl, rfl, rfl, rfl, by dsimp only; rw [half (word d e) (word h l) f hx]⟩

/-- After the partition: 0x1D0 to 0x1D1. -/
theorem qaExch {c : Core} (hm : Loaded c.mem) (hp : c.pc = 0x1D0) (hs : 712 ≤ c.sp.toNat) (hs2 : c.sp.toNat < 65535) :
    ∃ d : Core, Run o v c d ∧ d.pc = 0x1D1 ∧ d.sp = c.sp ∧ d.de = c.de ∧
    d.hl = word (c.mem (c.sp + 1)) (c.mem c.sp) ∧ d.mem = put (put c.mem (c.sp + 1) (hi8 c.hl)) c.sp (lo8 c.hl) := by
  rw [hi8_word, lo8_word]
  obtain ⟨a, f, b, c, d, e, h, l, a', f', b', c', d', e', h', l', sp, pc, m, t⟩ := c
  simp only at hm hp hs hs2 ⊢
  subst hp
  refine ⟨?_, ?_, ?_⟩
  rotate_left
  · exec exSpHl hm
    exact .refl _
  · exact ⟨rfl, rfl, rfl, rfl, rfl⟩

/-- The call for the upper part: 0x1D7 to 0x19D or 0x1DA. -/
theorem qaCall {c : Core} (hm : Loaded c.mem) (hp : c.pc = 0x1D7) : ∃ d : Core, Run o v c d ∧ d.de = c.de ∧ d.hl = c.hl ∧
    (c.f.c = true ∧ d.pc = 0x19D ∧ d.sp = c.sp - 2 ∧ d.mem = push c.mem c.sp 0x1DA ∨
     c.f.c = false ∧ d.pc = 0x1DA ∧ d.sp = c.sp ∧ d.mem = c.mem) := by
  obtain ⟨a, f, b, c, d, e, h, l, a', f', b', c', d', e', h', l', sp, pc, m, t⟩ := c
  simp only at hm hp ⊢
  subst hp
  cases hf : f.c with
  | true =>
    refine ⟨?_, ?_, ?_⟩
    rotate_left
    · exec callC hm arg16 0x19D if hf
      exact .refl _
    · exact ⟨rfl, rfl, .inl ⟨rfl, rfl, rfl, rfl⟩⟩
  | false =>
    refine ⟨?_, ?_, ?_⟩
    rotate_left
    · exec callCNot hm if (by rw [hf]; decide)
      exact .refl _
    · exact ⟨rfl, rfl, .inr ⟨rfl, rfl, rfl, rfl⟩⟩

/-- Back from the upper part: 0x1DA to 0x1DC. -/
theorem qaPop {c : Core} (hm : Loaded c.mem) (hp : c.pc = 0x1DA) : ∃ d : Core, Run o v c d ∧ d.pc = 0x1DC ∧
    d.mem = c.mem ∧ d.sp = c.sp + 2 + 2 ∧ d.hl = word (c.mem (c.sp + 1)) (c.mem c.sp) ∧
    d.de = word (c.mem (c.sp + 2 + 1)) (c.mem (c.sp + 2)) := by
  obtain ⟨a, f, b, c, d, e, h, l, a', f', b', c', d', e', h', l', sp, pc, m, t⟩ := c
  simp only at hm hp ⊢
  subst hp
  refine ⟨?_, ?_, ?_⟩
  rotate_left
  · exec popHl hm
    exec popDe hm
    exact .refl _
  · exact ⟨rfl, rfl, rfl, rfl, rfl⟩

/-- The jump for the lower part or the return: 0x1E2. -/
theorem qaTail {c : Core} (hm : Loaded c.mem) (hp : c.pc = 0x1E2) : ∃ d : Core, Run o v c d ∧ d.mem = c.mem ∧
    (c.f.c = true ∧ d.pc = 0x19D ∧ d.sp = c.sp ∧ d.de = c.de ∧ d.hl = c.hl ∨
     c.f.c = false ∧ d.pc = word (c.mem (c.sp + 1)) (c.mem c.sp) ∧ d.sp = c.sp + 2) := by
  obtain ⟨a, f, b, c, d, e, h, l, a', f', b', c', d', e', h', l', sp, pc, m, t⟩ := c
  simp only at hm hp ⊢
  subst hp
  cases hf : f.c with
  | true =>
    refine ⟨?_, ?_, ?_⟩
    rotate_left
    · exec jpC hm arg16 0x19D if hf
      exact .refl _
    · exact ⟨rfl, .inl ⟨rfl, rfl, rfl, rfl, rfl⟩⟩
  | false =>
    refine ⟨?_, ?_, ?_⟩
    rotate_left
    · exec jpCNot hm if (by rw [hf]; decide)
      exec ret hm
      exact .refl _
    · exact ⟨rfl, .inr ⟨rfl, rfl, rfl⟩⟩

end Z80.Routine
