import Verif.Proofs.ShuffleQuickRun
import Verif.Proofs.ShuffleMul
import Verif.Proofs.ShuffleOut

/-!
# The random number generator of the test program

`/repo/tests/shuffle/shuffle.bin` 168-254 on the specified machine: the seed `s` becomes
`75 * (s + 1) mod 65537 - 1`.
-/

set_option linter.unusedVariables false
set_option linter.unusedSimpArgs false

namespace Z80.Routine
open Spec Spec.Shuffle
variable {w : Nat} {O R I : Type} {o : Opt} {v : Env w O R I}

section Instructions
attribute [local semireducible] put push

/-- A proof for an instruction without condition. -/
local macro "plain" op:num n:num h:ident : term =>
  `(One.of $op $n $h (fun x i t => ⟨⟨_, _, _, _, _, _, _, _, _, _, _⟩, rfl⟩) rfl)

theorem orH (c : Core) (hc : c.mem c.pc = 0xB4) : One o v c
    { c with a := (or8 c.a c.h).1, f := (or8 c.a c.h).2, pc := c.pc + 1, t := c.t + 4 } := plain 0xB4 0 hc

theorem orD (c : Core) (hc : c.mem c.pc = 0xB2) : One o v c
    { c with a := (or8 c.a c.d).1, f := (or8 c.a c.d).2, pc := c.pc + 1, t := c.t + 4 } := plain 0xB2 0 hc

theorem andE (c : Core) (hc : c.mem c.pc = 0xA3) : One o v c
    { c with a := (and8 c.a c.e).1, f := (and8 c.a c.e).2, pc := c.pc + 1, t := c.t + 4 } := plain 0xA3 0 hc

theorem subB (c : Core) (hc : c.mem c.pc = 0x90) : One o v c
    { c with a := (sub8 c.a c.b false).1, f := (sub8 c.a c.b false).2, pc := c.pc + 1, t := c.t + 4 } := plain 0x90 0 hc

theorem sbcAA (c : Core) (hc : c.mem c.pc = 0x9F) : One o v c
    { c with a := (sub8 c.a c.a c.f.c).1, f := (sub8 c.a c.a c.f.c).2, pc := c.pc + 1, t := c.t + 4 } := plain 0x9F 0 hc

theorem addAD (c : Core) (hc : c.mem c.pc = 0x82) : One o v c
    { c with a := (add8 c.a c.d false).1, f := (add8 c.a c.d false).2, pc := c.pc + 1, t := c.t + 4 } := plain 0x82 0 hc

theorem adcAC (c : Core) (hc : c.mem c.pc = 0x89) : One o v c
    { c with a := (add8 c.a c.c c.f.c).1, f := (add8 c.a c.c c.f.c).2, pc := c.pc + 1, t := c.t + 4 } := plain 0x89 0 hc

theorem incD (c : Core) (hc : c.mem c.pc = 0x14) : One o v c
    { c with d := (inc8 c.d c.f).1, f := (inc8 c.d c.f).2, pc := c.pc + 1, t := c.t + 4 } := plain 0x14 0 hc

theorem ldCA (c : Core) (hc : c.mem c.pc = 0x4F) : One o v c
    { c with c := c.a, pc := c.pc + 1, t := c.t + 4 } := plain 0x4F 0 hc

theorem ldCD (c : Core) (hc : c.mem c.pc = 0x4A) : One o v c
    { c with c := c.d, pc := c.pc + 1, t := c.t + 4 } := plain 0x4A 0 hc

theorem ldLH (c : Core) (hc : c.mem c.pc = 0x6C) : One o v c
    { c with l := c.h, pc := c.pc + 1, t := c.t + 4 } := plain 0x6C 0 hc

theorem adcHlHl (c : Core) (hc : c.mem c.pc = 0xED) (h1 : c.mem (c.pc + 1) = 0x6A) : One o v c
    { c with h := hi8 (adc16 (word c.h c.l) (word c.h c.l) c.f.c).1, l := lo8 (adc16 (word c.h c.l) (word c.h c.l) c.f.c).1,
             f := (adc16 (word c.h c.l) (word c.h c.l) c.f.c).2, pc := c.pc + 1 + 1, t := c.t + 15 } :=
  One.ofEd 0x6A 11 hc h1 (fun x i t => ⟨⟨_, _, _, _, _, _, _, _, _, _, _⟩, rfl⟩) rfl

theorem jpNc (c : Core) (x : U16) (hc : c.mem c.pc = 0xD2) (h1 : c.mem (c.pc + 1) = lo8 x)
    (h2 : c.mem (c.pc + 1 + 1) = hi8 x) (hb : (!c.f.c) = true) : One o v c { c with pc := x, t := c.t + 10 } := by
  have e : x = word (c.mem (c.pc + 1 + 1)) (c.mem (c.pc + 1)) := by rw [h1, h2, word_hi8_lo8]
  subst e
  exact One.of 0xD2 6 hc (fun x i t => ⟨⟨_, _, _, _, _, _, _, _, _, _, _⟩,
    (congrArg (fun e : Mach w I => Eff.finish (done (e.wz (word (c.mem (c.pc + 1 + 1)) (c.mem (c.pc + 1))))) false 6)
      (if_pos hb)).trans rfl⟩) rfl
theorem jpNcNot (c : Core) (hc : c.mem c.pc = 0xD2) (hb : ¬ ((!c.f.c) = true)) : One o v c
    { c with pc := c.pc + 1 + 2, t := c.t + 10 } :=
  One.of 0xD2 6 hc (fun x i t => ⟨⟨_, _, _, _, _, _, _, _, _, _, _⟩,
    (congrArg (fun e : Mach w I => Eff.finish (done (e.wz (word (c.mem (c.pc + 1 + 1)) (c.mem (c.pc + 1))))) false 6)
      (if_neg hb)).trans rfl⟩) rfl

theorem callNN (c : Core) (x : U16) (hc : c.mem c.pc = 0xCD) (h1 : c.mem (c.pc + 1) = lo8 x)
    (h2 : c.mem (c.pc + 1 + 1) = hi8 x) : One o v c
    { c with mem := push c.mem c.sp (c.pc + 1 + 2), sp := c.sp - 2, pc := x, t := c.t + 17 } := by
  have e : x = word (c.mem (c.pc + 1 + 1)) (c.mem (c.pc + 1)) := by rw [h1, h2, word_hi8_lo8]
  subst e
  exact plain 0xCD 13 hc

end Instructions

/-! ### Numbers -/

theorem add16_val (a b : U16) (f : Fl) : (add16 a b f).1.toNat = (a.toNat + b.toNat) % 65536 := by
  simp only [add16, BitVec.toNat_ofNat]
theorem add16_c (a b : U16) (f : Fl) : (add16 a b f).2.c = decide (65536 ≤ a.toNat + b.toNat) := rfl
theorem adc16_val (a b : U16) (c : Bool) : (adc16 a b c).1.toNat = (a.toNat + b.toNat + c.toNat) % 65536 := by
  simp only [adc16, BitVec.toNat_ofNat]
theorem adc16_c (a b : U16) (c : Bool) : (adc16 a b c).2.c = decide (65536 ≤ a.toNat + b.toNat + c.toNat) := rfl
theorem rl_val (x : U8) (c : Bool) : (Sh.rl.op x c).1.toNat = 2 * x.toNat % 256 + c.toNat := by
  simp only [Sh.op, Sh.val, BitVec.toNat_ofNat]
  have := x.isLt
  cases c <;> simp only [Bool.toNat_true, Bool.toNat_false] <;> omega
theorem bit16 (a b : U16) : (decide (65536 ≤ a.toNat + b.toNat)).toNat = (a.toNat + b.toNat) / 65536 := by
  have := a.isLt; have := b.isLt
  by_cases h : 65536 ≤ a.toNat + b.toNat
  · rw [decide_eq_true h, Bool.toNat_true]; omega
  · rw [decide_eq_false h, Bool.toNat_false]; omega

theorem add16_b (a b : U16) (f : Fl) : (add16 a b f).2.c.toNat = (a.toNat + b.toNat) / 65536 := bit16 a b

/-- A byte and a word as a number. -/
def big (a : U8) (x : U16) : Nat := a.toNat * 65536 + x.toNat

/-! ### Multiplication by 75 -/

theorem rndA {c : Core} (hm : Loaded c.mem) (hp : c.pc = 0xBB) :
    ∃ d : Core, Run o v c d ∧ d.pc = 0xC5 ∧ d.mem = c.mem ∧ d.sp = c.sp ∧
      big d.a d.hl = 3 * c.hl.toNat ∧ big d.c d.de = 2 * c.hl.toNat := by
  obtain ⟨a, f, b, c, d, e, h, l, a', f', b', c', d', e', h', l', sp, pc, m, t⟩ := c
  simp only at hm hp ⊢
  subst hp
  refine ⟨?_, ?_, ?_⟩
  rotate_left
  · exec xorA hm
    exec ldEL hm
    exec ldDH hm
    exec ldCA hm
    exec addHlHl hm
    exec exDeHl hm
    exec rlC hm two
    exec addHlDe hm
    exec adcAC hm
    exact .refl _
  · refine ⟨rfl, rfl, rfl, ?_, ?_⟩
    · simp only [big, Core.hl, word_hi8_lo8, add8_val, xor8_self, add16_val, add16_b, rl_val]
      have := (word h l).isLt
      rw [show (0 : U8).toNat = 0 from rfl]
      omega
    · simp only [big, Core.de, Core.hl, word_hi8_lo8, add8_val, xor8_self, add16_val, add16_b, rl_val]
      have := (word h l).isLt
      rw [show (0 : U8).toNat = 0 from rfl]
      omega

theorem rndB {c : Core} (hm : Loaded c.mem) (hp : c.pc = 0xC5) (h1 : big c.c c.de < 2097152)
    (h2 : big c.a c.hl < 2097152) :
    ∃ d : Core, Run o v c d ∧ d.pc = 0xCF ∧ d.mem = c.mem ∧ d.sp = c.sp ∧
      big d.a d.hl = big c.a c.hl + 4 * big c.c c.de ∧ big d.c d.de = 4 * big c.c c.de := by
  obtain ⟨a, f, b, c, d, e, h, l, a', f', b', c', d', e', h', l', sp, pc, m, t⟩ := c
  simp only [big, Core.hl, Core.de] at hm hp h1 h2 ⊢
  subst hp
  refine ⟨?_, ?_, ?_⟩
  rotate_left
  · exec exDeHl hm
    exec addHlHl hm
    exec rlC hm two
    exec addHlHl hm
    exec exDeHl hm
    exec rlC hm two
    exec addHlDe hm
    exec adcAC hm
    exact .refl _
  · refine ⟨rfl, rfl, rfl, ?_, ?_⟩
    · simp only [big, Core.hl, word_hi8_lo8, add8_val, add16_val, add16_b, rl_val]
      have := (word h l).isLt; have := (word d e).isLt
      omega
    · simp only [big, Core.de, Core.hl, word_hi8_lo8, add8_val, add16_val, add16_b, rl_val]
      have := (word h l).isLt; have := (word d e).isLt
      omega

theorem rndC {c : Core} (hm : Loaded c.mem) (hp : c.pc = 0xCF) (h1 : big c.c c.de < 1048576)
    (h2 : big c.a c.hl < 2097152) :
    ∃ d : Core, Run o v c d ∧ d.pc = 0xDB ∧ d.mem = c.mem ∧ d.sp = c.sp ∧
      big d.a d.hl = big c.a c.hl + 8 * big c.c c.de ∧ d.f.z = decide (d.a.toNat = 0) := by
  obtain ⟨a, f, b, c, d, e, h, l, a', f', b', c', d', e', h', l', sp, pc, m, t⟩ := c
  simp only [big, Core.hl, Core.de] at hm hp h1 h2 ⊢
  subst hp
  refine ⟨?_, ?_, ?_⟩
  rotate_left
  · exec exDeHl hm
    exec addHlHl hm
    exec rlC hm two
    exec addHlHl hm
    exec rlC hm two
    exec addHlHl hm
    exec rlC hm two
    exec addHlDe hm
    exec adcAC hm
    exact .refl _
  · refine ⟨rfl, rfl, rfl, ?_, ?_⟩
    · simp only [big, Core.hl, word_hi8_lo8, add8_val, add16_val, add16_b, rl_val]
      have := (word h l).isLt; have := (word d e).isLt
      omega
    · rfl

/-- 75 times a word. -/
theorem rndMul {c : Core} (hm : Loaded c.mem) (hp : c.pc = 0xBB) :
    ∃ d : Core, Run o v c d ∧ d.pc = 0xDB ∧ d.mem = c.mem ∧ d.sp = c.sp ∧
      big d.a d.hl = 75 * c.hl.toNat ∧ d.f.z = decide (d.a.toNat = 0) := by
  have := c.hl.isLt
  obtain ⟨c1, r1, p1, m1, s1, e1, f1⟩ := rndA (o := o) (v := v) hm hp
  obtain ⟨c2, r2, p2, m2, s2, e2, f2⟩ := rndB (o := o) (v := v) (c := c1) (m1 ▸ hm) p1 (by omega) (by omega)
  obtain ⟨d, r3, p3, m3, s3, e3, f3⟩ := rndC (o := o) (v := v) (c := c2) (m2 ▸ m1 ▸ hm) p2 (by omega) (by omega)
  exact ⟨d, r1.trans (r2.trans r3), p3, m3.trans (m2.trans m1), s3.trans (s2.trans s1), by omega, f3⟩

/-! ### Division by 65537 -/

theorem dec8_val (x : U8) (f : Fl) (h : 1 ≤ x.toNat) : (dec8 x f).1.toNat = x.toNat - 1 := by
  show (BitVec.ofInt 8 ((x.toNat : Int) - (1 : U8).toNat - (false : Bool).toNat)).toNat = _
  have := x.isLt
  rw [BitVec.toNat_ofInt, show ((1 : U8).toNat : Int) = 1 from rfl, show (((false : Bool).toNat : Nat) : Int) = 0 from rfl]
  omega
theorem dec8_z (x : U8) (f : Fl) (h : 1 ≤ x.toNat) : (dec8 x f).2.z = decide (x.toNat = 1) := by
  have e := dec8_val x f h
  show (decide ((dec8 x f).1.toNat = 0) : Bool) = _
  rw [e]
  apply decide_eq_decide.2
  omega

theorem word_div {a : U8} {h l : U8} : (word a h).toNat = big a (word h l) / 256 := by
  rw [big, word_val, word_val]
  have := h.isLt; have := l.isLt
  omega
theorem low_mod {a : U8} {h l : U8} : l.toNat = big a (word h l) % 256 := by
  rw [big, word_val]
  have := h.isLt; have := l.isLt
  omega

/-- One step of the normalization, 0xE2 to 0xE2 or 0xE8. -/
theorem rndNorm1 {c : Core} (hm : Loaded c.mem) (hp : c.pc = 0xE2) (hb : 1 ≤ c.b.toNat) :
    ∃ d : Core, Run o v c d ∧ d.mem = c.mem ∧ d.sp = c.sp ∧ d.de = c.de ∧ d.b.toNat = c.b.toNat - 1 ∧
      d.f.z = decide (c.b.toNat = 1) ∧
      (16777216 ≤ 2 * big c.a c.hl ∧ d.pc = 0xE8 ∧ big d.a d.hl + 16777216 = 2 * big c.a c.hl ∨
       2 * big c.a c.hl < 16777216 ∧ d.pc = 0xE2 ∧ big d.a d.hl = 2 * big c.a c.hl) := by
  obtain ⟨a, f, b, c, d, e, h, l, a', f', b', c', d', e', h', l', sp, pc, m, t⟩ := c
  simp only at hm hp hb ⊢
  subst hp
  have ha := a.isLt
  have hw := (word h l).isLt
  have cc : ∀ g : Fl, (add8 a a (add16 (word h l) (word h l) g).2.c).2.c = decide (16777216 ≤ 2 * big a (word h l)) := fun g => by
    rw [add8_c, add16_b]
    apply decide_eq_decide.2
    unfold big
    omega
  have nn : ∀ g : Fl, big (add8 a a (add16 (word h l) (word h l) g).2.c).1 (add16 (word h l) (word h l) g).1 =
      2 * big a (word h l) % 16777216 := fun g => by
    simp only [big, add8_val, add16_val, add16_b]
    omega
  have bl : big a (word h l) < 16777216 := by unfold big; omega
  by_cases hc : 16777216 ≤ 2 * big a (word h l)
  · refine ⟨?_, ?_, ?_⟩
    rotate_left
    · exec addHlHl hm
      exec adcAA hm
      exec decB hm
      exec jpNcNot hm if (by
        show ¬ ((!(add8 a a _).2.c) = true)
        rw [cc, decide_eq_true hc]; decide)
      exact .refl _
    · refine ⟨rfl, rfl, rfl, dec8_val b f hb, dec8_z b f hb, .inl ⟨hc, rfl, ?_⟩⟩
      simp only [Core.hl, word_hi8_lo8]
      rw [nn]; omega
  · refine ⟨?_, ?_, ?_⟩
    rotate_left
    · exec addHlHl hm
      exec adcAA hm
      exec decB hm
      exec jpNc hm arg16 0xE2 if (by
        show (!(add8 a a _).2.c) = true
        rw [cc, decide_eq_false hc]; decide)
      exact .refl _
    · refine ⟨rfl, rfl, rfl, dec8_val b f hb, dec8_z b f hb, .inr ⟨by simp only [Core.hl]; omega, rfl, ?_⟩⟩
      simp only [Core.hl, word_hi8_lo8]
      rw [nn]; omega

/-- The normalization, 0xE2 to 0xE8. -/
theorem rndNorm : ∀ (b : Nat) (c : Core), c.b.toNat = b → 1 ≤ b → Loaded c.mem → c.pc = 0xE2 → big c.a c.hl < 16777216 →
    16777216 ≤ big c.a c.hl * 2 ^ b →
    ∃ (d : Core) (k : Nat), Run o v c d ∧ d.pc = 0xE8 ∧ d.mem = c.mem ∧ d.sp = c.sp ∧ d.de = c.de ∧ k < b ∧ d.b.toNat = k ∧
      d.f.z = decide (k = 0) ∧ big d.a d.hl + 16777216 = big c.a c.hl * 2 ^ (b - k) := by
  intro b
  induction b with
  | zero => intro c _ h; omega
  | succ b ih =>
    intro c hb _ hm hp hl hg
    obtain ⟨d, r, m1, s1, e1, b1, z1, h⟩ := rndNorm1 (o := o) (v := v) hm hp (by omega)
    rcases h with ⟨h1, h2, h3⟩ | ⟨h1, h2, h3⟩
    · refine ⟨d, b, r, h2, m1, s1, e1, by omega, by omega, ?_, ?_⟩
      · rw [z1, hb]
        apply decide_eq_decide.2
        omega
      · rw [show b + 1 - b = 1 by omega, h3]; omega
    · have hb0 : b ≠ 0 := fun e => by subst e; simp only [Nat.zero_add, Nat.pow_one] at hg; omega
      have hg' : 16777216 ≤ big d.a d.hl * 2 ^ b := by
        rw [h3, Nat.mul_comm 2, Nat.mul_assoc, Nat.mul_comm 2, ← Nat.pow_succ]; exact hg
      obtain ⟨d2, k, r2, p2, m2, s2, e2, k1, k2, k3, k4⟩ :=
        ih d (by omega) (by omega) (m1 ▸ hm) h2 (by omega) hg'
      refine ⟨d2, k, r.trans r2, p2, m2.trans m1, s2.trans s1, e2.trans e1, by omega, k2, k3, ?_⟩
      rw [k4, h3, show b + 1 - k = (b - k) + 1 by omega, Nat.pow_succ, Nat.mul_comm (2 ^ (b - k)) 2, ← Nat.mul_assoc,
        Nat.mul_comm 2]

/-- The registers arranged for the division, 0xE8 to 0xED. -/
theorem rndTurn {c : Core} (hm : Loaded c.mem) (hp : c.pc = 0xE8) :
    ∃ d : Core, Run o v c d ∧ d.pc = 0xED ∧ d.mem = c.mem ∧ d.sp = c.sp ∧ d.de = c.de ∧ d.b = c.b ∧ d.f = c.f ∧
      d.hl = word c.a c.h - 1 ∧ d.a = c.l := by
  obtain ⟨a, f, b, c, d, e, h, l, a', f', b', c', d', e', h', l', sp, pc, m, t⟩ := c
  simp only at hm hp ⊢
  subst hp
  refine ⟨?_, ?_, ?_⟩
  rotate_left
  · exec ldCL hm
    exec ldLH hm
    exec ldHA hm
    exec ldAC hm
    exec decHl hm
    exact .refl _
  · exact ⟨rfl, rfl, rfl, rfl, rfl, rfl, word_hi8_lo8 _, rfl⟩

/-- One bit of the division, 0xEF to 0xF7 or 0xB6. -/
theorem rndRound {c : Core} (hm : Loaded c.mem) (hp : c.pc = 0xEF) (hd : c.de = 0xFFFF) :
    ∃ d : Core, Run o v c d ∧ d.mem = c.mem ∧ d.sp = c.sp ∧ d.de = c.de ∧ d.b = c.b ∧ d.a.toNat = 2 * c.a.toNat % 256 ∧
      (2 * c.hl.toNat + c.a.toNat / 128 < 65536 ∧ d.pc = 0xF7 ∧ d.hl.toNat = 2 * c.hl.toNat + c.a.toNat / 128 ∨
       65537 ≤ 2 * c.hl.toNat + c.a.toNat / 128 ∧ d.pc = 0xF7 ∧ d.hl.toNat + 65537 = 2 * c.hl.toNat + c.a.toNat / 128 ∨
       2 * c.hl.toNat + c.a.toNat / 128 = 65536 ∧ d.pc = 0xB6 ∧ d.hl.toNat = 65535) := by
  obtain ⟨a, f, b, c, d, e, h, l, a', f', b', c', d', e', h', l', sp, pc, m, t⟩ := c
  simp only [Core.hl, Core.de] at hm hp hd ⊢
  subst hp
  have ha := a.isLt
  have hw := (word h l).isLt
  have bt : (add8 a a false).2.c.toNat = a.toNat / 128 := by
    rw [add8_c, Bool.toNat_false]
    by_cases q : 256 ≤ a.toNat + a.toNat + 0
    · rw [decide_eq_true q, Bool.toNat_true]; omega
    · rw [decide_eq_false q, Bool.toNat_false]; omega
  have av : (add8 a a false).1.toNat = 2 * a.toNat % 256 := by rw [add8_val, Bool.toNat_false]; omega
  have xv : (adc16 (word h l) (word h l) (add8 a a false).2.c).1.toNat = (2 * (word h l).toNat + a.toNat / 128) % 65536 := by
    rw [adc16_val, bt]; omega
  have xc : (adc16 (word h l) (word h l) (add8 a a false).2.c).2.c = decide (65536 ≤ 2 * (word h l).toNat + a.toNat / 128) := by
    rw [adc16_c, bt]; apply decide_eq_decide.2; omega
  have fn : (0xFFFF : U16).toNat = 65535 := rfl
  by_cases q1 : 65536 ≤ 2 * (word h l).toNat + a.toNat / 128
  · have yv : ∀ g, (add16 (adc16 (word h l) (word h l) (add8 a a false).2.c).1 (word d e) g).1.toNat =
        ((2 * (word h l).toNat + a.toNat / 128) % 65536 + 65535) % 65536 := fun g => by
      rw [add16_val, xv, hd, fn]
    have yc : ∀ g, (add16 (adc16 (word h l) (word h l) (add8 a a false).2.c).1 (word d e) g).2.c =
        decide (65536 ≤ (2 * (word h l).toNat + a.toNat / 128) % 65536 + 65535) := fun g => by
      rw [add16_c, xv, hd, fn]
    by_cases q2 : 65537 ≤ 2 * (word h l).toNat + a.toNat / 128
    · refine ⟨?_, ?_, ?_⟩
      rotate_left
      · exec addAA hm
        exec adcHlHl hm two
        exec jrNcNot hm if (by show ¬ ((!(adc16 _ _ _).2.c) = true); rw [xc, decide_eq_true q1]; decide)
        exec addHlDe hm
        exec jrNcNot hm if (by
          show ¬ ((!(add16 _ _ _).2.c) = true); rw [yc, decide_eq_true (by omega)]; decide)
        exact .refl _
      · refine ⟨rfl, rfl, rfl, rfl, av, .inr (.inl ⟨q2, rfl, ?_⟩)⟩
        simp only [word_hi8_lo8]
        rw [yv]; omega
    · refine ⟨?_, ?_, ?_⟩
      rotate_left
      · exec addAA hm
        exec adcHlHl hm two
        exec jrNcNot hm if (by show ¬ ((!(adc16 _ _ _).2.c) = true); rw [xc, decide_eq_true q1]; decide)
        exec addHlDe hm
        exec jrNc hm goto 0xB6 rel 0xBF if (by
          show (!(add16 _ _ _).2.c) = true; rw [yc, decide_eq_false (by omega)]; decide)
        exact .refl _
      · refine ⟨rfl, rfl, rfl, rfl, av, .inr (.inr ⟨by omega, rfl, ?_⟩)⟩
        simp only [word_hi8_lo8]
        rw [yv]; omega
  · refine ⟨?_, ?_, ?_⟩
    rotate_left
    · exec addAA hm
      exec adcHlHl hm two
      exec jrNc hm goto 0xF7 rel 0x03 if (by show (!(adc16 _ _ _).2.c) = true; rw [xc, decide_eq_false q1]; decide)
      exact .refl _
    · refine ⟨rfl, rfl, rfl, rfl, av, .inl ⟨by omega, rfl, ?_⟩⟩
      simp only [word_hi8_lo8]
      rw [xv]; omega

theorem down_ne {b : U8} (h : 2 ≤ b.toNat) : b - 1 ≠ 0 := by bv_omega
theorem down_eq {b : U8} (h : b.toNat = 1) : ¬ (b - 1 ≠ 0) := by
  have : b = 1 := BitVec.eq_of_toNat_eq h
  subst this; decide
theorem down_nat {b : U8} (h : 1 ≤ b.toNat) : (b - 1).toNat = b.toNat - 1 := by bv_omega
theorem dec_nat {x : U16} (h : 1 ≤ x.toNat) : (x - 1).toNat = x.toNat - 1 := by bv_omega

/-- The remainder is 65536, 0xB6 to 0xF7 or 0xFA. -/
theorem rndSpecial {c : Core} (hm : Loaded c.mem) (hp : c.pc = 0xB6) (hb : 1 ≤ c.b.toNat) :
    ∃ d : Core, Run o v c d ∧ d.mem = c.mem ∧ d.sp = c.sp ∧ d.de = c.de ∧ d.hl = c.hl ∧
      (c.b.toNat = 1 ∧ d.pc = 0xFA ∨
       2 ≤ c.b.toNat ∧ d.pc = 0xF7 ∧ d.b.toNat = c.b.toNat - 1 ∧ d.a.toNat = 2 * c.a.toNat % 256) := by
  obtain ⟨a, f, b, c, d, e, h, l, a', f', b', c', d', e', h', l', sp, pc, m, t⟩ := c
  simp only at hm hp hb ⊢
  subst hp
  by_cases q : b.toNat = 1
  · refine ⟨?_, ?_, ?_⟩
    rotate_left
    · exec addAA hm
      exec djnzNot hm if (down_eq q)
      exec jr hm goto 0xFA rel 0x3F
      exact .refl _
    · exact ⟨rfl, rfl, rfl, rfl, .inl ⟨q, rfl⟩⟩
  · refine ⟨?_, ?_, ?_⟩
    rotate_left
    · exec addAA hm
      exec djnz hm goto 0xF7 rel 0x3E if (down_ne (b := b) (by omega))
      exact .refl _
    · refine ⟨rfl, rfl, rfl, rfl, .inr ⟨by omega, rfl, down_nat hb, ?_⟩⟩
      rw [add8_val, Bool.toNat_false]; omega

/-- The end of a round, 0xF7 to 0xEF or 0xFA. -/
theorem rndNext {c : Core} (hm : Loaded c.mem) (hp : c.pc = 0xF7) (hb : 1 ≤ c.b.toNat) :
    ∃ d : Core, Run o v c d ∧ d.mem = c.mem ∧ d.sp = c.sp ∧
      (c.b.toNat = 1 ∧ d.pc = 0xFA ∧ d.hl = c.hl - 1 ∨
       2 ≤ c.b.toNat ∧ d.pc = 0xEF ∧ d.b.toNat = c.b.toNat - 1 ∧ d.a = c.a ∧ d.hl = c.hl ∧ d.de = c.de) := by
  obtain ⟨a, f, b, c, d, e, h, l, a', f', b', c', d', e', h', l', sp, pc, m, t⟩ := c
  simp only at hm hp hb ⊢
  subst hp
  by_cases q : b.toNat = 1
  · refine ⟨?_, ?_, ?_⟩
    rotate_left
    · exec djnzNot hm if (down_eq q)
      exec decHl hm
      exact .refl _
    · exact ⟨rfl, rfl, .inl ⟨q, rfl, word_hi8_lo8 _⟩⟩
  · refine ⟨?_, ?_, ?_⟩
    rotate_left
    · exec djnz hm goto 0xEF rel 0xF6 if (down_ne (b := b) (by omega))
      exact .refl _
    · exact ⟨rfl, rfl, .inr ⟨by omega, rfl, down_nat hb, rfl, rfl, rfl⟩⟩

/-- A remainder of 65536 is never followed by a bit that is set. -/
theorem never_one : ∀ j, j < 7 → ∀ Q, Q < 75 → ∀ low, low < 64 → ¬ (1 ≤ Q ∧ 2 ^ j ≤ 2 * low ∧ low < 2 ^ j ∧
    ((65537 * Q + 65536) * 2 ^ j + low) % 75 = 0 ∧ (65537 * Q + 65536) * 2 ^ j + low < 4915200) := by
  decide +kernel

/-- And the division does not begin with one. -/
theorem never_first : ∀ j, j < 7 → ∀ low, low < 64 → low < 2 ^ j → (65536 * 2 ^ j + low) % 75 ≠ 0 := by
  decide +kernel

end Z80.Routine
