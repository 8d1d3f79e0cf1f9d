import Verif.Spec.Wide
import Verif.Proofs.RoutineMore
import Verif.Props.Alu

/-!
# The loops for numbers of many bytes
-/

set_option linter.unusedVariables false

namespace Z80.Routine
open Spec Spec.Wide
variable {w : Nat} {O R I : Type} {o : Opt} {v : Env w O R I}

attribute [local semireducible] put push in
theorem adcAM (c : Core) (hc : c.mem c.pc = 0x8E) : One o v c
    { c with a := (add8 c.a (c.mem (word c.h c.l)) c.f.c).1, f := (add8 c.a (c.mem (word c.h c.l)) c.f.c).2,
             pc := c.pc + 1, t := c.t + 7 } :=
  One.of 0x8E 3 hc (fun x i t => ⟨⟨_, _, _, _, _, _, _, _, _, _, _⟩, rfl⟩) rfl

attribute [local semireducible] put push in
theorem sbcAM (c : Core) (hc : c.mem c.pc = 0x9E) : One o v c
    { c with a := (sub8 c.a (c.mem (word c.h c.l)) c.f.c).1, f := (sub8 c.a (c.mem (word c.h c.l)) c.f.c).2,
             pc := c.pc + 1, t := c.t + 7 } :=
  One.of 0x9E 3 hc (fun x i t => ⟨⟨_, _, _, _, _, _, _, _, _, _, _⟩, rfl⟩) rfl

attribute [local semireducible] put push in
theorem incDe (c : Core) (hc : c.mem c.pc = 0x13) : One o v c
    { c with d := hi8 (word c.d c.e + 1), e := lo8 (word c.d c.e + 1), pc := c.pc + 1, t := c.t + 6 } :=
  One.of 0x13 2 hc (fun x i t => ⟨⟨_, _, _, _, _, _, _, _, _, _, _⟩, rfl⟩) rfl

/-! ### One byte -/

/-- What happens to one byte. -/
def byteOp (sub dec : Bool) (y x : U8) (c : Bool) : U8 × Fl :=
  let s := if sub then sub8 y x c else add8 y x c
  if dec then daa8 s.1 s.2 else s

theorem proper_bcd {x : U8} (h : Proper true x) : x = bcd (value true x) ∧ value true x < 100 := by
  obtain ⟨h1, h2⟩ := h rfl
  have := x.isLt
  unfold value bcd
  rw [if_pos rfl]
  refine ⟨?_, by omega⟩
  apply BitVec.eq_of_toNat_eq
  rw [BitVec.toNat_ofNat]
  omega

theorem bcd_proper {n : Nat} (h : n < 100) : Proper true (bcd n) ∧ value true (bcd n) = n := by
  have key : ∀ n : Fin 100, ((bcd n).toNat / 16 < 10 ∧ (bcd n).toNat % 16 < 10) ∧ value true (bcd n) = n := by decide +kernel
  exact ⟨fun _ => (key ⟨n, h⟩).1, (key ⟨n, h⟩).2⟩

theorem byte_sum (dec : Bool) {y x : U8} (c : Bool) (hy : Proper dec y) (hx : Proper dec x) :
    Proper dec (byteOp false dec y x c).1 ∧
    value dec (byteOp false dec y x c).1 + weight dec * (byteOp false dec y x c).2.c.toNat =
      value dec y + value dec x + c.toNat := by
  cases dec with
  | false =>
    refine ⟨nofun, ?_⟩
    have h1 := y.isLt
    have h2 := x.isLt
    have h3 := Bool.toNat_le c
    show (BitVec.ofNat 8 (y.toNat + x.toNat + c.toNat)).toNat + 256 * (decide (256 ≤ y.toNat + x.toNat + c.toNat)).toNat = _
    rw [BitVec.toNat_ofNat]
    by_cases h : 256 ≤ y.toNat + x.toNat + c.toNat
    · rw [decide_eq_true h, Bool.toNat_true]
      show _ = y.toNat + x.toNat + c.toNat
      omega
    · rw [decide_eq_false h, Bool.toNat_false]
      show _ = y.toNat + x.toNat + c.toNat
      omega
  | true =>
    obtain ⟨ey, ly⟩ := proper_bcd hy
    obtain ⟨ex, lx⟩ := proper_bcd hx
    have h3 := Bool.toNat_le c
    have key := bcd_table.1 ⟨value true y, ly⟩ ⟨value true x, lx⟩ c
    simp only at key
    rw [← ey, ← ex] at key
    obtain ⟨k1, k2⟩ := key
    have hw : weight true = 100 := rfl
    have e1 : (byteOp false true y x c).1 = bcd ((value true y + value true x + c.toNat) % 100) := k1
    have e2 : (byteOp false true y x c).2.c = decide (100 ≤ value true y + value true x + c.toNat) := k2
    obtain ⟨b1, b2⟩ := bcd_proper (n := (value true y + value true x + c.toNat) % 100) (Nat.mod_lt _ (by decide))
    rw [e1, e2, hw]
    refine ⟨b1, ?_⟩
    rw [b2]
    by_cases h : 100 ≤ value true y + value true x + c.toNat
    · rw [decide_eq_true h, Bool.toNat_true]
      omega
    · rw [decide_eq_false h, Bool.toNat_false]
      omega

theorem byte_diff (dec : Bool) {y x : U8} (c : Bool) (hy : Proper dec y) (hx : Proper dec x) :
    Proper dec (byteOp true dec y x c).1 ∧
    value dec (byteOp true dec y x c).1 + (value dec x + c.toNat) =
      value dec y + weight dec * (byteOp true dec y x c).2.c.toNat := by
  cases dec with
  | false =>
    refine ⟨nofun, ?_⟩
    have h1 := y.isLt
    have h2 := x.isLt
    have h3 := Bool.toNat_le c
    show (BitVec.ofInt 8 ((y.toNat : Int) - x.toNat - c.toNat)).toNat + (x.toNat + c.toNat) =
      y.toNat + 256 * (decide (y.toNat < x.toNat + c.toNat)).toNat
    rw [BitVec.toNat_ofInt]
    by_cases h : y.toNat < x.toNat + c.toNat
    · rw [decide_eq_true h, Bool.toNat_true]
      omega
    · rw [decide_eq_false h, Bool.toNat_false]
      omega
  | true =>
    obtain ⟨ey, ly⟩ := proper_bcd hy
    obtain ⟨ex, lx⟩ := proper_bcd hx
    have h3 := Bool.toNat_le c
    have key := bcd_table.2 ⟨value true y, ly⟩ ⟨value true x, lx⟩ c
    simp only at key
    rw [← ey, ← ex] at key
    obtain ⟨k1, k2⟩ := key
    have hw : weight true = 100 := rfl
    have e1 : (byteOp true true y x c).1 = bcd ((100 + value true y - value true x - c.toNat) % 100) := k1
    have e2 : (byteOp true true y x c).2.c = decide (value true y < value true x + c.toNat) := k2
    obtain ⟨b1, b2⟩ := bcd_proper (n := (100 + value true y - value true x - c.toNat) % 100) (Nat.mod_lt _ (by decide))
    rw [e1, e2, hw]
    refine ⟨b1, ?_⟩
    rw [b2]
    by_cases h : value true y < value true x + c.toNat
    · rw [decide_eq_true h, Bool.toNat_true]
      omega
    · rw [decide_eq_false h, Bool.toNat_false]
      omega

/-! ### One round -/

theorem code_put {m : U16 → U8} {a : U16} {x : U8} : ∀ {l : List U8} {p : U16}, Code m p l →
    (∀ j, j < l.length → a ≠ p + BitVec.ofNat 16 j) → Code (put m a x) p l
  | [], _, _, _ => trivial
  | y :: l, p, h, g => by
    refine ⟨?_, code_put h.2 fun j hj e => ?_⟩
    · rw [put_other _ _ (fun e => g 0 (Nat.zero_lt_succ _) (by rw [← e]; exact (BitVec.add_zero _).symm))]
      exact h.1
    · refine g (j + 1) (Nat.succ_lt_succ hj) (e.trans ?_)
      rw [Nat.add_comm j 1, BitVec.ofNat_add, ← BitVec.add_assoc]
      rfl

/-- One round, with the operation on the byte. -/
structure WideRound (sub dec : Bool) (p : U16) (c d : Core) : Prop where
  mem : d.mem = put c.mem (word c.d c.e) (byteOp sub dec (c.mem (word c.d c.e)) (c.mem (word c.h c.l)) c.f.c).1
  fl : d.f = (byteOp sub dec (c.mem (word c.d c.e)) (c.mem (word c.h c.l)) c.f.c).2
  cnt : d.b = c.b - 1
  hl : word d.h d.l = word c.h c.l + 1
  de : word d.d d.e = word c.d c.e + 1
  rest : d.sp = c.sp ∧ d.c = c.c
  go : c.b - 1 ≠ 0 ∧ d.pc = p ∧ d.t = c.t + roundTime dec ∨
    c.b - 1 = 0 ∧ d.pc = p + BitVec.ofNat 16 (if dec then 8 else 7) ∧ d.t + 5 = c.t + roundTime dec

/-- The end of a round: storing the byte, and so on. -/
theorem wideEnd {c : Core} {q : U16} {x : U8} (hm : Code c.mem c.pc [0x12, 0x23, 0x13, 0x10, x, 0x76])
    (hs : ∀ j, j < 6 → word c.d c.e ≠ c.pc + BitVec.ofNat 16 j) (hq : c.pc + 1 + 1 + 1 + 1 + 1 + disp x = q) :
    ∃ g : Core, Run o v c g ∧ g.mem = put c.mem (word c.d c.e) c.a ∧ g.f = c.f ∧ g.b = c.b - 1 ∧
      word g.h g.l = word c.h c.l + 1 ∧ word g.d g.e = word c.d c.e + 1 ∧ (g.sp = c.sp ∧ g.c = c.c) ∧
      (c.b - 1 ≠ 0 ∧ g.pc = q ∧ g.t = c.t + 32 ∨ c.b - 1 = 0 ∧ g.pc = c.pc + 1 + 1 + 1 + 1 + 1 ∧ g.t = c.t + 27) := by
  obtain ⟨a, f, b, c, d, e, h, l, a', f', b', c', d', e', h', l', sp, pc, m, t⟩ := c
  have hm' := code_put (x := a) hm hs
  simp only at hm hm' hq ⊢
  by_cases hb : b - 1 ≠ 0
  · refine ⟨?_, ?_, ?_⟩
    rotate_left
    · refine .step (ldDeA _ hm.1) ?_
      dsimp only
      refine .step (incHl _ hm'.2.1) ?_
      dsimp only
      refine .step (incDe _ hm'.2.2.1) ?_
      dsimp only
      refine .step (djnz _ q x hm'.2.2.2.1 hm'.2.2.2.2.1 hq hb) ?_
      dsimp only
      exact .refl _
    · exact ⟨rfl, rfl, rfl, word_hi8_lo8 _, word_hi8_lo8 _, ⟨rfl, rfl⟩, .inl ⟨hb, rfl, rfl⟩⟩
  · refine ⟨?_, ?_, ?_⟩
    rotate_left
    · refine .step (ldDeA _ hm.1) ?_
      dsimp only
      refine .step (incHl _ hm'.2.1) ?_
      dsimp only
      refine .step (incDe _ hm'.2.2.1) ?_
      dsimp only
      refine .step (djnzNot _ hm'.2.2.2.1 hb) ?_
      dsimp only
      exact .refl _
    · exact ⟨rfl, rfl, rfl, word_hi8_lo8 _, word_hi8_lo8 _, ⟨rfl, rfl⟩, .inr ⟨Classical.not_not.1 hb, rfl, rfl⟩⟩

/-- The start of a round: the operation. -/
theorem wideStart (sub dec : Bool) {c : Core} (hm : Code c.mem c.pc (routine sub dec)) :
    ∃ g : Core, Run o v c g ∧ g.mem = c.mem ∧
      g.a = (byteOp sub dec (c.mem (word c.d c.e)) (c.mem (word c.h c.l)) c.f.c).1 ∧
      g.f = (byteOp sub dec (c.mem (word c.d c.e)) (c.mem (word c.h c.l)) c.f.c).2 ∧ g.b = c.b ∧ g.c = c.c ∧
      g.d = c.d ∧ g.e = c.e ∧ g.h = c.h ∧ g.l = c.l ∧ g.sp = c.sp ∧
      g.pc = (if dec then c.pc + 1 + 1 + 1 else c.pc + 1 + 1) ∧ g.t = c.t + 14 + if dec then 4 else 0 := by
  cases sub <;> cases dec
  · exact ⟨_, .step (ldADe _ hm.1) (.step (adcAM _ hm.2.1) (.refl _)),
      rfl, rfl, rfl, rfl, rfl, rfl, rfl, rfl, rfl, rfl, rfl, rfl⟩
  · exact ⟨_, .step (ldADe _ hm.1) (.step (adcAM _ hm.2.1) (.step (daa _ hm.2.2.1) (.refl _))),
      rfl, rfl, rfl, rfl, rfl, rfl, rfl, rfl, rfl, rfl, rfl, rfl⟩
  · exact ⟨_, .step (ldADe _ hm.1) (.step (sbcAM _ hm.2.1) (.refl _)),
      rfl, rfl, rfl, rfl, rfl, rfl, rfl, rfl, rfl, rfl, rfl, rfl⟩
  · exact ⟨_, .step (ldADe _ hm.1) (.step (sbcAM _ hm.2.1) (.step (daa _ hm.2.2.1) (.refl _))),
      rfl, rfl, rfl, rfl, rfl, rfl, rfl, rfl, rfl, rfl, rfl, rfl⟩

theorem wideRound (sub dec : Bool) {c : Core} (hm : Code c.mem c.pc (routine sub dec))
    (hs : ∀ j, j < (routine sub dec).length → word c.d c.e ≠ c.pc + BitVec.ofNat 16 j) :
    ∃ d : Core, Run o v c d ∧ WideRound sub dec c.pc c d := by
  obtain ⟨g, r, gm, ga, gf, gb, gc, gd, ge, gh, gl, gs, gp, gt⟩ := wideStart (o := o) (v := v) sub dec hm
  have wde : word g.d g.e = word c.d c.e := by rw [gd, ge]
  have whl : word g.h g.l = word c.h c.l := by rw [gh, gl]
  cases dec with
  | false =>
    have gp : g.pc = c.pc + 1 + 1 := gp
    have gt : g.t = c.t + 14 := gt
    have hl : (routine sub false).length = 8 := rfl
    have hd : disp 0xF9 = 0xFFF9#16 := by decide
    obtain ⟨z, r2, zm, zf, zb, zh, zd, zr, zg⟩ := wideEnd (o := o) (v := v) (c := g) (q := c.pc) (x := 0xF9)
      (by rw [gm, gp]; exact hm.2.2)
      (by
        intro j hj
        rw [wde, gp]
        intro e
        refine hs (j + 2) (by omega) (e.trans ?_)
        rw [Nat.add_comm j 2, BitVec.ofNat_add, ← BitVec.add_assoc, BitVec.add_assoc c.pc 1 1]
        rfl)
      (by rw [gp, hd]; bv_omega)
    rw [wde] at zm zd
    rw [whl] at zh
    refine ⟨z, r.trans r2, ⟨?_, zf.trans gf, by rw [zb, gb], zh, zd, ⟨zr.1.trans gs, zr.2.trans gc⟩, ?_⟩⟩
    · rw [zm, gm, ga]
    · rw [gb, gp, gt] at zg
      rcases zg with ⟨h, p, t⟩ | ⟨h, p, t⟩
      · exact .inl ⟨h, p, by rw [t]; rfl⟩
      · refine .inr ⟨h, ?_, by rw [t]; rfl⟩
        rw [p]
        simp only [Bool.false_eq_true, if_false]
        bv_omega
  | true =>
    have gp : g.pc = c.pc + 1 + 1 + 1 := gp
    have gt : g.t = c.t + 18 := gt
    have hl : (routine sub true).length = 9 := rfl
    have hd : disp 0xF8 = 0xFFF8#16 := by decide
    obtain ⟨z, r2, zm, zf, zb, zh, zd, zr, zg⟩ := wideEnd (o := o) (v := v) (c := g) (q := c.pc) (x := 0xF8)
      (by rw [gm, gp]; exact hm.2.2.2)
      (by
        intro j hj
        rw [wde, gp]
        intro e
        refine hs (j + 3) (by omega) (e.trans ?_)
        rw [Nat.add_comm j 3, BitVec.ofNat_add, ← BitVec.add_assoc, BitVec.add_assoc c.pc 1 1,
          BitVec.add_assoc c.pc _ 1]
        rfl)
      (by rw [gp, hd]; bv_omega)
    rw [wde] at zm zd
    rw [whl] at zh
    refine ⟨z, r.trans r2, ⟨?_, zf.trans gf, by rw [zb, gb], zh, zd, ⟨zr.1.trans gs, zr.2.trans gc⟩, ?_⟩⟩
    · rw [zm, gm, ga]
    · rw [gb, gp, gt] at zg
      rcases zg with ⟨h, p, t⟩ | ⟨h, p, t⟩
      · exact .inl ⟨h, p, by rw [t]; rfl⟩
      · refine .inr ⟨h, ?_, by rw [t]; rfl⟩
        rw [p]
        simp only [if_true]
        bv_omega

/-! ### All rounds -/

/-- The sum, or the difference, of the numbers with what is carried. -/
def WideRight (sub : Bool) (W r y x : Nat) (c c' : Bool) : Prop :=
  if sub then r + (x + c.toNat) = y + W * c'.toNat else r + W * c'.toNat = y + x + c.toNat

theorem number_congr {dec : Bool} {m m' : U16 → U8} : ∀ {n : Nat} {p : U16},
    (∀ i, i < n → m' (p + BitVec.ofNat 16 i) = m (p + BitVec.ofNat 16 i)) → number dec m' p n = number dec m p n
  | 0, _, _ => rfl
  | n + 1, p, h => by
    have h0 := h 0 (Nat.zero_lt_succ _)
    rw [show p + BitVec.ofNat 16 0 = p from BitVec.add_zero p] at h0
    show value dec (m' p) + _ * _ = value dec (m p) + _ * _
    rw [h0, number_congr (n := n) (p := p + 1)]
    intro i hi
    have := h (i + 1) (Nat.succ_lt_succ hi)
    rw [Nat.add_comm i 1, BitVec.ofNat_add, ← BitVec.add_assoc] at this
    exact this

theorem off_succ (p : U16) (i : Nat) : p + 1 + BitVec.ofNat 16 i = p + BitVec.ofNat 16 (i + 1) := by
  rw [Nat.add_comm i 1, BitVec.ofNat_add, ← BitVec.add_assoc]
  rfl

theorem off_ne (p : U16) {i j : Nat} (h : i ≠ j) (hi : i < 65536) (hj : j < 65536) :
    p + BitVec.ofNat 16 i ≠ p + BitVec.ofNat 16 j := by
  intro e
  have := congrArg BitVec.toNat e
  simp only [BitVec.toNat_add, BitVec.toNat_ofNat] at this
  have := p.isLt
  omega

theorem wide_cons (sub : Bool) {V W r y x rs ys xs : Nat} {c c1 c2 : Bool} (h : WideRight sub V r y x c c1)
    (g : WideRight sub W rs ys xs c1 c2) : WideRight sub (V * W) (r + V * rs) (y + V * ys) (x + V * xs) c c2 := by
  unfold WideRight at *
  cases sub with
  | false =>
    simp only [Bool.false_eq_true, if_false] at *
    calc r + V * rs + V * W * c2.toNat = r + V * (rs + W * c2.toNat) := by rw [Nat.mul_add, ← Nat.mul_assoc]; omega
      _ = r + V * c1.toNat + V * ys + V * xs := by rw [g, Nat.mul_add, Nat.mul_add]; omega
      _ = _ := by rw [h]; omega
  | true =>
    simp only [if_true] at *
    have g' := congrArg (V * ·) g
    simp only [Nat.mul_add] at g'
    rw [Nat.mul_assoc]
    omega

theorem wide_byte (sub dec : Bool) {y x : U8} (c : Bool) (hy : Proper dec y) (hx : Proper dec x) :
    Proper dec (byteOp sub dec y x c).1 ∧
    WideRight sub (weight dec) (value dec (byteOp sub dec y x c).1) (value dec y) (value dec x) c (byteOp sub dec y x c).2.c := by
  cases sub with
  | false => exact byte_sum dec c hy hx
  | true => exact byte_diff dec c hy hx

theorem wideLoop (sub dec : Bool) (p : U16) (n : Nat) : ∀ {c : Core}, n < 256 → Code c.mem p (routine sub dec) → c.pc = p →
    passes c.b = n + 1 → Apart p (word c.h c.l) (word c.d c.e) (routine sub dec).length (n + 1) →
    ProperAt dec c.mem (word c.h c.l) (n + 1) → ProperAt dec c.mem (word c.d c.e) (n + 1) →
    ∃ d : Core, Run o v c d ∧ Code d.mem p (routine sub dec) ∧ d.pc = p + BitVec.ofNat 16 (if dec then 8 else 7) ∧
      d.b = 0 ∧ d.c = c.c ∧ d.sp = c.sp ∧
      word d.h d.l = word c.h c.l + BitVec.ofNat 16 (n + 1) ∧ word d.d d.e = word c.d c.e + BitVec.ofNat 16 (n + 1) ∧
      (∀ a, (∀ i, i < n + 1 → a ≠ word c.d c.e + BitVec.ofNat 16 i) → d.mem a = c.mem a) ∧
      ProperAt dec d.mem (word c.d c.e) (n + 1) ∧
      WideRight sub (weight dec ^ (n + 1)) (number dec d.mem (word c.d c.e) (n + 1)) (number dec c.mem (word c.d c.e) (n + 1))
        (number dec c.mem (word c.h c.l) (n + 1)) c.f.c d.f.c ∧
      d.t + 5 = c.t + roundTime dec * (n + 1) := by
  induction n with
  | zero =>
    intro c hn hm hp hb ha hx hy
    obtain ⟨d, r, z⟩ := wideRound (o := o) (v := v) sub dec (c := c) (by rw [hp]; exact hm) (by
      intro j hj
      have := ha.1 0 j (Nat.zero_lt_succ _) hj
      rw [hp]
      rwa [show word c.d c.e + BitVec.ofNat 16 0 = _ from BitVec.add_zero _] at this)
    have hz : c.b - 1 = 0 := by
      unfold passes at hb
      split at hb
      · omega
      · bv_omega
    have z0 : ∀ a : U16, a + BitVec.ofNat 16 0 = a := BitVec.add_zero
    have px := hx 0 (Nat.zero_lt_succ _)
    have py := hy 0 (Nat.zero_lt_succ _)
    rw [z0] at px py
    obtain ⟨q1, q2⟩ := wide_byte sub dec c.f.c py px
    rcases z.go with ⟨h, _⟩ | ⟨_, gp, gt⟩
    · exact absurd hz h
    refine ⟨d, r, ?_, by rw [gp, hp], z.cnt.trans hz, z.rest.2, z.rest.1, z.hl, z.de, ?_, ?_, ?_, by rw [Nat.mul_one]; exact gt⟩
    · rw [z.mem]
      refine code_put hm fun j hj => ?_
      have := ha.1 0 j (Nat.zero_lt_succ _) hj
      rwa [z0] at this
    · intro a h
      rw [z.mem, put_other _ _ (by have := h 0 (Nat.zero_lt_succ _); rwa [z0] at this)]
    · intro i hi
      obtain rfl : i = 0 := by omega
      rw [z0, z.mem, put_same]
      exact q1
    · show WideRight sub _ (value dec (d.mem _) + _) (value dec (c.mem _) + _) (value dec (c.mem _) + _) _ _
      rw [Nat.pow_one, z.fl, z.mem, put_same]
      exact q2
  | succ n ih =>
    intro c hn hm hp hb ha hx hy
    have z0 : ∀ a : U16, a + BitVec.ofNat 16 0 = a := BitVec.add_zero
    have h0 := fun j hj => ha.1 0 j (Nat.zero_lt_succ _) hj
    rw [z0] at h0
    obtain ⟨d, r, z⟩ := wideRound (o := o) (v := v) sub dec (c := c) (by rw [hp]; exact hm) (by
      rw [hp]; exact h0)
    have hz : passes (c.b - 1) = n + 1 ∧ c.b - 1 ≠ 0 := by
      unfold passes at hb ⊢
      have := c.b.isLt
      split at hb
      · rename_i h
        rw [h]
        refine ⟨?_, by decide⟩
        rw [if_neg (by decide)]
        have : ((0 : U8) - 1).toNat = 255 := by decide
        omega
      · have h1 : c.b - 1 ≠ 0 := by bv_omega
        rw [if_neg h1]
        exact ⟨by bv_omega, h1⟩
    have px := hx 0 (Nat.zero_lt_succ _)
    have py := hy 0 (Nat.zero_lt_succ _)
    rw [z0] at px py
    obtain ⟨q1, q2⟩ := wide_byte sub dec c.f.c py px
    rcases z.go.symm with ⟨h, _⟩ | ⟨_, gp, gt⟩
    · exact absurd h hz.2
    have keepX : ∀ i, i < n + 1 → d.mem (word c.h c.l + 1 + BitVec.ofNat 16 i) = c.mem (word c.h c.l + 1 + BitVec.ofNat 16 i) := by
      intro i hi
      have := ha.2 0 (i + 1) (by omega) (by omega)
      rw [z0] at this
      rw [z.mem, put_other _ _ (by rw [off_succ]; exact this.symm)]
    have keepY : ∀ i, i < n + 1 → d.mem (word c.d c.e + 1 + BitVec.ofNat 16 i) = c.mem (word c.d c.e + 1 + BitVec.ofNat 16 i) := by
      intro i hi
      have := off_ne (word c.d c.e) (i := 0) (j := i + 1) (by omega) (by omega) (by omega)
      rw [z0] at this
      rw [z.mem, put_other _ _ (by rw [off_succ]; exact this.symm)]
    obtain ⟨g, r2, gm, gpc, gb, gc, gs, gh, gd, gk, gv, gr, gt2⟩ := ih (c := d) (by omega)
      (by rw [z.mem]; exact code_put hm h0) (gp.trans hp) (by rw [z.cnt]; exact hz.1)
      (by
        rw [z.hl, z.de]
        refine ⟨fun i j hi hj => ?_, fun i j hij hj => ?_⟩
        · rw [off_succ]; exact ha.1 (i + 1) j (by omega) hj
        · rw [off_succ, off_succ]; exact ha.2 (i + 1) (j + 1) (by omega) (by omega))
      (by
        rw [z.hl]
        intro i hi
        rw [keepX i hi, off_succ]
        exact hx (i + 1) (by omega))
      (by
        rw [z.de]
        intro i hi
        rw [keepY i hi, off_succ]
        exact hy (i + 1) (by omega))
    rw [z.hl] at gh gr
    rw [z.de] at gd gk gv gr
    have low : g.mem (word c.d c.e) = (byteOp sub dec (c.mem (word c.d c.e)) (c.mem (word c.h c.l)) c.f.c).1 := by
      rw [gk, z.mem, put_same]
      intro i hi
      have := off_ne (word c.d c.e) (i := 0) (j := i + 1) (by omega) (by omega) (by omega)
      rw [z0] at this
      rw [off_succ]
      exact this
    refine ⟨g, r.trans r2, gm, gpc, gb, gc.trans z.rest.2, gs.trans z.rest.1, by rw [gh, off_succ], by rw [gd, off_succ],
      ?_, ?_, ?_, ?_⟩
    · intro a h
      rw [gk, z.mem, put_other _ _ (by have := h 0 (Nat.zero_lt_succ _); rwa [z0] at this)]
      intro i hi
      rw [off_succ]
      exact h (i + 1) (by omega)
    · intro i hi
      cases i with
      | zero => rw [z0, low]; exact q1
      | succ i => rw [← off_succ]; exact gv i (by omega)
    · rw [number_congr keepX, number_congr keepY, z.fl] at gr
      have := wide_cons sub q2 gr
      rw [← low] at this
      rw [Nat.pow_succ, Nat.mul_comm]
      exact this
    · rw [Nat.mul_succ]
      omega

end Z80.Routine
