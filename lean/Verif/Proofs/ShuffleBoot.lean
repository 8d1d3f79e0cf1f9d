import Verif.Proofs.Routine
import Verif.Props.Block

/-!
# Starting a routine of the test program and waiting for the end

The code at address 0 calls the routine and halts (`/repo/tests/shuffle/shuffle.bin` 0-13).
-/

set_option linter.unusedVariables false

namespace Z80.Routine
open Spec Spec.Shuffle
variable {w : Nat} {O R I : Type} {o : Opt} {v : Env w O R I}

/-- From reset to the routine. -/
theorem boot {c : Core} {a : U16} (hm : Loaded c.mem) (hp : c.pc = 0) (ha : Starts c.mem a) :
    ∃ d : Core, Run o v c d ∧ d.pc = a ∧ d.sp = 0x5E0 ∧ d.mem = push c.mem 0x5E2 13 ∧ d.t = c.t + 61 := by
  obtain ⟨aa, f, b, c, d, e, h, l, a', f', b', c', d', e', h', l', sp, pc, m, t⟩ := c
  simp only at hm hp ha ⊢
  subst hp
  refine ⟨?_, ?_, ?_⟩
  rotate_left
  · exec di hm
    exec ldHlNN hm arg16 0x5E2
    exec ldSpHl hm
    exec jp hm arg16 0x09
    exec ldHlMem hm arg16 0x3CC
    exec rst8 hm
    have hm1 := loaded_push hm (sp := 0x5E2) (13#16) (by decide)
    exec jpHl hm1
    exact .refl _
  · exact ⟨ha, rfl, rfl, rfl⟩

/-- A step that halts. -/
def Halts (o : Opt) (v : Env w O R I) (c : Core) : Prop :=
  ∀ x i t, ∃ y, step o v (c.mach x i t) =
    (⟨{ c.regs y with halted := true }, c.mem, i, t + BitVec.ofNat w (c.t + 4)⟩, .halt)

theorem halts_at {c : Core} (hc : c.mem c.pc = 0x76) : Halts o v c := by
  intro x i τ
  have key : ∀ (x : Rest) (i : I) (τ : BitVec w), ∃ y : Rest, execOp o v 0x76 (fetch ⟨c.regs x, c.mem, i, τ⟩) =
      (⟨{ Core.regs { c with pc := c.pc + 1 - 1 } y with halted := true }, c.mem, i,
        τ + BitVec.ofNat w 4 + BitVec.ofNat w 0⟩, .halt) :=
    fun x i τ => ⟨⟨_, _, _, _, _, _, _, _, _, _, _⟩, rfl⟩
  obtain ⟨y, key⟩ := key x i (τ + BitVec.ofNat w c.t)
  refine ⟨y, ?_⟩
  have e : step o v (c.mach x i τ) = execOp o v (c.mem c.pc) (fetch (c.mach x i τ)) := rfl
  rw [e, hc, BitVec.ofNat_add, ← BitVec.add_assoc]
  rw [BitVec.add_sub_cancel] at key
  refine key.trans ?_
  simp only [BitVec.ofNat_eq_ofNat, BitVec.add_zero]

theorem halts {c : Core} (hm : Loaded c.mem) (hp : c.pc = 13) : Halts o v c :=
  halts_at (by rw [hp]; exact hm.at_code _ _ (by decide +kernel))

/-- The registers the routines use. -/
def coreOf (r : Regs) (m : U16 → U8) : Core :=
  ⟨r.a, r.f, r.b, r.c, r.d, r.e, r.h, r.l, r.a', r.f', r.b', r.c', r.d', r.e', r.h', r.l', r.sp, r.pc, m, 0⟩
/-- The others. -/
def restOf (r : Regs) : Rest :=
  ⟨r.ixh, r.ixl, r.iyh, r.iyl, r.wz, r.i, r.r, r.iff2, r.im, r.ei, r.q⟩

theorem coreOf_mach (r : Regs) (m : U16 → U8) (i : I) (t : BitVec w) (h1 : r.iff1 = false) (h2 : r.halted = false)
    (h3 : r.idx = .hl) : (⟨r, m, i, t⟩ : Mach w I) = (coreOf r m).mach (restOf r) i t := by
  cases r
  simp only at h1 h2 h3
  subst h1 h2 h3
  simp only [Core.mach, coreOf, restOf, Core.regs, BitVec.add_zero]

/-! ### The loop of the test -/

variable {Q : Type} [FlavourSpec Q]

/-- `execute_next` called until it reports something (`run_debug` of `/repo/tests/shuffle_test.rs` 197-291, whose
loop ends with `Err(BreakCause::Halt)` and panics for any other cause), at most `n` times. -/
def untilStop (io : Handler (tsSig w O R) I) (deb : Bool) : Nat → Cpu Q → BitVec w × Mem × I →
    Option (Res (tsSig w O R) × Cpu Q × (BitVec w × Mem × I))
  | 0, _, _ => none
  | n + 1, c, h =>
    let r := (executeNext deb c).run (ramHost io) h
    match r.1.1 with
    | .ok => untilStop io deb n r.1.2 r.2
    | e => some (e, r.1.2, r.2)

theorem untilStop_runs (io : Handler (tsSig w O R) I) (deb : Bool) {a b : Core}
    (h : Run (FlavourSpec.opt Q) (envOf io) a b) : ∀ {c : Cpu Q} {t : BitVec w} {m : Mem} {i : I} {x : Rest}
    {u : BitVec w}, (⟨abs c, m, i, t⟩ : Mach w I) = a.mach x i u → ∃ k c' t' y,
      (∀ n, untilStop io deb (k + n) c (t, m, i) = untilStop io deb n c' (t', b.mem, i)) ∧
      (⟨abs c', b.mem, i, t'⟩ : Mach w I) = b.mach y i u := by
  induction h with
  | refl a =>
    intro c t m i x u e
    have hm : m = a.mem := congrArg Mach.mem e
    subst hm
    exact ⟨0, c, t, x, fun n => by rw [Nat.zero_add], e⟩
  | @step a b d s _ ih =>
    intro c t m i x u e
    obtain ⟨y, hs⟩ := s x i u
    have h := C44_execute_next io deb c t m i
    rw [e, hs] at h
    obtain ⟨h1, h2⟩ := h
    generalize hr : (executeNext deb c).run (ramHost io) (t, m, i) = r at h1 h2
    obtain ⟨⟨res, c1⟩, t1, m1, i1⟩ := r
    simp only at h1 h2
    have hi : i1 = i := congrArg Mach.io h1
    subst hi
    obtain ⟨k, c', t', z, g1, g2⟩ := ih h1
    refine ⟨k + 1, c', t', z, ?_, g2⟩
    have hres : res = .ok := by
      cases res with
      | ok => rfl
      | _ => cases h2
    subst hres
    intro n
    rw [← g1, show k + 1 + n = (k + n) + 1 by omega]
    simp only [untilStop]
    rw [hr]
  | @pair a b d s _ ih =>
    intro c t m i x u e
    obtain ⟨mm, y, hs, _, hio, hs2⟩ := s x i u
    have h := C44_execute_next io deb c t m i
    rw [e, hs] at h
    obtain ⟨h1, h2⟩ := h
    generalize hr : (executeNext deb c).run (ramHost io) (t, m, i) = r at h1 h2
    obtain ⟨⟨res, c1⟩, t1, m1, i1⟩ := r
    simp only at h1 h2
    have hres : res = .ok := by
      cases res with
      | ok => rfl
      | _ => cases h2
    subst hres
    have h' := C44_execute_next io deb c1 t1 m1 i1
    rw [h1, hs2] at h'
    obtain ⟨h3, h4⟩ := h'
    generalize hr' : (executeNext deb c1).run (ramHost io) (t1, m1, i1) = r at h3 h4
    obtain ⟨⟨res, c2⟩, t2, m2, i2⟩ := r
    simp only at h3 h4
    have hres : res = .ok := by
      cases res with
      | ok => rfl
      | _ => cases h4
    subst hres
    have hi : i2 = i := congrArg Mach.io h3
    subst hi
    obtain ⟨k, c', t', z, g1, g2⟩ := ih h3
    refine ⟨k + 2, c', t', z, ?_, g2⟩
    intro n
    rw [← g1, show k + 2 + n = (k + n) + 1 + 1 by omega]
    simp only [untilStop]
    rw [hr]
    simp only
    rw [hr']

theorem untilStop_run (io : Handler (tsSig w O R) I) (deb : Bool) {a b : Core}
    (h : Run (FlavourSpec.opt Q) (envOf io) a b) {c : Cpu Q} {t : BitVec w} {m : Mem} {i : I} {x : Rest}
    {u : BitVec w} (e : (⟨abs c, m, i, t⟩ : Mach w I) = a.mach x i u) (n : Nat) : ∃ k c' t' y,
      untilStop io deb (k + n) c (t, m, i) = untilStop io deb n c' (t', b.mem, i) ∧
      (⟨abs c', b.mem, i, t'⟩ : Mach w I) = b.mach y i u := by
  obtain ⟨k, c', t', y, g1, g2⟩ := untilStop_runs io deb h e
  exact ⟨k, c', t', y, g1 n, g2⟩

theorem untilStop_halt (io : Handler (tsSig w O R) I) (deb : Bool) {a : Core}
    (h : Halts (FlavourSpec.opt Q) (envOf io) a) {c : Cpu Q} {t : BitVec w} {m : Mem} {i : I} {x : Rest} {u : BitVec w}
    (e : (⟨abs c, m, i, t⟩ : Mach w I) = a.mach x i u) : ∃ c' y,
      untilStop io deb 1 c (t, m, i) = some (.halt, c', u + BitVec.ofNat w (a.t + 4), a.mem, i) ∧
      abs c' = { a.regs y with halted := true } := by
  obtain ⟨y, hs⟩ := h x i u
  have h := C44_execute_next io deb c t m i
  rw [e, hs] at h
  obtain ⟨h1, h2⟩ := h
  generalize hr : (executeNext deb c).run (ramHost io) (t, m, i) = r at h1 h2
  obtain ⟨⟨res, c1⟩, t1, m1, i1⟩ := r
  simp only at h1 h2
  have hres : res = .halt := by
    cases res with
    | halt => rfl
    | _ => cases h2
  subst hres
  refine ⟨c1, y, ?_, congrArg Mach.r h1⟩
  have e1 : t1 = _ := congrArg Mach.t h1
  have e2 : m1 = _ := congrArg Mach.mem h1
  have e3 : i1 = _ := congrArg Mach.io h1
  simp only at e1 e2 e3
  subst e1 e2 e3
  simp only [untilStop]
  rw [hr]

/-- The program from reset to the end. -/
theorem whole (io : Handler (tsSig w O R) I) (deb : Bool) {a : U16} {P : Core → Core → Prop}
    (hr : ∀ c : Core, Loaded c.mem → c.pc = a → c.sp = 0x5E0 → ∃ d : Core, Run (FlavourSpec.opt Q) (envOf io) c d ∧
      d.pc = word (c.mem 0x5E1) (c.mem 0x5E0) ∧ Loaded d.mem ∧ P c d)
    (c : Cpu Q) (t : BitVec w) (m : Mem) (i : I) (hm : Loaded m) (ha : Starts m a) :
    ∃ n c' b d y, untilStop io deb n c.reset (t, m, i) = some (.halt, c', t + BitVec.ofNat w (d.t + 4), d.mem, i) ∧
      abs c' = { d.regs y with halted := true } ∧ b.mem = push m 0x5E2 13 ∧ b.t = 61 ∧ P b d := by
  have e := coreOf_mach (abs c.reset) m i t rfl rfl rfl
  obtain ⟨b, r1, bp, bs, bm, bt⟩ := boot (o := FlavourSpec.opt Q) (v := envOf io) (c := coreOf (abs c.reset) m)
    hm rfl ha
  have hb : Loaded b.mem := by rw [bm]; exact loaded_push hm _ (by decide)
  obtain ⟨d, r2, dp, dl, hP⟩ := hr b hb bp bs
  have dp' : d.pc = 13 := by
    rw [dp, bm, push_eq]
    have h1 : put (put m (0x5E2 - 1) (hi8 13)) (0x5E2 - 2) (lo8 13) 0x5E1 = hi8 13 :=
      (put_other _ _ (by decide)).trans (put_same _ _ _)
    have h2 : put (put m (0x5E2 - 1) (hi8 13)) (0x5E2 - 2) (lo8 13) 0x5E0 = lo8 13 := put_same _ _ _
    exact (congr (congrArg word h1) h2).trans (word_hi8_lo8 _)
  obtain ⟨k, c1, t1, y, g1, g2⟩ := untilStop_run io deb (r1.trans r2) e 1
  obtain ⟨c2, z, g3, g4⟩ := untilStop_halt io deb (halts dl dp') g2
  refine ⟨k + 1, c2, b, d, z, g1.trans g3, g4, bm, by rw [bt]; rfl, hP⟩

end Z80.Routine
