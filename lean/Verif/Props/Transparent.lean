import Verif.Proofs.Like
import Verif.Props.Transfer
import Verif.Props.Write
import Verif.Props.Block

/-!
# C52: interrupts are transparent

A program is interrupted any number of times, and comes back with its registers and its memory as they
were. It then goes on, for the rest of its execution, as if it had not been interrupted. R, MEMPTR, the interrupt
flip-flops and the flag history may be different after the interrupt; the program does not execute the few
instructions that look at them (`Blind`).
-/

set_option linter.constructorNameAsVariable false

namespace Z80
open Spec

variable {Q : Type} [FlavourSpec Q] {σ : Sig} {S : Type}

/-- Everything the getters show is the same, apart from R, MEMPTR and the interrupt flip-flops. -/
def Obs.Like (o p : Obs) : Prop := p = { o with r := p.r, memptr := p.memptr, iffs := p.iffs }

/-- A step of a program: no interrupt is accepted, it asks the host only for what is in `A`, and it is not one of the
instructions that look at R, MEMPTR, the interrupt flip-flops or the flag history. -/
def Quiet (h : Handler σ S) (A : Req σ → Prop) (deb : Bool) (c : Cpu Q) (s : S) : Prop :=
  let t := (executeNext deb c).trace h s
  Spec.ackOf t = [] ∧ (∀ e ∈ t, A e.req) ∧ Blind (opcodesOf t)

/-- Steps of a program that is not interrupted, with their results, the last one first. -/
inductive Program (h : Handler σ S) (A : Req σ → Prop) : List (Res σ) → Cpu Q × S → Cpu Q × S → Prop
  | start (x) : Program h A [] x x
  | step {l x c s} (deb) : Program h A l x (c, s) → Quiet h A deb c s →
      Program h A (((executeNext deb c).run h s).1.1 :: l) x
        (((executeNext deb c).run h s).1.2, ((executeNext deb c).run h s).2)

/-- Steps of a program that is interrupted any number of times, with their results, the last one first. What happens
between the interrupt and the return is left open: the program is resumed with the same registers, apart from R,
MEMPTR and the interrupt flip-flops, and in a state of the host related by `B`. -/
inductive Interrupted (h : Handler σ S) (B : S → S → Prop) : List (Res σ) → Cpu Q × S → Cpu Q × S → Prop
  | start (x) : Interrupted h B [] x x
  | step {l x c s} (deb) : Interrupted h B l x (c, s) → Spec.ackOf ((executeNext deb c).trace h s) = [] →
      Interrupted h B (((executeNext deb c).run h s).1.1 :: l) x
        (((executeNext deb c).run h s).1.2, ((executeNext deb c).run h s).2)
  | away {l x c s d u} : Interrupted h B l x (c, s) → c.obs.Like d.obs → B s u → Interrupted h B l x (d, u)

/-! ### Lemmas -/

theorem shown_like {c d : Cpu Q} : (abs c).Like (abs d) ↔ c.obs.Like d.obs := by
  rw [obs_shown, obs_shown]
  have hi : ∀ {a b : Cpu Q}, imOfNat (abs a).im = imOfNat (abs b).im → (abs a).im = (abs b).im := by
    intro a b
    show imOfNat (imOf a.im) = imOfNat (imOf b.im) → imOf a.im = imOf b.im
    cases a.im <;> cases b.im <;> decide
  have hx : ∀ {x y : Ix}, pfxOfIx x = pfxOfIx y → x = y := by
    intro x y
    cases x <;> cases y <;> decide
  have hf : ∀ {x y : Fl}, x.byte = y.byte → x = y := by
    intro x y h
    rw [← of_byte x, h, of_byte]
  have hi' := @hi d c
  constructor
  · intro h
    unfold Obs.Like
    rw [like_iff.1 h]
    rfl
  · intro h
    unfold Spec.Regs.Like
    generalize abs c = r at h hi' ⊢
    generalize abs d = s at h hi' ⊢
    obtain ⟨⟩ := r
    obtain ⟨⟩ := s
    have e1 := hf (congrArg Obs.f h)
    have e2 := hf (congrArg Obs.f' h)
    have e3 := hx (congrArg Obs.pfx h)
    have e4 := hi' (congrArg Obs.im h)
    cases e1; cases e2; cases e3; cases e4
    cases congrArg Obs.a h; cases congrArg Obs.b h; cases congrArg Obs.c h; cases congrArg Obs.d h
    cases congrArg Obs.e h; cases congrArg Obs.h h; cases congrArg Obs.l h
    cases congrArg Obs.a' h; cases congrArg Obs.b' h; cases congrArg Obs.c' h; cases congrArg Obs.d' h
    cases congrArg Obs.e' h; cases congrArg Obs.h' h; cases congrArg Obs.l' h
    cases congrArg Obs.ixh h; cases congrArg Obs.ixl h; cases congrArg Obs.iyh h; cases congrArg Obs.iyl h
    cases congrArg Obs.pc h; cases congrArg Obs.sp h; cases congrArg Obs.i h
    cases congrArg Obs.halt h; cases congrArg Obs.afterEi h
    rfl

theorem run_erase {α : Type} {h : Handler σ S} (hd : ∀ d s, (h (.debug d) s).2 = s) (p : Prog σ α) (s : S) :
    p.erase.run h s = p.run h s ∧ p.erase.trace h s = (p.trace h s).filter fun e => !e.req.isDebug := by
  induction p generalizing s with
  | ret a => exact ⟨rfl, rfl⟩
  | call r k ih =>
    cases r with
    | debug d =>
      have h1 := ih () s
      refine ⟨h1.1.trans ?_, h1.2.trans ?_⟩
      · show _ = (k ()).run h (h (.debug d) s).2
        rw [hd]
      · show _ = ((k ()).trace h (h (.debug d) s).2).filter _
        rw [hd]
    | _ => exact ⟨(ih _ _).1, congrArg (_ :: ·) (ih _ _).2⟩

theorem run_map {α β : Type} {h : Handler σ S} (p : Prog σ α) (f : α → β) (s : S) :
    (p.map f).run h s = (f (p.run h s).1, (p.run h s).2) ∧ (p.map f).trace h s = p.trace h s := by
  induction p generalizing s with
  | ret a => exact ⟨rfl, rfl⟩
  | call r k ih => exact ⟨(ih _ _).1, congrArg (_ :: ·) (ih _ _).2⟩

theorem outS_eq {x y : Res σ} {o : Out σ.O σ.R} (h : outS x = some o) (h' : outS y = some o) : x = y := by
  cases x <;> cases y <;> cases h <;> cases h' <;> rfl

/-- What `execute_next` does is what the calls of its cycles do. -/
theorem run_next {h : Handler σ S} (hd : ∀ d s, (h (.debug d) s).2 = s) (deb : Bool) (c : Cpu Q) (s : S) :
    let x := (executeNext deb c).run h s
    let y := (stepCycles (FlavourSpec.opt Q) (abs c)).calls.run h s
    abs x.1.2 = y.1.1 ∧ outS x.1.1 = some y.1.2.2 ∧ x.2 = y.2 ∧
      (stepCycles (FlavourSpec.opt Q) (abs c)).calls.trace h s =
        ((executeNext deb c).trace h s).filter fun e => !e.req.isDebug := by
  intro x y
  have h1 := C45_execute_next (σ := σ) deb c
  have h2 := congrArg (fun p => p.run h s) h1
  have h3 := congrArg (fun p => p.trace h s) h1
  rw [(run_map _ _ _).1, (run_map _ _ _).1, (run_erase hd _ _).1] at h2
  rw [(run_map _ _ _).2, (run_map _ _ _).2, (run_erase hd _ _).2] at h3
  exact ⟨congrArg (fun x => x.1.1) h2, congrArg (fun x => x.1.2) h2, congrArg (fun x => x.2) h2, h3.symm⟩

theorem run_go {h : Handler σ S} {A : Req σ → Prop} {B : S → S → Prop} (hi : Ignores h A B) (o : Opt) (r : Regs) (s : S)
    (hk : Spec.ackOf ((stepCycles (O := σ.O) (R := σ.R) o r).calls.trace h s) = []) :
    ∃ s1 t, B s s1 ∧ opcodesOf t = [] ∧
      (stepCycles o r).calls.run h s = (if r.halted then Tree.idleM1 r.pc (fin r.bumpR) else fetchCycles o r).calls.run h s1 ∧
      (stepCycles (O := σ.O) (R := σ.R) o r).calls.trace h s =
        t ++ (if r.halted then Tree.idleM1 r.pc (fin r.bumpR) else fetchCycles o r).calls.trace h s1 := by
  unfold stepCycles at hk ⊢
  dsimp only at hk ⊢
  cases hq : irqOk r
  · rw [hq] at hk
    exact ⟨s, [], hi.equiv.refl s, rfl, rfl, rfl⟩
  · rw [hq] at hk
    have hk' : Spec.ackOf (Prog.trace h (Tree.calls (if (h (.isIrq (h .asTimestamp s).1) (h .asTimestamp s).2).1
      then irqCycles o r else (if r.halted then Tree.idleM1 r.pc (fin r.bumpR) else fetchCycles (O := σ.O) (R := σ.R) o r)))
      (h (.isIrq (h .asTimestamp s).1) (h .asTimestamp s).2).2) = [] := hk
    cases hb : (h (.isIrq (h .asTimestamp s).1) (h .asTimestamp s).2).1
    · refine ⟨(h (.isIrq (h .asTimestamp s).1) (h .asTimestamp s).2).2,
        [⟨.asTimestamp, (h .asTimestamp s).1⟩, ⟨.isIrq (h .asTimestamp s).1, (h (.isIrq (h .asTimestamp s).1) (h .asTimestamp s).2).1⟩],
        hi.equiv.trans (hi.passing .asTimestamp s rfl) (hi.passing (.isIrq _) _ rfl), ?_, ?_, ?_⟩
      rotate_left
      · show Prog.run h (Tree.calls (if (h (.isIrq (h .asTimestamp s).1) (h .asTimestamp s).2).1
          then irqCycles o r else _)) _ = _
        rw [hb]
        rfl
      · show _ :: _ :: Prog.trace h (Tree.calls (if (h (.isIrq (h .asTimestamp s).1) (h .asTimestamp s).2).1
          then irqCycles o r else _)) _ = _
        rw [hb]
        rfl
      · rfl
    · rw [hb] at hk'
      exact absurd hk' (List.cons_ne_nil _ _)


/-! ### C52 -/

/-- C52: a step of two CPUs that differ in R, MEMPTR, the interrupt flip-flops and the flag history, on related hosts. -/
theorem C52_step {h : Handler σ S} {A : Req σ → Prop} {B : S → S → Prop} (hi : Ignores h A B) {deb deb' : Bool}
    {c d : Cpu Q} {s u : S} (hc : c.obs.Like d.obs) (hs : B s u) (hq : Quiet h A deb c s)
    (hk : Spec.ackOf ((executeNext deb' d).trace h u) = []) :
    let x := (executeNext deb c).run h s
    let y := (executeNext deb' d).run h u
    x.1.1 = y.1.1 ∧ x.1.2.obs.Like y.1.2.obs ∧ B x.2 y.2 := by
  intro x y
  obtain ⟨x1, x2, x3, x4⟩ := run_next (Q := Q) hi.debug deb c s
  obtain ⟨y1, y2, y3, y4⟩ := run_next (Q := Q) hi.debug deb' d u
  obtain ⟨q1, q2, q3⟩ := hq
  have ha : Spec.ackOf ((stepCycles (FlavourSpec.opt Q) (abs c)).calls.trace h s) = [] := by
    rw [x4, ack_filter]
    exact q1
  have hb : Spec.ackOf ((stepCycles (FlavourSpec.opt Q) (abs d)).calls.trace h u) = [] := by
    rw [y4, ack_filter]
    exact hk
  obtain ⟨s1, t1, a1, a2, a3, a4⟩ := run_go hi _ _ _ ha
  obtain ⟨u1, t2, b1, b2, b3, b4⟩ := run_go hi _ _ _ hb
  have hg := like_run hi (like_go (FlavourSpec.opt Q) (shown_like.2 hc)) s1 u1
    (hi.equiv.trans (hi.equiv.symm a1) (hi.equiv.trans hs b1)) (fun e he => q2 e ?_) ?_
  · rw [← a3, ← b3] at hg
    refine ⟨outS_eq x2 ?_, ?_, ?_⟩
    · rw [y2, hg.2.1]
    · rw [← shown_like, x1, y1]
      exact hg.1
    · show B x.2 y.2
      rw [x3, y3]
      exact hg.2.2
  · have h1 : e ∈ (stepCycles (FlavourSpec.opt Q) (abs c)).calls.trace h s := by
      rw [a4]
      exact List.mem_append_right _ he
    rw [x4] at h1
    exact (List.mem_filter.1 h1).1
  · have h1 : opcodesOf ((stepCycles (FlavourSpec.opt Q) (abs c)).calls.trace h s) =
        opcodesOf ((executeNext deb c).trace h s) := by
      rw [x4, opcodes_filter]
    rw [a4] at h1
    unfold opcodesOf at h1 a2
    rw [List.filterMap_append, a2] at h1
    show Blind (List.filterMap _ _)
    rw [show List.filterMap _ _ = _ from h1]
    exact q3

/-- C52: interrupted any number of times, the program gives the same results, and ends with the same registers,
apart from R, MEMPTR and the interrupt flip-flops, and in a related state of the host. -/
theorem C52_interrupted {h : Handler σ S} {A : Req σ → Prop} {B : S → S → Prop} (hi : Ignores h A B)
    {l l' : List (Res σ)} {c d c' d' : Cpu Q} {s u s' u' : S} (hp : Program h A l (c, s) (c', s'))
    (hr : Interrupted h B l' (d, u) (d', u')) (hn : l.length = l'.length) (hc : c.obs.Like d.obs) (hs : B s u) :
    l = l' ∧ c'.obs.Like d'.obs ∧ B s' u' := by
  generalize hx : (d, u) = x at hr
  generalize hy : (d', u') = y at hr
  induction hr generalizing l c' s' d' u' with
  | start z =>
    obtain rfl := hx
    cases hy
    cases hp with
    | start => exact ⟨rfl, hc, hs⟩
    | step => cases hn
  | @step l' z c1 s1 deb h1 h2 ih =>
    cases hy
    cases hp with
    | start => cases hn
    | @step l _ c2 s2 deb' h3 h4 =>
      obtain ⟨e1, e2, e3⟩ := ih h3 (Nat.succ.inj hn) hx rfl
      obtain ⟨f1, f2, f3⟩ := C52_step hi e2 e3 h4 h2
      exact ⟨by rw [e1, f1], f2, f3⟩
  | @away l' z c1 s1 d1 u1 h1 h2 h3 ih =>
    cases hy
    obtain ⟨e1, e2, e3⟩ := ih hp hn hx rfl
    refine ⟨e1, ?_, hi.equiv.trans e3 h3⟩
    unfold Obs.Like at e2 h2 ⊢
    rw [h2, e2]

/-! ### The way back -/

/-- The instructions that end an interrupt handler: RET, RETI and RETN. -/
def Returning (deb : Bool) (c c' : Cpu Q) (t : List (Ev σ)) (e : Res σ) : Prop :=
  (executeInstruction deb 0xC9#8 c).Runs t (e, c') ∨
    (executeInstruction deb 0xED#8 c).Runs t (e, c') ∧ ∃ b, opcodesOf t = [b] ∧ (b = 0x4D#8 ∨ b = 0x45#8)

/-- They read the word at SP once and go there; nothing else changes but R, MEMPTR, and the interrupt flip-flops. -/
theorem returning {deb : Bool} {c c' : Cpu Q} {t : List (Ev σ)} {e : Res σ} (h : Returning deb c c' t e) :
    ∃ v, traffic t = [.read16 c.obs.sp v] ∧
      ({ c.obs with pc := v, sp := c.obs.sp + 2, pfx := none, halt := false, afterEi := false } : Obs).Like c'.obs := by
  rcases h with h | ⟨h, b, hb, hc⟩
  · obtain ⟨-, v, h1, h2⟩ := C19_executed_ret.1 h
    refine ⟨v, h1, ?_⟩
    rw [h2]
    exact rfl
  · have he : (opCycles (O := σ.O) (R := σ.R) (FlavourSpec.opt Q) 0xED#8 (abs c)).Ends fun l x =>
        (Spec.opcodes l).head? = some b → ∃ v, l.filterMap Cyc.access? = [.read16 (abs c).shown.sp v] ∧
          ({ (abs c).shown with
            pc := v, sp := (abs c).shown.sp + 2, pfx := none, halt := false, afterEi := false } : Obs).Like x.1.shown := by
      refine fun b' => ends_iff.2 fun l x hp hb' => ?_
      obtain rfl := Option.some.inj hb'
      rcases hc with rfl | rfl
      · exact (ends_path (P := fun l (x : Res' σ.O σ.R) => ∃ v, l.filterMap Cyc.access? = [.read16 (abs c).shown.sp v] ∧
          ({ (abs c).shown with
            pc := v, sp := (abs c).shown.sp + 2, pfx := none, halt := false, afterEi := false } : Obs).Like x.1.shown)
          (by exact fun o v => ⟨v, rfl, rfl⟩) hp :)
      · exact (ends_path (P := fun l (x : Res' σ.O σ.R) => ∃ v, l.filterMap Cyc.access? = [.read16 (abs c).shown.sp v] ∧
          ({ (abs c).shown with
            pc := v, sp := (abs c).shown.sp + 2, pfx := none, halt := false, afterEi := false } : Obs).Like x.1.shown)
          (by exact fun v => ⟨v, rfl, rfl⟩) hp :)
    obtain ⟨r, o, h1, h2, -⟩ := executed (P := fun ops l r o => ops.head? = some b → ∃ v,
      l = [.read16 (abs c).shown.sp v] ∧ ({ (abs c).shown with
        pc := v, sp := (abs c).shown.sp + 2, pfx := none, halt := false, afterEi := false } : Obs).Like r.shown) he h
    rw [h2, obs_shown c]
    exact h1 (by rw [hb]; rfl)

/-- C52: an interrupt accepted in mode 1 or 2, a handler that restores the registers it changed and finds the
pushed address where it was pushed, and RET, RETI or RETN: the interrupted program is resumed at the same place and with
the same registers. -/
theorem C52_handled {deb deb' : Bool} {c c1 c2 c3 : Cpu Q} {t u : List (Ev σ)} {e : Option (Res σ)} {e' : Res σ}
    (ha : c.getIffs.1 = true ∧ c.getPrefix = none ∧ c.isAfterEi = false) (hm : c.getIm ≠ .mode0) (hh : c.isHalt = false)
    (h1 : (irq deb c).Runs t (e, c1))
    (h2 : c1.obs.Like { c2.obs with pc := c1.obs.pc })
    (h3 : Returning deb' c2 c3 u e') (h4 : ∀ a v, traffic u = [.read16 a v] → v = c.getPc) :
    c.obs.Like c3.obs := by
  obtain ⟨v, h5, h6⟩ := returning h3
  obtain rfl := h4 _ _ h5
  have hi := C25_executed ha h1
  have hb : ∃ a b, c1.obs = { c.obs.acknowledged with sp := c.obs.sp - 2, pc := a, memptr := b } := by
    cases hk : c.getIm with
    | mode0 => exact absurd hk hm
    | mode1 => exact ⟨_, _, (hi.1 hk).2.2⟩
    | mode2 =>
      obtain ⟨-, v, a, -, -, h⟩ := hi.2 hk
      exact ⟨_, _, h⟩
  obtain ⟨a, b, h7⟩ := hb
  unfold Obs.Like at h2 h6 ⊢
  rw [h7] at h2
  have hs : c.obs.sp - 2 + 2 = c.obs.sp := BitVec.sub_add_cancel _ _
  have hz : c.obs.halt = false ∧ c.obs.pfx = none ∧ c.obs.afterEi = false ∧ c.obs.pc = c.getPc :=
    ⟨hh, ha.2.1, ha.2.2, rfl⟩
  clear h1 hi h3 h4 h5 h7
  generalize c.obs = o at *
  generalize c2.obs = o2 at *
  obtain ⟨⟩ := o
  obtain ⟨⟩ := o2
  dsimp only [Obs.acknowledged] at *
  cases h2
  rw [h6]
  dsimp only
  rw [hs, hz.1, hz.2.1, hz.2.2.1, hz.2.2.2]

/-! ### With memory and devices -/

section
variable {w : Nat} {O R I : Type}

/-- Memory is the same where `K` says. -/
def SameOn (K : U16 → Prop) (E : I → I → Prop) (s u : BitVec w × Mem × I) : Prop :=
  (∀ a, K a → s.2.1 a = u.2.1 a) ∧ E s.2.2 u.2.2

/-- The program reads and fetches only where `K` says, and uses devices only in the ways `P` says. -/
def Inside (K : U16 → Prop) (P : Req (tsSig w O R) → Prop) : Req (tsSig w O R) → Prop
  | .readOpcode a _ _ | .readMem a _ => K a
  | .readMem16 a _ => K a ∧ K (a + 1#16)
  | .readIo p t => P (.readIo p t)
  | .writeIo p v t => P (.writeIo p v t)
  | .reti p t => P (.reti p t)
  | _ => True

/-- States of the devices related by `E` answer in the same way to requests in `P`, and stay related. -/
structure DevIgnores (io : Handler (tsSig w O R) I) (P : Req (tsSig w O R) → Prop) (E : I → I → Prop) : Prop where
  equiv : Equivalence E
  isIrq (t i) : E i (io (.isIrq t) i).2
  readIo {p t u i j} : P (.readIo p t) → E i j →
    (io (.readIo p t) i).1.1 = (io (.readIo p u) j).1.1 ∧ E (io (.readIo p t) i).2 (io (.readIo p u) j).2
  writeIo {p v t u i j} : P (.writeIo p v t) → E i j →
    (io (.writeIo p v t) i).1.1 = (io (.writeIo p v u) j).1.1 ∧ E (io (.writeIo p v t) i).2 (io (.writeIo p v u) j).2
  reti {p t u i j} : P (.reti p t) → E i j →
    (io (.reti p t) i).1 = (io (.reti p u) j).1 ∧ E (io (.reti p t) i).2 (io (.reti p u) j).2

/-- Any devices, if the program does not use them. -/
theorem devices_unused (io : Handler (tsSig w O R) I) : DevIgnores io (fun _ => False) fun _ _ => True :=
  ⟨⟨fun _ => trivial, fun _ => trivial, fun _ _ => trivial⟩, fun _ _ => trivial, fun h => h.elim, fun h => h.elim,
    fun h => h.elim⟩

/-- C52: 64K of memory with such devices is a host to which `C52_interrupted` applies. -/
theorem C52_ram {io : Handler (tsSig w O R) I} {P : Req (tsSig w O R) → Prop} {E : I → I → Prop}
    (hd : DevIgnores io P E) (K : U16 → Prop) : Ignores (ramHost io) (Inside K P) (SameOn K E) where
  equiv := ⟨fun _ => ⟨fun _ _ => rfl, hd.equiv.refl _⟩, fun h => ⟨fun a k => (h.1 a k).symm, hd.equiv.symm h.2⟩,
    fun h h' => ⟨fun a k => (h.1 a k).trans (h'.1 a k), hd.equiv.trans h.2 h'.2⟩⟩
  passing q s h := by
    cases q <;> first
      | exact absurd h Bool.false_ne_true
      | exact ⟨fun _ _ => rfl, hd.equiv.refl _⟩
      | exact ⟨fun _ _ => rfl, hd.isIrq _ _⟩
  debug _ _ := rfl
  readOpcode h hs := ⟨hs.1 _ h, hs⟩
  readMem h hs := ⟨hs.1 _ h, hs⟩
  readMem16 {a t u s s'} h hs := by
    refine ⟨?_, hs⟩
    show s.2.1.get16 a = s'.2.1.get16 a
    unfold Mem.get16
    rw [hs.1 _ h.1, hs.1 _ h.2]
  writeMem {a v t u s s'} _ hs := by
    refine ⟨fun b hb => ?_, hs.2⟩
    show s.2.1.set a v b = s'.2.1.set a v b
    unfold Mem.set
    split
    · rfl
    · exact hs.1 b hb
  readIo h hs := ⟨(hd.readIo h hs.2).1, hs.1, (hd.readIo h hs.2).2⟩
  writeIo h hs := ⟨(hd.writeIo h hs.2).1, hs.1, (hd.writeIo h hs.2).2⟩
  reti h hs := ⟨(hd.reti h hs.2).1, hs.1, (hd.reti h hs.2).2⟩

/-- The writes among the accesses. -/
def Spec.Access.store? : Access → Option (U16 × U8)
  | .write a v => some (a, v)
  | _ => none

omit w O R I in
theorem stores_traffic (t : List (Ev σ)) : storesOf t = (traffic t).filterMap Access.store? := by
  induction t with
  | nil => rfl
  | cons e t ih =>
    obtain ⟨r, x⟩ := e
    cases r <;> first
      | exact congrArg (_ :: ·) ih
      | exact ih

theorem ram_read16 (io : Handler (tsSig w O R) I) {α : Type} (p : Prog (tsSig w O R) α) (s : BitVec w × Mem × I)
    (h : storesOf (p.trace (ramHost io) s) = []) {a v : U16} (hm : Access.read16 a v ∈ traffic (p.trace (ramHost io) s)) :
    v = s.2.1.get16 a := by
  induction p generalizing s with
  | ret a => cases hm
  | call r k ih =>
    have hn : (ramHost io r s).2.2.1 = s.2.1 := by
      cases r <;> first
        | rfl
        | cases h
    have h1 : storesOf ((k (ramHost io r s).1).trace (ramHost io) (ramHost io r s).2) = [] := by
      cases r <;> first
        | exact h
        | cases h
    rw [← hn]
    by_cases hr : Access.read16 a v ∈ traffic ((k (ramHost io r s).1).trace (ramHost io) (ramHost io r s).2)
    · exact ih _ _ h1 hr
    · rw [hn]
      cases r with
      | readMem16 b ts =>
        rcases List.mem_cons.1 hm with hm | hm
        · cases hm
          rfl
        · exact absurd hm hr
      | readMem b ts =>
        rcases List.mem_cons.1 hm with hm | hm
        · cases hm
        · exact absurd hm hr
      | readIo b ts =>
        rcases List.mem_cons.1 hm with hm | hm
        · cases hm
        · exact absurd hm hr
      | writeIo b v ts =>
        rcases List.mem_cons.1 hm with hm | hm
        · cases hm
        · exact absurd hm hr
      | writeMem a v ts => cases h
      | _ => exact absurd hm hr

/-- C52: with memory and devices, an interrupt accepted in mode 1 or 2, a handler that restores the registers and leaves
the pushed address and the memory of the program alone, and RET, RETI or RETN are together what `Interrupted` allows. -/
theorem C52_ram_handled (io : Handler (tsSig w O R) I) {K : U16 → Prop} {E : I → I → Prop} {deb deb' : Bool}
    {c c2 : Cpu Q} {s s2 : BitVec w × Mem × I} {op : U8}
    (ha : c.getIffs.1 = true ∧ c.getPrefix = none ∧ c.isAfterEi = false) (hm : c.getIm ≠ .mode0) (hh : c.isHalt = false)
    (hk : ¬K (c.getSp - 1) ∧ ¬K (c.getSp - 2))
    (h1 : let x := (irq deb c).run (ramHost io) s
      x.1.2.obs.Like { c2.obs with pc := x.1.2.obs.pc } ∧ (∀ a, K a → x.2.2.1 a = s2.2.1 a) ∧
        x.2.2.1 (c.getSp - 1) = s2.2.1 (c.getSp - 1) ∧ x.2.2.1 (c.getSp - 2) = s2.2.1 (c.getSp - 2))
    (h2 : let y := (executeInstruction deb' op c2).run (ramHost io) s2
      Returning deb' c2 y.1.2 ((executeInstruction deb' op c2).trace (ramHost io) s2) y.1.1 ∧ E s.2.2 y.2.2.2) :
    let y := (executeInstruction deb' op c2).run (ramHost io) s2
    c.obs.Like y.1.2.obs ∧ SameOn K E s y.2 := by
  intro y
  obtain ⟨h3, h4, h5, h6⟩ := h1
  have hx := Prog.runs_run (ramHost io) (irq deb c) s
  obtain ⟨v, h7, h8⟩ := returning h2.1
  have hst : storesOf ((executeInstruction deb' op c2).trace (ramHost io) s2) = [] := by
    rw [stores_traffic, h7]
    rfl
  have hi := C25_executed ha hx
  have hw : storesOf ((irq deb c).trace (ramHost io) s) =
      [(c.obs.sp - 1, hi8 c.obs.pc), (c.obs.sp - 2, lo8 c.obs.pc)] := by
    have hr : c.obs.resumeAt = c.obs.pc := by
      unfold Obs.resumeAt
      rw [show c.obs.halt = false from hh]
      rfl
    rw [stores_traffic]
    cases hj : c.getIm with
    | mode0 => exact absurd hj hm
    | mode1 =>
      rw [(hi.1 hj).2.1, hr]
      rfl
    | mode2 =>
      obtain ⟨-, v, a, -, h, -⟩ := hi.2 hj
      rw [h, hr]
      rfl
  have hmem := ram_stores io (irq deb c) s
  rw [hw] at hmem
  have hsp : c2.obs.sp = c.obs.sp - 2 := by
    have h10 : c2.obs.sp = ((irq deb c).run (ramHost io) s).1.2.obs.sp :=
      (congrArg Obs.sp (show Obs.mk .. = Obs.mk .. from h3) :)
    rw [h10]
    cases hj : c.getIm with
    | mode0 => exact absurd hj hm
    | mode1 => exact congrArg Obs.sp (hi.1 hj).2.2
    | mode2 =>
      obtain ⟨-, v, a, -, -, h⟩ := hi.2 hj
      exact congrArg Obs.sp h
  have hs1 : c.obs.sp - 2 ≠ c.obs.sp - 1 := by bv_omega
  have hs2 : c.obs.sp - 2 + 1#16 = c.obs.sp - 1 := by bv_omega
  refine ⟨C52_handled ha hm hh hx h3 h2.1 ?_, ?_, h2.2⟩
  · intro a v hv
    have h9 := ram_read16 io _ _ hst (a := a) (v := v) (by rw [hv]; exact .head _)
    have h10 : a = c2.obs.sp := by
      rw [h7] at hv
      cases hv
      rfl
    rw [h9, h10, hsp]
    unfold Mem.get16
    rw [hs2, ← show _ = s2.2.1 (c.obs.sp - 2) from h6, ← show _ = s2.2.1 (c.obs.sp - 1) from h5, hmem]
    show word (if c.obs.sp - 1 = c.obs.sp - 2 then _ else if c.obs.sp - 1 = c.obs.sp - 1 then hi8 c.obs.pc else _)
      (if c.obs.sp - 2 = c.obs.sp - 2 then lo8 c.obs.pc else _) = c.obs.pc
    rw [if_neg hs1.symm, if_pos rfl, if_pos rfl]
    exact word_hi8_lo8 _
  · intro a hka
    have h9 : y.2.2.1 = s2.2.1 := by
      show ((executeInstruction deb' op c2).run (ramHost io) s2).2.2.1 = _
      rw [ram_stores, hst]
      rfl
    rw [h9, ← h4 a hka, hmem]
    refine (applyStores_other ?_).symm
    intro hc
    rcases List.mem_cons.1 hc with hc | hc
    · exact hk.1 ((show a = c.getSp - 1 from hc) ▸ hka)
    · exact hk.2 ((show a = c.getSp - 2 from List.mem_singleton.1 hc) ▸ hka)

/-! ### LDIR and LDDR -/

theorem nextN_succ (io : Handler (tsSig w O R) I) (deb : Bool) (n : Nat) (c : Cpu Q) (t : BitVec w) (m : Mem) (i : I) :
    nextN io deb (n + 1) c t m i =
      (((executeNext deb (nextN io deb n c t m i).1).run (ramHost io) (nextN io deb n c t m i).2).1.2,
        ((executeNext deb (nextN io deb n c t m i).1).run (ramHost io) (nextN io deb n c t m i).2).2) := by
  induction n generalizing c t m i with
  | zero => rfl
  | succ n ih => exact ih _ _ _ _

/-- A step of LDIR or LDDR reads the instruction and the byte at HL. -/
theorem quiet_ld (io : Handler (tsSig w O R) I) {K : U16 → Prop} {P : Req (tsSig w O R) → Prop} (deb dec : Bool)
    (c : Cpu Q) (s : BitVec w × Mem × I) (hh : (abs c).halted = false) (hq : (abs c).iff1 = false)
    (h1 : s.2.1 (abs c).pc = 0xED#8) (h2 : s.2.1 ((abs c).pc + 1#16) = blkOp .ld dec true)
    (hk : K (abs c).pc ∧ K ((abs c).pc + 1#16) ∧ K (abs c).hl) : Quiet (ramHost io) (Inside K P) deb c s := by
  have ht := (run_next (Q := Q) (h := ramHost io) (fun _ _ => rfl) deb c s).2.2.2
  have he : stepCycles (O := O) (R := R) (FlavourSpec.opt Q) (abs c) = fetchCycles (FlavourSpec.opt Q) (abs c) := by
    unfold stepCycles irqOk
    rw [hh, hq]
    rfl
  rw [he] at ht
  unfold Quiet
  dsimp only
  rw [← ack_filter, ← opcodes_filter, ← ht]
  have ha : (∀ e ∈ (fetchCycles (FlavourSpec.opt Q) (abs c)).calls.trace (ramHost io) s, Inside K P e.req) →
      ∀ e ∈ (executeNext deb c).trace (ramHost io) s, Inside K P e.req := by
    intro h e he
    by_cases hd : e.req.isDebug
    · obtain ⟨r, x⟩ := e
      cases r <;> first
        | trivial
        | cases hd
    · exact h e (by rw [ht]; exact List.mem_filter.2 ⟨he, by simpa using hd⟩)
  have hc : let t := (fetchCycles (O := O) (R := R) (FlavourSpec.opt Q) (abs c)).calls.trace (ramHost io) s
      Spec.ackOf t = [] ∧ (∀ e ∈ t, Inside K P e.req) ∧ opcodesOf t = [0xED#8, blkOp .ld dec true] := by
    show let t := _ :: _ :: Prog.trace (ramHost io) (Tree.calls (opCycles _ (s.2.1 (abs c).pc) _)) _
      Spec.ackOf t = [] ∧ (∀ e ∈ t, Inside K P e.req) ∧ opcodesOf t = [0xED#8, blkOp .ld dec true]
    rw [← h2]
    generalize hv : s.2.1 (abs c).pc = v at h1 ⊢
    subst h1
    show let t := _ :: _ :: _ :: _ :: Prog.trace (ramHost io) (Tree.calls (endCycles
        (fEd (decodeEd (s.2.1 ((abs c).pc + 1#16)))) (edCycles _ (decodeEd (s.2.1 ((abs c).pc + 1#16))) _))) _
      Spec.ackOf t = [] ∧ (∀ e ∈ t, Inside K P e.req) ∧ opcodesOf t = [0xED#8, s.2.1 ((abs c).pc + 1#16)]
    generalize hb : s.2.1 ((abs c).pc + 1#16) = b at h2
    rw [h2, decode_blk]
    show let t := _ :: _ :: _ :: _ :: _ :: _ :: _ :: _ :: _ :: Prog.trace (ramHost io) (Tree.calls (endCycles _
        (repeatCycles (true && decide ((abs c).bc - 1 ≠ 0)) _ _ _))) _
      Spec.ackOf t = [] ∧ (∀ e ∈ t, Inside K P e.req) ∧ opcodesOf t = [0xED#8, blkOp .ld dec true]
    cases (true && decide ((abs c).bc - 1 ≠ 0))
    · refine ⟨rfl, ?_, ?_⟩
      · exact List.forall_mem_cons.2 ⟨trivial, List.forall_mem_cons.2 ⟨hk.1, List.forall_mem_cons.2 ⟨trivial,
          List.forall_mem_cons.2 ⟨hk.2.1, List.forall_mem_cons.2 ⟨trivial, List.forall_mem_cons.2 ⟨hk.2.2,
          List.forall_mem_cons.2 ⟨trivial, List.forall_mem_cons.2 ⟨trivial, List.forall_mem_cons.2 ⟨trivial,
          fun e he => nomatch he⟩⟩⟩⟩⟩⟩⟩⟩⟩
      · show [s.2.1 (abs c).pc, s.2.1 ((abs c).pc + 1#16)] = _
        rw [hv, hb, h2]
    · refine ⟨rfl, ?_, ?_⟩
      · exact List.forall_mem_cons.2 ⟨trivial, List.forall_mem_cons.2 ⟨hk.1, List.forall_mem_cons.2 ⟨trivial,
          List.forall_mem_cons.2 ⟨hk.2.1, List.forall_mem_cons.2 ⟨trivial, List.forall_mem_cons.2 ⟨hk.2.2,
          List.forall_mem_cons.2 ⟨trivial, List.forall_mem_cons.2 ⟨trivial, List.forall_mem_cons.2 ⟨trivial,
          List.forall_mem_cons.2 ⟨trivial, fun e he => nomatch he⟩⟩⟩⟩⟩⟩⟩⟩⟩⟩
      · show [s.2.1 (abs c).pc, s.2.1 ((abs c).pc + 1#16)] = _
        rw [hv, hb, h2]
  refine ⟨hc.1, ha hc.2.1, ?_⟩
  rw [hc.2.2]
  left
  cases dec <;> decide

theorem program_ld (io : Handler (tsSig w O R) I) {K : U16 → Prop} {P : Req (tsSig w O R) → Prop} (deb dec : Bool)
    (c : Cpu Q) (t : BitVec w) (m : Mem) (i : I) (hh : c.isHalt = false) (hq : c.iff1 = false) (n : Nat)
    (hn : n ≤ count16 (c.getReg16 .BC))
    (hi : Intact (blkOp .ld dec true) c.getPc (copied dec (c.getReg16 .HL) (c.getReg16 .DE) m) n)
    (hk : K c.getPc ∧ K (c.getPc + 1#16) ∧ ∀ k < n, K (move dec (c.getReg16 .HL) k)) :
    ∃ l, l.length = n ∧ Program (ramHost io) (Inside K P) l (c, (t, m, i)) (nextN io deb n c t m i) := by
  induction n with
  | zero => exact ⟨[], rfl, .start _⟩
  | succ n ih =>
    obtain ⟨l, hl, hp⟩ := ih (by omega) (fun k hk => hi k (by omega)) ⟨hk.1, hk.2.1, fun k hj => hk.2.2 k (by omega)⟩
    have hs : let v := view (nextN io deb n c t m i)
        v.r.halted = false ∧ v.r.iff1 = false ∧ v.r.pc = c.getPc ∧ v.r.hl = move dec (c.getReg16 .HL) n ∧
          v.mem = copied dec (c.getReg16 .HL) (c.getReg16 .DE) m n := by
      by_cases h0 : n = 0
      · subst h0
        exact ⟨hh, hq, rfl, (move_zero _ _).symm, rfl⟩
      · have h := ldir_steps (FlavourSpec.opt Q) (envOf io) ⟨abs c, m, i, t⟩ dec hh (.inl hq) n (by omega) (by
          show n ≤ count16 (c.getReg16 .BC)
          omega) fun k hk => hi k (by omega)
        rw [view_nextN, h]
        have hb : (abs c).bc - BitVec.ofNat 16 n ≠ 0#16 := sub_count (by omega) (by
          show n < count16 (c.getReg16 .BC)
          omega)
        refine ⟨rfl, hq, if_neg hb, ?_, rfl⟩
        exact word_hi8_lo8 _
    obtain ⟨h1, h2, h3, h4, h5⟩ := hs
    have hi' := hi n (by omega)
    have hQ : Quiet (ramHost io) (Inside K P) deb (nextN io deb n c t m i).1 (nextN io deb n c t m i).2 := by
      refine quiet_ld io deb dec _ _ h1 h2 ?_ ?_ ⟨?_, ?_, ?_⟩
      · show (view (nextN io deb n c t m i)).mem (view (nextN io deb n c t m i)).r.pc = _
        rw [h3, h5]
        exact hi'.1
      · show (view (nextN io deb n c t m i)).mem ((view (nextN io deb n c t m i)).r.pc + 1#16) = _
        rw [h3, h5]
        exact hi'.2
      · show K (view (nextN io deb n c t m i)).r.pc
        rw [h3]
        exact hk.1
      · show K ((view (nextN io deb n c t m i)).r.pc + 1#16)
        rw [h3]
        exact hk.2.1
      · show K (view (nextN io deb n c t m i)).r.hl
        rw [h4]
        exact hk.2.2 n (by omega)
    have hs := Program.step deb hp hQ
    exact ⟨_, congrArg (· + 1) hl, Eq.mpr (congrArg (Program _ _ _ _) (nextN_succ io deb n c t m i)) hs⟩

theorem regs_like {r s : Regs} (h : r.Like s) :
    s.pc = r.pc ∧ s.bc = r.bc ∧ s.hl = r.hl ∧ s.de = r.de ∧ s.a = r.a ∧ s.sp = r.sp := by
  unfold Spec.Regs.Like at h
  rw [h]
  exact ⟨rfl, rfl, rfl, rfl, rfl, rfl⟩

/-- C52: LDIR or LDDR interrupted any number of times copies the block as if it had not been interrupted. -/
theorem C52_copy {io : Handler (tsSig w O R) I} {P : Req (tsSig w O R) → Prop} {E : I → I → Prop}
    (hd : DevIgnores io P E) {K : U16 → Prop} (dec : Bool) {c d : Cpu Q} {t : BitVec w} {m : Mem} {i : I}
    {u : BitVec w × Mem × I} {l : List (Res (tsSig w O R))} (hh : c.isHalt = false) {n : Nat}
    (hn : n = count16 (c.getReg16 .BC))
    (hi : Intact (blkOp .ld dec true) c.getPc (copied dec (c.getReg16 .HL) (c.getReg16 .DE) m) n)
    (hk : K c.getPc ∧ K (c.getPc + 1#16) ∧ ∀ k < n, K (move dec (c.getReg16 .HL) k))
    (hr : Interrupted (ramHost io) (SameOn K E) l (c, (t, m, i)) (d, u)) (hl : l.length = n) :
    d.getPc = c.getPc + 2#16 ∧ d.getReg16 .BC = 0 ∧ d.getReg16 .HL = move dec (c.getReg16 .HL) n ∧
      d.getReg16 .DE = move dec (c.getReg16 .DE) n ∧ d.getAcc = c.getAcc ∧ d.getSp = c.getSp ∧
      ∀ a, K a → u.2.1 a = copied dec (c.getReg16 .HL) (c.getReg16 .DE) m n a := by
  generalize hc : c.disableInterrupts = e
  have e0 : e.isHalt = false := by subst hc; exact hh
  have e1 : e.iff1 = false := by subst hc; rfl
  have e2 : e.obs.Like c.obs := by subst hc; rfl
  have e3 : e.getPc = c.getPc := by subst hc; rfl
  have e4 : e.getReg16 .BC = c.getReg16 .BC := by subst hc; rfl
  have e5 : e.getReg16 .HL = c.getReg16 .HL := by subst hc; rfl
  have e6 : e.getReg16 .DE = c.getReg16 .DE := by subst hc; rfl
  have e7 : e.getAcc = c.getAcc := by subst hc; rfl
  have e8 : e.getSp = c.getSp := by subst hc; rfl
  clear hc
  rw [← e4] at hn
  rw [← e3, ← e5, ← e6] at hi
  rw [← e3, ← e5] at hk
  rw [← e3, ← e5, ← e6, ← e7, ← e8]
  obtain ⟨l', hl', hp⟩ := program_ld io (K := K) (P := P) false dec e t m i e0 e1 n (Nat.le_of_eq hn) hi hk
  obtain ⟨f, wz, hv, -⟩ := C21_run io false dec e t m i e0 (.inl e1) hn hi
  generalize nextN io false n e t m i = x at hp hv
  obtain ⟨-, h1, h2⟩ := C52_interrupted (C52_ram hd K) hp hr (hl'.trans hl.symm) e2 ⟨fun _ _ => rfl, hd.equiv.refl _⟩
  have h3 : abs x.1 = _ := congrArg Mach.r hv
  have h4 : x.2.2.1 = _ := congrArg Mach.mem hv
  have h5 := regs_like (shown_like.mpr h1)
  rw [h3] at h5
  obtain ⟨p1, p2, p3, p4, p5, p6⟩ := h5
  refine ⟨p1, p2.trans (show word 0 0 = 0 by decide), ?_, ?_, p5, p6,
    fun a ha => (h2.1 a ha).symm.trans (congrFun h4 a)⟩
  · exact p3.trans (word_hi8_lo8 _)
  · exact p4.trans (word_hi8_lo8 _)

/-- Two steps with an interrupt in between; the handler is RET alone. -/
theorem interrupted_ret (io : Handler (tsSig w O R) I) (K : U16 → Prop) (c : Cpu Q) (s : BitVec w × Mem × I)
    (h1 : Spec.ackOf ((executeNext false c).trace (ramHost io) s) = [])
    (ha : let d := ((executeNext false c).run (ramHost io) s).1.2
      (d.getIffs.1 = true ∧ d.getPrefix = none ∧ d.isAfterEi = false) ∧ d.getIm ≠ .mode0 ∧ d.isHalt = false ∧
        ¬K (d.getSp - 1) ∧ ¬K (d.getSp - 2)) :
    let x1 := (executeNext false c).run (ramHost io) s
    let x2 := (irq false x1.1.2).run (ramHost io) x1.2
    let x3 := (executeInstruction false 0xC9 x2.1.2).run (ramHost io) x2.2
    let x4 := (executeNext false x3.1.2).run (ramHost io) x3.2
    Spec.ackOf ((executeNext false x3.1.2).trace (ramHost io) x3.2) = [] →
      Interrupted (ramHost io) (SameOn K fun _ _ => True) [x4.1.1, x1.1.1] (c, s) (x4.1.2, x4.2) := by
  intro x1 x2 x3 x4 h2
  obtain ⟨ha, hm, hh, hk⟩ := ha
  have h3 := C52_ram_handled io (K := K) (E := fun _ _ => True) (deb := false) (deb' := false) (s := x1.2) ha hm hh hk
    ⟨rfl, fun _ _ => rfl, rfl, rfl⟩ ⟨.inl (Prog.runs_run _ _ _), trivial⟩
  exact .step false (.away (.step false (.start _) h1) h3.1 h3.2) h2

/-- LDIR at 8000H copying two bytes is interrupted after the first: the interrupt is accepted in mode 1, RET at 38H is the
handler. The hypotheses of `C52_ram_handled` and `C52_copy` are met. -/
example :
    let c : Cpu NMOS := { Cpu.new with
      pc := 0x8000#16, sp := 0x9000#16, iff1 := true, im := .mode1, bc := ⟨0, 2⟩, hl := ⟨0x40, 0⟩, de := ⟨0x50, 0⟩ }
    let m : Mem := fun a =>
      if a = 0x8000 then 0xED else if a = 0x8001 then 0xB0 else if a = 0x38 then 0xC9 else lo8 a + 1
    let K : U16 → Prop := fun a => 0x4000#16 ≤ a ∧ a ≤ 0x8001#16
    let x1 := (executeNext false c).run demo (0, m, ())
    let x2 := (irq false x1.1.2).run demo x1.2
    let x3 := (executeInstruction false 0xC9 x2.1.2).run demo x2.2
    let x4 := (executeNext false x3.1.2).run demo x3.2
    c.isHalt = false ∧ 2 = count16 (c.getReg16 .BC) ∧
    Intact (blkOp .ld false true) c.getPc (copied false (c.getReg16 .HL) (c.getReg16 .DE) m) 2 ∧
    (K c.getPc ∧ K (c.getPc + 1#16) ∧ ∀ k < 2, K (move false (c.getReg16 .HL) k)) ∧
    x2.1.2.getPc = 0x38 ∧ (∃ l x, Interrupted demo (SameOn K fun _ _ => True) l (c, (0, m, ())) x ∧ l.length = 2) ∧
    x4.1.2.getPc = 0x8002 ∧ x4.2.2.1 0x5000 = 1 ∧ x4.2.2.1 0x5001 = 2 ∧ x4.2.2.1 0x8FFF = 0x80 := by
  intro c m K x1 x2 x3 x4
  refine ⟨rfl, by decide +kernel, ?_, ?_, by decide +kernel, ?_, by decide +kernel, by decide +kernel, by decide +kernel,
    by decide +kernel⟩
  · intro k hk
    obtain rfl | rfl : k = 0 ∨ k = 1 := by omega
    · decide +kernel
    · decide +kernel
  · refine ⟨by decide +kernel, by decide +kernel, fun k hk => ?_⟩
    obtain rfl | rfl : k = 0 ∨ k = 1 := by omega
    · decide +kernel
    · decide +kernel
  · exact ⟨_, _, interrupted_ret (demoIo false 0 none none) K c (0, m, ()) (by decide +kernel) (by decide +kernel)
      (by decide +kernel), rfl⟩

end

end Z80
