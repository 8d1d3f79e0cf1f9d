import Verif.Model.Embedded
import Verif.Spec.Example
import Verif.Proofs.Timing
import Verif.Proofs.ShuffleBoot

/-!
# The 11 bytes of the example are all that is read

Calls that are in bounds are answered as by a RAM with the program.
-/

namespace Z80.Embedded
open Spec Spec.Example
variable {Q : Type} [FlavourSpec Q] {w : Nat} {α β : Type}

/-- No devices. -/
def nothing : Handler (tsSig w Unit Unit) Unit := fun r u => ((bus r true).1, u)

/-- A RAM with the program. -/
def ram : Mem := fun a => rom.getD a.toNat 0

/-- A call that is in bounds. -/
def fine {σ : Sig} : Req σ → Bool
  | .readMem a _ | .readOpcode a _ _ | .readDebug a => decide (a.toNat < 11)
  | .readMem16 a _ => decide (a.toNat < 10)
  | .writeMem _ _ _ => false
  | _ => true

theorem readDebug_fine {a : U16} (h : a.toNat < 11) (b : Bool) : readDebug a b = (ram a, b) := by
  have h2 : a.toNat < rom.length := h
  unfold readDebug ram
  rw [List.getElem?_eq_getElem h2, List.getD_eq_getElem?_getD, List.getElem?_eq_getElem h2]
  rfl

theorem answer_fine {r : Req (tsSig w Unit Unit)} (h : fine r = true) (t : BitVec w) :
    tsHost bus r (t, true) = ((ramHost nothing r (t, ram, ())).1, (ramHost nothing r (t, ram, ())).2.1, true) ∧
      (ramHost nothing r (t, ram, ())).2.2 = (ram, ()) := by
  cases r with
  | readMem a ts =>
    have h := of_decide_eq_true h
    refine ⟨?_, rfl⟩
    show ((readDebug a true).1, (t, (readDebug a true).2)) = _
    rw [readDebug_fine h]
    rfl
  | readOpcode a ir ts =>
    have h := of_decide_eq_true h
    refine ⟨?_, rfl⟩
    show ((readDebug a true).1, (t, (readDebug a true).2)) = _
    rw [readDebug_fine h]
    rfl
  | readDebug a =>
    have h := of_decide_eq_true h
    refine ⟨?_, rfl⟩
    show ((readDebug a true).1, (t, (readDebug a true).2)) = _
    rw [readDebug_fine h]
    rfl
  | readMem16 a ts =>
    have h := of_decide_eq_true h
    have h2 : (a + 1#16).toNat < 11 := by rw [BitVec.toNat_add]; show (a.toNat + 1) % 65536 < 11; omega
    refine ⟨?_, rfl⟩
    show (word (readDebug (a + 1#16) (readDebug a true).2).1 (readDebug a true).1,
      (t, (readDebug (a + 1#16) (readDebug a true).2).2)) = _
    rw [readDebug_fine h2, readDebug_fine (by omega)]
    rfl
  | writeMem a v ts => exact absurd h Bool.false_ne_true
  | _ => exact ⟨rfl, rfl⟩

theorem run_fine (p : Prog (tsSig w Unit Unit) α) (t : BitVec w)
    (h : ∀ e ∈ p.trace (ramHost nothing) (t, ram, ()), fine e.req = true) :
    p.run (tsHost bus) (t, true) =
        ((p.run (ramHost nothing) (t, ram, ())).1, (p.run (ramHost nothing) (t, ram, ())).2.1, true) ∧
      (p.run (ramHost nothing) (t, ram, ())).2.2 = (ram, ()) := by
  induction p generalizing t with
  | ret a => exact ⟨rfl, rfl⟩
  | call r k ih =>
    have hr : fine r = true := h ⟨r, _⟩ (List.mem_cons_self ..)
    obtain ⟨h1, h2⟩ := answer_fine hr t
    have e : (ramHost nothing r (t, ram, ())).2 = ((ramHost nothing r (t, ram, ())).2.1, ram, ()) := Prod.ext rfl h2
    have ht : ∀ e ∈ (k (ramHost nothing r (t, ram, ())).1).trace (ramHost nothing)
        ((ramHost nothing r (t, ram, ())).2.1, ram, ()), fine e.req = true := by
      intro x hx
      refine h x (List.mem_cons_of_mem _ ?_)
      rw [← e] at hx
      exact hx
    have := ih _ _ ht
    show (k (tsHost bus r (t, true)).1).run (tsHost bus) (tsHost bus r (t, true)).2 =
        (((k (ramHost nothing r (t, ram, ())).1).run (ramHost nothing) (ramHost nothing r (t, ram, ())).2).1,
          ((k (ramHost nothing r (t, ram, ())).1).run (ramHost nothing) (ramHost nothing r (t, ram, ())).2).2.1, true) ∧
      ((k (ramHost nothing r (t, ram, ())).1).run (ramHost nothing) (ramHost nothing r (t, ram, ())).2).2.2 = (ram, ())
    rw [h1, e]
    exact this

theorem trace_erase (p : Prog (tsSig w Unit Unit) α) (s : BitVec w × Mem × Unit)
    (h : ∀ e ∈ p.erase.trace (ramHost nothing) s, fine e.req = true) :
    ∀ e ∈ p.trace (ramHost nothing) s, fine e.req = true := by
  induction p generalizing s with
  | ret a => exact h
  | call r k ih =>
    cases hr : r.isDebug with
    | true =>
      cases r <;> try exact absurd hr Bool.false_ne_true
      intro e he
      rcases List.mem_cons.1 he with rfl | he
      · rfl
      · exact ih () s h e he
    | false =>
      rw [Prog.erase_call hr] at h
      intro e he
      rcases List.mem_cons.1 he with rfl | he
      · exact h _ (List.mem_cons_self ..)
      · exact ih _ _ (fun x hx => h x (List.mem_cons_of_mem _ hx)) e he

theorem run_erase (p : Prog (tsSig w Unit Unit) α) (s : BitVec w × Mem × Unit) :
    p.erase.run (ramHost nothing) s = p.run (ramHost nothing) s := by
  induction p generalizing s with
  | ret a => rfl
  | call r k ih =>
    cases hr : r.isDebug with
    | true =>
      cases r <;> try exact absurd hr Bool.false_ne_true
      exact ih () s
    | false =>
      rw [Prog.erase_call hr]
      exact ih _ _

theorem trace_map (p : Prog (tsSig w Unit Unit) α) (f : α → β) (s : BitVec w × Mem × Unit) :
    (p.map f).trace (ramHost nothing) s = p.trace (ramHost nothing) s := by
  induction p generalizing s with
  | ret a => rfl
  | call r k ih => exact congrArg _ (ih _ _)

theorem run_map (p : Prog (tsSig w Unit Unit) α) (f : α → β) (s : BitVec w × Mem × Unit) :
    (p.map f).run (ramHost nothing) s = (f (p.run (ramHost nothing) s).1, (p.run (ramHost nothing) s).2) := by
  induction p generalizing s with
  | ret a => rfl
  | call r k ih => exact ih _ _

/-- Between two instructions of the program. -/
def Within (r : Regs) : Prop :=
  r.iff1 = false ∧ r.halted = false ∧ r.idx = .hl ∧
    (r.pc = 0 ∨ r.pc = 3 ∨ r.pc = 6 ∨ r.pc = 7 ∨ r.pc = 8 ∨ r.pc = 10)

/-- A step reads within bounds, and ends within the program or with HALT. -/
def Good (p : Prog (tsSig w Unit Unit) (Regs × Option (Out Unit Unit))) (t : BitVec w) : Prop :=
  (p.trace (ramHost nothing) (t, ram, ())).all (fun e => fine e.req) = true ∧
    let x := (p.run (ramHost nothing) (t, ram, ())).1
    x.2 = some .halt ∨ x.2 = some .ok ∧ Within x.1

/-- What the programmer sees of a step. -/
def stepOf (x : Cycles Unit Unit) : Prog (tsSig w Unit Unit) (Regs × Option (Out Unit Unit)) :=
  (x.calls (σ := tsSig w Unit Unit)).map fun e => (e.1, some e.2.2)

theorem good_step {o : Opt} {r : Regs} (h : Within r) {t : BitVec w} {x : Cycles Unit Unit}
    (hx : opCycles o (ram r.pc) (r.bumpR.skip 1) = x) (hg : Good (stepOf x) (t + BitVec.ofNat w 4)) :
    Good (stepOf (stepCycles o r)) t := by
  obtain ⟨h1, h2, _, h4⟩ := h
  have e : stepCycles (O := Unit) (R := Unit) o r = fetchCycles o r := by
    unfold stepCycles irqOk
    rw [h1, h2]
    rfl
  have hp : fine (σ := tsSig w Unit Unit) (.readOpcode r.pc r.bumpR.ir (t + BitVec.ofNat w 4)) = true := by
    rcases h4 with h4 | h4 | h4 | h4 | h4 | h4 <;> rw [h4] <;> rfl
  rw [e]
  subst hx
  refine ⟨?_, hg.2⟩
  show (fine (σ := tsSig w Unit Unit) (.addM1 r.pc) && (fine (σ := tsSig w Unit Unit)
    (.readOpcode r.pc r.bumpR.ir (t + BitVec.ofNat w 4)) && _)) = true
  rw [hp]
  exact hg.1

theorem within_bump {r : Regs} (h : Within r) : (r.bumpR.skip 1).iff1 = false ∧ (r.bumpR.skip 1).halted = false ∧
    (r.bumpR.skip 1).idx = .hl ∧ (r.bumpR.skip 1).pc = r.pc + 1 := ⟨h.1, h.2.1, h.2.2.1, rfl⟩

theorem cycles_good (o : Opt) (r : Regs) (h : Within r) (t : BitVec w) : Good (stepOf (stepCycles o r)) t := by
  obtain ⟨b1, b2, b3, b4⟩ := within_bump h
  have h4 := h.2.2.2
  have key : ∀ s : Regs, s = r.bumpR.skip 1 → s.iff1 = false → s.idx = .hl → s.pc = r.pc + 1 →
      ∃ x, opCycles o (ram r.pc) s = x ∧ Good (stepOf x) (t + BitVec.ofNat w 4) := by
    intro s _ s1 s3 s4
    refine ⟨_, rfl, ?_⟩
    cases s
    simp only at s1 s3 s4
    subst s1 s3 s4
    rcases h4 with e | e | e | e | e | e
    · rw [e]
      unfold opCycles
      rw [show decode (ram 0) = .ldRpNn .hl by decide +kernel]
      exact ⟨rfl, .inr ⟨rfl, rfl, rfl, rfl, .inr (.inl rfl)⟩⟩
    · rw [e]
      unfold opCycles
      rw [show decode (ram 3) = .ldRpNn .de by decide +kernel]
      exact ⟨rfl, .inr ⟨rfl, rfl, rfl, rfl, .inr (.inr (.inl rfl))⟩⟩
    · rw [e]
      unfold opCycles
      rw [show decode (ram 6) = .exDeHl by decide +kernel]
      exact ⟨rfl, .inr ⟨rfl, rfl, rfl, rfl, .inr (.inr (.inr (.inl rfl)))⟩⟩
    · rw [e]
      unfold opCycles
      rw [show decode (ram 7) = .addHl .de by decide +kernel]
      exact ⟨rfl, .inr ⟨rfl, rfl, rfl, rfl, .inr (.inr (.inr (.inr (.inl rfl))))⟩⟩
    · rw [e]
      unfold opCycles
      rw [show decode (ram 8) = .djnz by decide +kernel]
      simp only [cycles0]
      split
      · have e6 : (8 + 1 + 1 + disp (ram (8 + 1)) : U16) = 6 := by decide +kernel
        exact ⟨rfl, .inr ⟨rfl, rfl, rfl, rfl, .inr (.inr (.inl e6))⟩⟩
      · exact ⟨rfl, .inr ⟨rfl, rfl, rfl, rfl, .inr (.inr (.inr (.inr (.inr rfl))))⟩⟩
    · rw [e]
      unfold opCycles
      rw [show decode (ram 10) = .halt by decide +kernel]
      exact ⟨rfl, .inl rfl⟩
  obtain ⟨x, hx, hg⟩ := key _ rfl b1 b3 b4
  exact good_step h hx hg

/-- A call of `execute_next` in the program. -/
theorem next_good {c : Cpu Q} (h : Within (abs c)) (deb : Bool) (t : BitVec w) :
    let x := (executeNext deb c).run (ramHost nothing) (t, ram, ())
    (executeNext deb c).run (tsHost bus) (t, true) = (x.1, x.2.1, true) ∧ x.2.2 = (ram, ()) ∧
      (x.1.1 = .halt ∨ x.1.1 = .ok ∧ Within (abs x.1.2)) := by
  intro x
  have e := drive_step (σ := tsSig w Unit Unit) deb c
  obtain ⟨g1, g2⟩ := cycles_good (FlavourSpec.opt Q) (abs c) h t
  have e' : (executeNext (σ := tsSig w Unit Unit) deb c).erase.map (fun r => (abs r.2, outS r.1)) =
    stepOf (stepCycles (FlavourSpec.opt Q) (abs c)) := e
  rw [← e'] at g1 g2
  rw [trace_map] at g1
  rw [run_map, run_erase] at g2
  obtain ⟨f1, f2⟩ := run_fine _ t (trace_erase _ _ (List.all_eq_true.1 g1))
  refine ⟨f1, f2, ?_⟩
  change outS x.1.1 = some .halt ∨ outS x.1.1 = some .ok ∧ Within (abs x.1.2) at g2
  rcases g2 with g | ⟨g, g'⟩
  · left
    cases hx : x.1.1 <;> rw [hx] at g <;> first | rfl | cases g
  · right
    refine ⟨?_, g'⟩
    cases hx : x.1.1 <;> rw [hx] at g <;> first | rfl | cases g

/-- The first loop does what it does with a RAM. -/
theorem loop_until (after : Cpu Q → BitVec 32 → Outcome Q) : ∀ (k : Nat) {c c' : Cpu Q} {t t' : BitVec 32} {m : Mem},
    Within (abs c) → Routine.untilStop nothing true k c (t, ram, ()) = some (.halt, c', t', m, ()) →
    loop after k c t = after c' t'
  | 0, _, _, _, _, _, _, h => by cases h
  | k + 1, c, c', t, t', m, hw, h => by
    obtain ⟨f1, f2, f3⟩ := next_good hw true t
    rw [Routine.untilStop] at h
    rw [loop, f1]
    rcases f3 with f3 | ⟨f3, f4⟩
    · simp only [f3] at h ⊢
      have h := Option.some.inj h
      rw [Prod.mk.injEq, Prod.mk.injEq] at h
      rw [h.2.1, h.2.2]
      rfl
    · simp only [f3] at h ⊢
      have e : ((executeNext true c).run (ramHost nothing) (t, ram, ())).2 =
        (((executeNext true c).run (ramHost nothing) (t, ram, ())).2.1, ram, ()) := Prod.ext rfl f2
      rw [e] at h
      exact loop_until after k f4 h

end Z80.Embedded
