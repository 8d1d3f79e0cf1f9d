import Verif.Spec.Access
import Verif.Props.Bus
import Verif.Props.State

/-!
# Executed instructions: from bus cycles to the values shown by the getters
-/

set_option linter.constructorNameAsVariable false

namespace Z80
open Spec

variable {Q : Type} {σ : Sig}

theorem access_filter (t : List (Ev σ)) :
    traffic (t.filter fun e => !e.req.isDebug) = traffic t := by
  induction t with
  | nil => rfl
  | cons e t ih =>
    obtain ⟨r, x⟩ := e
    cases r <;> first
      | exact congrArg (_ :: ·) ih
      | exact ih

theorem performs_access {l : List Cyc} {t : List (Ev σ)} (h : Performs l t) :
    traffic t = l.filterMap Cyc.access? := by
  induction h with
  | nil => rfl
  | @cons c l t u hc _ ih =>
    unfold traffic at ih ⊢
    rw [List.filterMap_append, ih]
    cases hc with
    | @inp p v w ts => cases w <;> rfl
    | @out p v w ts x => cases w <;> rfl
    | @ack p v w ts => cases w <;> rfl
    | _ => rfl

/-- The prefix of an index register. -/
def pfxOfIx : Ix → Option Prefix
  | .hl => none
  | .ix => some .xdd
  | .iy => some .yfd

/-- The interrupt mode with a number. -/
def imOfNat : Nat → IntMode
  | 0 => .mode0
  | 1 => .mode1
  | _ => .mode2

/-- What the getters show of the registers of the specification. -/
def Spec.Regs.shown (r : Regs) : Obs where
  a := r.a
  f := r.f.byte
  b := r.b
  c := r.c
  d := r.d
  e := r.e
  h := r.h
  l := r.l
  ixh := r.ixh
  ixl := r.ixl
  iyh := r.iyh
  iyl := r.iyl
  a' := r.a'
  f' := r.f'.byte
  b' := r.b'
  c' := r.c'
  d' := r.d'
  e' := r.e'
  h' := r.h'
  l' := r.l'
  pc := r.pc
  sp := r.sp
  memptr := r.wz
  i := r.i
  r := r.r
  iffs := (r.iff1, r.iff2)
  im := imOfNat r.im
  halt := r.halted
  afterEi := r.ei
  pfx := pfxOfIx r.idx

theorem obs_shown [FlavourSpec Q] (c : Cpu Q) : c.obs = (abs c).shown := by
  have h1 : (Fl.of c.af.lo).byte = c.af.lo := byte_of _
  have h2 : (Fl.of c.afAlt.lo).byte = c.afAlt.lo := byte_of _
  have h3 : imOfNat (imOf c.im) = c.im := by cases c.im <;> rfl
  have h4 : pfxOfIx (ixOf c.pfx) = c.pfx := by rcases c.pfx with _ | _ | _ <;> rfl
  unfold Spec.Regs.shown
  show _ = Obs.mk _ (Fl.of c.af.lo).byte _ _ _ _ _ _ _ _ _ _ _ (Fl.of c.afAlt.lo).byte _ _ _ _ _ _ _ _ _ _ _ _
    (imOfNat (imOf c.im)) _ _ (pfxOfIx (ixOf c.pfx))
  rw [h1, h2, h3, h4]
  rfl

/-- What holds at every end of the bus cycles of an instruction holds of every run. -/
theorem executed [FlavourSpec Q] {deb : Bool} {code : U8} {c c' : Cpu Q} {t : List (Ev σ)} {e : Res σ}
    {P : List U8 → List Access → Regs → Out σ.O σ.R → Prop}
    (hP : (opCycles (FlavourSpec.opt Q) code (abs c)).Ends fun l r =>
      P (Spec.opcodes l) (l.filterMap Cyc.access?) r.1 r.2.2)
    (h : (executeInstruction deb code c).Runs t (e, c')) :
    ∃ r o, P (opcodesOf t) (traffic t) r o ∧ c'.obs = r.shown ∧ outS e = some o := by
  obtain ⟨l, r, h1, h2, h3, h4⟩ := drives_path (drive_instruction deb code c) h
  refine ⟨r.1, r.2.2, ?_, ?_, h4⟩
  · rw [← access_filter, ← opcodes_filter, performs_access h2, performs_opcodes h2]
    exact ends_path hP h1
  · rw [obs_shown]
    exact congrArg _ h3

theorem outS_ok {e : Res σ} (h : outS e = some .ok) : e = .ok := by
  cases e <;> first | rfl | cases h

/-- The same for instructions that return `Ok`. -/
theorem executed_ok [FlavourSpec Q] {deb : Bool} {code : U8} {c c' : Cpu Q} {t : List (Ev σ)}
    {e : Res σ} {P : List U8 → List Access → Obs → Prop}
    (hP : (opCycles (O := σ.O) (R := σ.R) (FlavourSpec.opt Q) code (abs c)).Ends fun l r =>
      r.2.2 = .ok ∧ P (Spec.opcodes l) (l.filterMap Cyc.access?) r.1.shown)
    (h : (executeInstruction deb code c).Runs t (e, c')) :
    e = .ok ∧ P (opcodesOf t) (traffic t) c'.obs := by
  obtain ⟨r, o, ⟨rfl, h1⟩, h2, h3⟩ :=
    executed (P := fun ops l r o => o = .ok ∧ P ops l r.shown) hP h
  exact ⟨outS_ok h3, h2 ▸ h1⟩

end Z80
