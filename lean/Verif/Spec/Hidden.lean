import Verif.Spec.Variant
import Verif.Spec.Writes

/-!
# Specification: the documented part of the state

The official documentation knows neither MEMPTR, nor the memory of whether the last instruction affected the
flags, nor a meaning of bits 3 and 5 of F.
-/

namespace Z80.Spec

/-- Without the undocumented flags. -/
def Fl.doc (f : Fl) : Fl := { f with x := false, y := false }

/-- Without MEMPTR, the flag history and the undocumented flags of F and F'. -/
def Regs.doc (r : Regs) : Regs := { r with wz := 0, q := none, f := r.f.doc, f' := r.f'.doc }

/-- A byte of flags without bits 3 and 5. -/
def docByte (v : U8) : U8 := v &&& 0xD7#8

/-- A sequence of opcode bytes beginning with an instruction which shows more than the documented part of the
state, or whose documented effects depend on the variant: `PUSH AF`, `OUT (C),0` if the variants send different
bytes (`outs`), `LD A,I` and `LD A,R` if they treat a pending interrupt differently (`irqs`). -/
def reveals (outs irqs : Bool) : List U8 → Bool
  | op :: op2 :: _ => op == 0xF5 || op == 0xED && (outs && op2 == 0x71 || irqs && (op2 == 0x57 || op2 == 0x5F))
  | [op] => op == 0xF5
  | [] => false

/-- A byte written to memory at `a` replaced by `v`. -/
def _root_.Z80.Ev.storing {σ : Sig} (a : U16) (v : U8) : Ev σ → Ev σ
  | ⟨.writeMem b w ts, x⟩ => ⟨.writeMem b (if b = a then v else w) ts, x⟩
  | e => e

/-- A word read from memory at `a` replaced by `v`. -/
def _root_.Z80.Ev.loading {σ : Sig} (a v : U16) : Ev σ → Ev σ
  | ⟨.readMem16 b ts, x⟩ => ⟨.readMem16 b ts, if b = a then v else x⟩
  | e => e

/-- Memories which may differ in bits 3 and 5 of the bytes at the addresses in `D`. -/
def Blurred (D : U16 → Prop) (m m' : U16 → U8) : Prop := ∀ a, docByte (m a) = docByte (m' a) ∧ (¬D a → m a = m' a)

/-- Nothing is read from the addresses in `D`; `POP AF` may find the flags there. -/
def Minds {σ : Sig} (D : U16 → Prop) (t : List (Ev σ)) : Prop := ∀ e ∈ t, match e.req with
  | .readOpcode a _ _ | .readMem a _ | .readDebug a => ¬D a
  | .readMem16 a _ => ¬D (a + 1) ∧ (D a → ackOf t = [] ∧ opcodesOf t = [0xF1])
  | _ => True

/-- The addresses in `D` which have not been written since, and where `PUSH AF` put the flags. -/
def stain {σ : Sig} (D : U16 → Prop) (sp : U16) (t : List (Ev σ)) (a : U16) : Prop :=
  (D a ∧ a ∉ (storesOf t).map Prod.fst) ∨ (ackOf t = [] ∧ opcodesOf t = [0xF5] ∧ a = sp - 2)

end Z80.Spec
