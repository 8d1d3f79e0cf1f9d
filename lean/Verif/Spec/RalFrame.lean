/-!
# Specification: what the owner of the example computer does with it, frame by frame
-/

namespace Z80.Spec.Ral

/-- What may be done. -/
inductive Act
  | step
  | nmi
  | reset
deriving DecidableEq, Repr

/-- The number of frames. -/
def frames : List Act → Nat
  | [] => 0
  | .step :: l => frames l + 1
  | _ :: l => frames l

/-- The number of non-maskable interrupts since the last frame, if there were `c` before. -/
def since : Nat → List Act → Nat
  | c, [] => c
  | _, .step :: l => since 0 l
  | c, .nmi :: l => since (c + 1) l
  | c, .reset :: l => since c l

/-- At most `most` non-maskable interrupts within a frame, if there were `c` before. -/
def Sparse (most : Nat) : Nat → List Act → Prop
  | c, [] => c ≤ most
  | c, .step :: l => c ≤ most ∧ Sparse most 0 l
  | c, .nmi :: l => Sparse most (c + 1) l
  | c, .reset :: l => Sparse most c l

end Z80.Spec.Ral
