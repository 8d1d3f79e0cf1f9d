import Verif.Model.Basic

/-!
# Specification: a timer channel of the counter/timer

A timer counts its constant down once in 16 or 256 T-states. When it gets to zero it starts over.
-/

namespace Z80.Spec.Ral

/-- T-states from one zero to the next. A constant of 0 is 256. -/
def period (n : U8) (prescale : Nat) : Nat := (if n = 0 then 256 else n.toNat) * prescale

/-- The times up to `b` at which a timer gets to zero, if `z` is the first one. -/
def zeros (z p b : Nat) : List Nat := (List.range (b + 1)).filter fun x => decide (z ≤ x ∧ (x - z) % p = 0)

/-- The first time after `b` at which it gets to zero. -/
def nextZero (z p b : Nat) : Nat := if b < z then z else z + p * ((b - z) / p + 1)

/-- What the counter shows at time `b`: the counts up to the next zero at `z`, with the one that has begun. -/
def countsTo (z prescale b : Nat) : U8 := BitVec.ofNat 8 ((z - b + (prescale - 1)) / prescale)

end Z80.Spec.Ral
