import Verif.Model.Basic

/-!
# Specification: a counter channel of the counter/timer, and the clock edges it counts
-/

namespace Z80.Spec.Ral

/-- A counter with constant `n` gets edges, one by one. Each counts down by one; at zero there is a pulse, and the
counter starts over. The result: the times of the pulses, and the value shown in the end. -/
def counted (n : U8) : U8 → List Nat → List Nat × U8
  | v, [] => ([], v)
  | v, e :: l => if v = 1 then (e :: (counted n n l).1, (counted n n l).2) else counted n (v - 1) l

/-- The edges of a clock after time `a` up to time `b`. The level changes every `h` T-states from time 0, when it is
low; the odd changes are rising edges. -/
def clockEdges (h : Nat) (rising : Bool) (a b : Nat) : List Nat :=
  (List.range (b + 1)).filter fun x => decide (a < x ∧ x % h = 0 ∧ (x / h % 2 = 1 ↔ rising = true))

/-- The edges up to a time of pulses that are two T-states long. -/
def pulseEdges (rising : Bool) (pulses : List Nat) (b : Nat) : List Nat :=
  if rising then pulses.takeWhile (· ≤ b) else (pulses.takeWhile (· + 2 ≤ b)).map (· + 2)

end Z80.Spec.Ral
