import Verif.Model.Prog

/-!
# Specification: a clock

T-states as natural numbers, as documented for the bus cycles in the crate.
-/

namespace Z80.Spec
variable {σ : Sig}

/-- T-states that pass with a call. -/
def passes : Req σ → Nat
  | .addM1 _ => 4
  | .addMreq _ => 3
  | .addIo _ => 4
  | .addIrq _ => 6
  | .addNoMreq _ n => n.toNat
  | .addWait _ n => n.toNat
  | _ => 0

/-- T-states that pass in a sequence of calls. -/
def elapsed (t : List (Ev σ)) : Nat := (t.map fun e => passes e.req).sum

/-- The time within the cycle that the clock reports for a call: the end of a memory cycle, one
T-state into an I/O cycle and two into an interrupt acknowledge. -/
def reports : Req σ → Nat
  | .addM1 _ => 4
  | .addMreq _ => 3
  | .addIo _ => 1
  | .addIrq _ => 2
  | _ => 0

/-- The timestamp in the answer to a call of the clock. -/
def stamp? : Ev σ → Option σ.Ts
  | ⟨.addM1 _, t⟩ | ⟨.addMreq _, t⟩ | ⟨.addIo _, t⟩ | ⟨.addIrq _, t⟩ | ⟨.asTimestamp, t⟩ => some t
  | _ => none

end Z80.Spec
