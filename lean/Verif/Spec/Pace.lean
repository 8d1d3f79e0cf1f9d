import Verif.Spec.Path
import Verif.Spec.Clock

/-!
# Specification: the time between two tests of the limit
-/

namespace Z80.Spec
variable {σ : Sig}

/-- The call accesses a device: input, output or interrupt acknowledge. Only answers to these calls
can ask for wait states. -/
def _root_.Z80.Ev.access (e : Ev σ) : Nat :=
  match e.req with
  | .readIo _ _ | .writeIo _ _ _ | .irqData _ _ => 1
  | _ => 0

/-- Number of accesses to devices. -/
def accesses (t : List (Ev σ)) : Nat := (t.map Ev.access).sum

/-- The call is a test of the limit. -/
def _root_.Z80.Ev.tests (e : Ev σ) : Bool :=
  match e.req with
  | .isPastLimit _ => true
  | _ => false

/-- The calls between two tests of the limit, or after the last. -/
structure Lap (b : List (Ev σ)) : Prop where
  /-- The instruction, interrupt or halted cycle takes at most 23 T-states, -/
  time : clocked b ≤ 23
  /-- makes at most two accesses to devices, -/
  device : accesses b ≤ 2
  /-- and the clock is told of the wait states they ask for. -/
  wait : waited b = asked b

/-- A list is empty or begins with a test of the limit. -/
def Tested (d : List (Ev σ)) : Prop := ∀ e d', d = e :: d' → e.tests = true

/-- The timestamp that an access to the bus carries. -/
def carries : Req σ → Option σ.Ts
  | .readIo _ ts | .writeIo _ _ ts | .isIrq ts | .irqData _ ts | .reti _ ts | .readMem _ ts | .readMem16 _ ts
  | .readOpcode _ _ ts | .writeMem _ _ ts => some ts
  | _ => none

/-- The timestamp last given by the clock after a call, if it was `o` before; an access uses it up. Calls of a debugger do
not count. -/
def given (o : Option σ.Ts) (e : Ev σ) : Option σ.Ts :=
  match e.req with
  | .debug _ => o
  | _ => stamp? e

/-- Every access to the bus carries the timestamp that the clock has given in the call directly before; `o` is what it
gave before the first call. -/
def Timely : Option σ.Ts → List (Ev σ) → Prop
  | _, [] => True
  | o, e :: t => (∀ x, carries e.req = some x → o = some x) ∧ Timely (given o e) t

end Z80.Spec
