import Verif.Model.RalBoard

/-!
# Specification: what is seen of the devices of the example computer
-/

namespace Z80.Spec.Ral
open Z80.Ral

/-- What the processor and the emulation do with the devices while a program runs. -/
inductive Deed
  | ask
  | ack (pc : U16)
  | reti (pc : U16)
  | fetch
  | frame
  | read (port : U16)
  | write (port : U16) (data : U8)
deriving DecidableEq

/-- What the processor gets from them: whether an interrupt is requested, a byte, a number of wait states. -/
inductive Reply
  | irq (b : Bool)
  | byte (v : U8) (waits : Option U16)
  | waits (n : Option U16)
  | nothing
deriving DecidableEq

/-- One of these at a time. -/
def perform {D : Type} (dev : Device D) (ts : Nat) (x : D) : Deed → Option (Reply × D)
  | .ask => (dev.isIrq ts x).map fun (b, x) => (.irq b, x)
  | .ack pc => (dev.irqData pc ts x).map fun ((v, n), x) => (.byte v n, x)
  | .reti pc => (dev.reti pc ts x).map fun x => (.nothing, x)
  | .fetch => (dev.m1 ts x).map fun x => (.nothing, x)
  | .frame => (dev.frameEnd ts x).map fun x => (.nothing, x)
  | .read port => (dev.readIo port ts x).map fun ((v, n), x) => (.byte v n, x)
  | .write port data => (dev.writeIo port data ts x).map fun (n, x) => (.waits n, x)

/-- One after another, at given times: what the processor gets. `none` if the emulator panics. -/
def replies {D : Type} (dev : Device D) : List (Nat × Deed) → D → Option (List Reply)
  | [], _ => some []
  | (ts, u) :: l, x => match perform dev ts x u with
    | none => none
    | some (r, x) => (replies dev l x).map (r :: ·)

/-- A channel remembers no time before the wrap, and announces none. -/
def SettledChannel (d : Nat) (c : CtcChannel) : Prop :=
  (∀ ts, c.lastTs = some ts → d ≤ ts) ∧ (c.hint = 0 ∨ d < c.hint)

/-- The external clock of two channels has a period, its last edge that was looked at is not before the wrap, and
neither is a collected pulse, of which there are not more than can be collected. -/
def SettledClock {n : Nat} (d : Nat) (a : CtcActive n) : Prop :=
  0 < a.hclock ∧ d ≤ a.periodTs ∧ a.next.pulses ≤ n ∧ ∀ i : Fin n, i.val < a.next.pulses → d ≤ a.next.ts i

/-- Nothing of what was before the wrap at `d` is still to be dealt with. -/
def Settled {n : Nat} {I O : Type} (d : Nat) (s : Chain n I O) : Prop :=
  (s.hint = 0 ∨ d < s.hint) ∧ SettledChannel d s.ch0 ∧ SettledChannel d s.ch1 ∧ SettledChannel d s.ch2 ∧
    SettledChannel d s.ch3 ∧ SettledClock d s.triggers.1 ∧ SettledClock d s.triggers.2

end Z80.Spec.Ral
