import Verif.Model.RalMachine
import Verif.Spec.RalFrame

/-!
# Specification: what a program on the example computer must not do

Moments of a run, and what is asked of each of them.
-/

namespace Z80.Spec.Ral
open Z80.Ral

variable {n : Nat} {I O D : Type}

/-- How often a channel gets to zero until `ts` if it is looked at then. A timer counts `factor` units in a T-state; a
counter stops looking after it got to zero once. -/
def due (c : CtcChannel) (ts : Nat) : Nat :=
  match c.restart, c.mode, c.lastTs with
  | some r, .timer, some last =>
    let gone := (ts - last) * c.prescaler.factor
    let left := (c.current - 1).toNat * 256 + c.internal
    if last < ts ∧ left ≤ gone then (gone - left) / ((if r = 0 then 256 else r.toNat) * 256) + 1 else 0
  | some _, .counter, _ => 1
  | _, _, _ => 0

/-- The collectors of pulses behind channels 0 and 2 have cells for all zeros until `ts`; one more than that for a
channel that is told to count by the other edges. -/
def Fits (ts : Nat) (more : Fin 4 → Nat) (s : Chain n I O) : Prop :=
  s.triggers.1.next.pulses + due s.ch0 ts + more 0 ≤ n ∧ s.triggers.2.next.pulses + due s.ch2 ts + more 2 ≤ n

instance (ts : Nat) (more : Fin 4 → Nat) (s : Chain n I O) : Decidable (Fits ts more s) :=
  inferInstanceAs (Decidable (_ ∧ _))

/-- The channel of the counter/timer that a port selects. -/
def chosen (port : U16) (s : Chain n I O) : Option (Fin 4 × CtcChannel) :=
  if port &&& s.matchMask = s.matchBits then
    if port &&& s.cs1 = 0 then some (if port &&& s.cs0 = 0 then (0, s.ch0) else (1, s.ch1))
    else some (if port &&& s.cs0 = 0 then (2, s.ch2) else (3, s.ch3))
  else none

/-- What is written is a control word for the channel, neither a time constant nor a vector. -/
def IsControl (data : U8) (c : CtcChannel) : Prop := c.awaiting = false ∧ data.getLsbD 0 = true

instance (data : U8) (c : CtcChannel) : Decidable (IsControl data c) := inferInstanceAs (Decidable (_ ∧ _))

/-- The port is a control port of the parallel ports. -/
def pioControl (port : U16) (s : Chain n I O) : Prop :=
  port &&& s.chained.matchMask = s.chained.matchBits ∧ port &&& s.chained.controlMask ≠ 0

instance (port : U16) (s : Chain n I O) : Decidable (pioControl port s) := inferInstanceAs (Decidable (_ ∧ _))

/-- A control word of the parallel ports that is implemented: not the modes 2 and 3, no mask of interrupts. -/
def implemented (data : U8) : Prop :=
  ¬ (data &&& 0b1111#8 = 0b1111#8 ∧ data.getLsbD 7 = true) ∧ data &&& 0b1111#8 ≠ 0b0111#8

instance (data : U8) : Decidable (implemented data) := inferInstanceAs (Decidable (_ ∧ _))

/-- What is asked of writing to a port: no timer behind a collector, in channel 1 or 3, is told to wait for a trigger,
collectors have cells for the zeros, or the control word of a parallel port is implemented. -/
def MayWrite (port : U16) (data : U8) (ts : Nat) (s : Chain n I O) : Prop :=
  match chosen port s with
  | some (k, c) => Fits ts (fun j => if j = k ∧ IsControl data c ∧ c.rising ≠ data.getLsbD 4 then 1 else 0) s ∧
    (k = 1 ∨ k = 3 → IsControl data c → data.getLsbD 6 = false → data.getLsbD 3 = false)
  | none => pioControl port s → implemented data

instance (port : U16) (data : U8) (ts : Nat) (s : Chain n I O) : Decidable (MayWrite port data ts s) := by
  unfold MayWrite
  split <;> infer_instance

/-- A moment: the clock, the boards, and what is asked of the bus or of the clock. The devices are also looked at
when they are reset and at the end of a frame: then it is `none`. -/
abbrev Moment (D : Type) : Type := (BitVec 32 × Option (Boards D)) × Option (Req ralSig)

/-- What is asked of a request at a time. -/
def Allowed (ts : Nat) (b : Boards (Chain n I O)) : Option (Req ralSig) → Prop
  | some (.writeIo port data _) => port &&& b.mask = b.bits ∨ MayWrite port data ts b.device
  | some (.readOpcode _ _ _) => Fits ts (fun _ => 0) b.device
  | some (.readIo _ _) => Fits ts (fun _ => 0) b.device
  | some (.isIrq _) => Fits ts (fun _ => 0) b.device
  | none => Fits ts (fun _ => 0) b.device
  | _ => True

instance (ts : Nat) (b : Boards (Chain n I O)) (r : Option (Req ralSig)) : Decidable (Allowed ts b r) := by
  cases r with
  | none => exact inferInstanceAs (Decidable (Fits ts (fun _ => 0) b.device))
  | some r =>
    cases r with
    | writeIo port data _ => exact inferInstanceAs (Decidable (port &&& b.mask = b.bits ∨ MayWrite port data ts b.device))
    | readOpcode _ _ _ | readIo _ _ | isIrq _ => exact inferInstanceAs (Decidable (Fits ts (fun _ => 0) b.device))
    | _ => exact .isTrue trivial

/-- What is asked of a moment. -/
def Behaves (x : Moment (Chain n I O)) : Prop := ∀ b, x.1.2 = some b → Allowed x.1.1.toNat b x.2

instance : (x : Moment (Chain n I O)) → Decidable (Behaves x)
  | ((_, none), _) => .isTrue fun _ h => absurd h (by simp)
  | ((t, some b), r) => decidable_of_iff (Allowed t.toNat b r) ⟨fun h b' hb => by cases hb; exact h, fun h => h b rfl⟩

/-- The moments of a program of calls. -/
def moments {α S : Type} {σ : Sig} (H : Handler σ S) : Prog σ α → S → List (S × Option (Req σ))
  | .ret _, _ => []
  | .call r k, s => (s, some r) :: moments H (k (H r s).1) (H r s).2

section
variable {Q : Type} [Flavour Q] (dev : Device D)

/-- The moments of the loop of a frame. -/
def watchLoop (n : Nat) : Nat → Machine Q D → List (Moment D)
  | 0, _ => []
  | k + 1, m =>
    let p := executeWithLimit n (BitVec.ofNat 32 m.limit) m.cpu
    moments (tClock (Boards.host dev)) p (m.cur, m.bus) ++
      match p.run (tClock (Boards.host dev)) (m.cur, m.bus) with
      | (some (.halt, cpu), cur, bus) => watchLoop n k { m with cpu, cur, bus }
      | _ => []

/-- The moments of a use of the computer. -/
def watchAct (n k : Nat) (m : Machine Q D) : Act → List (Moment D)
  | .step => match m.wrapSecond dev with
    | none => []
    | some m =>
      let m := { m with limit := m.limit + m.frame }
      watchLoop dev n k m ++ match m.frameLoop dev n k with
        | none => []
        | some m => [((m.cur, m.bus), none)]
  | .nmi => moments (tClock (Boards.host dev)) (Z80.nmi m.cpu) (m.cur, m.bus)
  | .reset => [((m.cur, m.bus), none)]

/-- The moments of uses one after another. -/
def watch (n k : Nat) : List Act → Machine Q D → List (Moment D)
  | [], _ => []
  | .step :: l, m => watchAct dev n k m .step ++ match m.step dev n k with
    | none => []
    | some (_, m) => watch n k l m
  | .nmi :: l, m => watchAct dev n k m .nmi ++ watch n k l (m.nmi dev).2
  | .reset :: l, m => watchAct dev n k m .reset ++ watch n k l (m.reset dev)

end

end Z80.Spec.Ral
