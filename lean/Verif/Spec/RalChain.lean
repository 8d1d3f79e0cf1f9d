import Verif.Model.Basic

/-!
# Specification: a daisy chain of interrupting devices

Devices are listed from the one next to the processor, which has the highest priority. A device has lines, again in
order of priority, each with its vector. A device whose interrupt is being served keeps itself and all below it quiet,
until RETI is seen.
-/

namespace Z80.Spec.Ral

/-- A device in the chain. -/
structure Node where
  /-- Its interrupt is being served. -/
  busy : Bool
  /-- Whether each line requests an interrupt, and its vector. -/
  lines : List (Bool × U8)
deriving DecidableEq, Repr

namespace Node

/-- Some line requests an interrupt. -/
def requests (n : Node) : Bool := n.lines.any Prod.fst

/-- The first requesting line: its vector, and the lines without this request. -/
def take : List (Bool × U8) → Option (U8 × List (Bool × U8))
  | [] => none
  | (true, v) :: l => some (v, (false, v) :: l)
  | (false, v) :: l => (take l).map fun (x, l) => (x, (false, v) :: l)

/-- The other node has the same state and vectors, and requests at least what this one does. -/
def le (n m : Node) : Prop :=
  m.busy = n.busy ∧ m.lines.map Prod.snd = n.lines.map Prod.snd ∧
    ∀ (k : Nat) (v : U8), n.lines[k]? = some (true, v) → m.lines[k]? = some (true, v)

end Node

/-- The interrupt line of the processor: the first device that is served or requests decides. -/
def asks : List Node → Bool
  | [] => false
  | n :: r => !n.busy && (n.requests || asks r)

/-- The position of the device that is accepted, and its vector; it is served from then on. -/
def accept : List Node → Option (Nat × U8 × List Node)
  | [] => none
  | n :: r => match Node.take n.lines with
    | some (v, l) => some (0, v, { busy := true, lines := l } :: r)
    | none => (accept r).map fun (p, v, r) => (p + 1, v, n :: r)

/-- RETI ends the service of the first device that is served. -/
def ends : List Node → List Node
  | [] => []
  | n :: r => if n.busy then { n with busy := false } :: r else n :: ends r

/-- The positions of the devices that are being served, highest priority first. -/
def served : List Node → List Nat
  | [] => []
  | n :: r => (if n.busy then [0] else []) ++ (served r).map (· + 1)

/-- Both chains have the same devices, the second one has at least the requests of the first. -/
def grows : List Node → List Node → Prop
  | [], [] => True
  | n :: r, m :: s => n.le m ∧ grows r s
  | _, _ => False

end Z80.Spec.Ral
