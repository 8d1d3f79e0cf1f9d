import Verif.Model.RalRunner

/-!
# Specification: what the thread of the example computer does

A monitor that looks at what happens, one thing after another, and knows what may happen next.
-/

namespace Z80.Spec.Ral
open Z80.Ral.Runner

/-- What the monitor remembers. -/
structure Watch where
  /-- terminated -/
  over : Bool := false
  /-- in the debugger -/
  debugging : Bool := false
  /-- an order that must be carried out now -/
  due : Option Msg := none
  /-- the button of the non-maskable interrupt was pressed, and that has neither been accepted nor cancelled -/
  pressed : Bool := false
  /-- the interrupt was refused since anything was executed -/
  tried : Bool := false
  /-- lines since the last header of this session, if there was one -/
  lines : Option Nat := none
  /-- T-states of the last order and of interrupts since, in this session -/
  total : Nat := 0

namespace Watch
variable {Q : Type} [Flavour Q]

/-- What may happen. -/
def Allows (w : Watch) : Note Q → Prop
  /- messages are looked for when no order is to be carried out -/
  | .empty => w.due = none ∧ w.debugging = false
  | .got _ => w.due = none
  /- frames are run outside of the debugger, orders of the debugger are obeyed in it and only once; nothing is executed
  without an attempt to interrupt if the button was pressed -/
  | .frame => w.due = none ∧ w.debugging = false ∧ (w.pressed = true → w.tried = true)
  | .next _ => w.due = some .debugNext ∧ w.debugging = true ∧ (w.pressed = true → w.tried = true)
  | .completion _ => w.due = some .debugCompletion ∧ w.debugging = true ∧ (w.pressed = true → w.tried = true)
  | .toIrq _ => w.due = some .debugRunIrq ∧ w.debugging = true ∧ (w.pressed = true → w.tried = true)
  | .reset => w.due = some .reset
  /- no interrupt without a press of the button; it is refused only if the processor cannot be interrupted -/
  | .nmi c r => w.due = none ∧ w.pressed = true ∧ (r.isSome = true ↔ c.isNmiAllowed = true)
  /- a header comes before the first line and after every twelve -/
  | .header => w.due = none ∧ w.debugging = true ∧ (w.lines = none ∨ w.lines = some 12)
  | .line _ => w.due = none ∧ w.debugging = true ∧ ∃ k, w.lines = some k ∧ k < 12
  | .preview ts => w.due = none ∧ w.debugging = true ∧ ts = w.total ∧ (w.pressed = true → w.tried = true)

/-- What it means. -/
def next (w : Watch) : Note Q → Watch
  | .got .terminate => { w with over := true }
  | .got .reset => { w with due := some .reset }
  | .got .nmi => { w with pressed := true, tried := false }
  | .got .continue => { w with debugging := false }
  | .got a => if w.debugging then { w with due := some a } else { w with debugging := true, lines := none, total := 0 }
  | .frame => { w with tried := false }
  | .next ts | .completion ts | .toIrq ts => { w with due := none, tried := false, total := ts }
  | .reset => { w with due := none, pressed := false }
  | .nmi _ (some ts) => { w with pressed := false, total := w.total + ts }
  | .nmi _ none => { w with tried := true }
  | .header => { w with lines := some 0 }
  | .line _ => { w with lines := w.lines.map (· + 1) }
  | .empty | .preview _ => w

/-- Everything was allowed when it happened, and nothing happened after the end. -/
def Proper : Watch → List (Note Q) → Prop
  | _, [] => True
  | w, a :: l => w.over = false ∧ w.Allows a ∧ Proper (w.next a) l

end Watch

/-- The messages received. -/
def received {Q : Type} : List (Note Q) → List Msg
  | [] => []
  | .got a :: l => a :: received l
  | _ :: l => received l

/-- The button is pressed at most `most` times in a row while the debugger waits (`some c`: it does, and there were `c` presses
already), and `DebugCompletion` is not used but to enter it. -/
def Patient (most : Nat) : Option Nat → List (Option Msg) → Prop
  | _, [] => True
  | _, some .terminate :: _ => True
  | _, some .continue :: l => Patient most none l
  | c, none :: l => Patient most c l
  | c, some .reset :: l => Patient most c l
  | none, some .nmi :: l => Patient most none l
  | none, some _ :: l => Patient most (some 0) l
  | some c, some .nmi :: l => c < most ∧ Patient most (some (c + 1)) l
  | some _, some .debugCompletion :: _ => False
  | some _, some _ :: l => Patient most (some 0) l

end Z80.Spec.Ral
