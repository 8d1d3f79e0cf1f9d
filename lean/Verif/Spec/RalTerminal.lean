import Verif.Spec.Alu

/-!
# The language of the terminal

What bytes sent to the terminal of the example computer mean, and the codes of its keys, as a grammar; and a window that
remembers what was done to it.
-/

namespace Z80.Spec.Terminal

/-- What a program can ask the terminal to do. -/
inductive Op
  | beep
  | clear
  | start
  | up
  | left
  | down
  | right
  | goto (y x : U8)
  | cursor (n : U8)
  | print (c : U8)
deriving DecidableEq

/-- How it is encoded. -/
inductive Code : Op → List U8 → Prop
  | beep : Code .beep [7]
  | clear : Code .clear [12]
  | start : Code .start [13]
  | up : Code .up [17]
  | left : Code .left [18]
  | down : Code .down [19]
  | newline : Code .down [10]
  | right : Code .right [20]
  | goto (y x) : Code (.goto y x) [16, y, x]
  | cursor (n) : Code (.cursor n) [21, n]
  | print (c : U8) (h : c ∉ [7, 10, 12, 13, 16, 17, 18, 19, 20, 21]) : Code (.print c) [c]

/-- The beginning of a sequence that is not complete. -/
inductive Begun : List U8 → Prop
  | nothing : Begun []
  | goto : Begun [16]
  | row (y) : Begun [16, y]
  | cursor : Begun [21]

/-- Bytes are the codes of operations one after another, and the beginning of one more. -/
inductive Says : List U8 → List Op → List U8 → Prop
  | rest {p} (h : Begun p) : Says p [] p
  | op {x c l xs p} (h : Code x c) (t : Says l xs p) : Says (c ++ l) (x :: xs) p

/-- What is done to a window, in the order of time. -/
inductive Act
  | mv (y x : Int)
  | addch (c : U8)
  | erase
  | beep
  | cursor (n : Int)
  | refresh
  | resize
deriving DecidableEq

end Z80.Spec.Terminal
