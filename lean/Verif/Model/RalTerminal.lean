import Verif.Model.RalRunner

/-!
# The terminal of the example computer

`/repo/examples/terminal.rs`. The window belongs to the library `pancurses`: any type with the methods that are used. Text
shown before the loop, logging and the time limit of `recv_timeout` are not modelled. `none` is a panic.
-/

namespace Z80.Ral.Terminal
open Runner (Msg)

/-- The methods of `pancurses::Window` and the functions of the library that are used (`terminal.rs` 33, 113-165). Numbers
are those of `i32`. -/
structure Win (W : Type) where
  curY : W → Int
  curX : W → Int
  begX : W → Int
  mv : W → Int → Int → W
  addch : W → U8 → W
  erase : W → W
  beep : W → W
  cursSet : W → Int → W
  refresh : W → W
  resize : W → W

/-- The variables of the loop (`terminal.rs` 108, 112-113) and the window. -/
structure State (W : Type) where
  win : W
  refresh : Bool
  control : Option U8
  collected : List U8

/-- The state before the loop (`terminal.rs` 108-113). -/
def State.new {W : Type} (w : W) : State W := ⟨w, false, none, []⟩

/-- Addition of one to an `i32`, with overflow checks. -/
def succ32 (x : Int) : Option Int := if x = 2147483647 then none else some (x + 1)

/-- `saturating_sub(1)` of an `i32`. -/
def pred32 (x : Int) : Int := if x = -2147483648 then x else x - 1

/-- `ArrayVec<u8,2>::push`. -/
def collect (l : List U8) (b : U8) : Option (List U8) := if l.length < 2 then some (l ++ [b]) else none

variable {W : Type}

/-- A byte that is no part of a longer sequence (`terminal.rs` 135-145). -/
def single (o : Win W) (s : State W) (b : U8) : Option (State W) :=
  if b = 0x07 then some { s with win := o.beep s.win }
  else if b = 0x0C then some { s with win := o.erase s.win }
  else if b = 0x0D then some { s with win := o.mv s.win (o.curY s.win) (o.begX s.win) }
  else if b = 0x10 ∨ b = 0x15 then some { s with control := some b }
  else if b = 0x11 then some { s with win := o.mv s.win (pred32 (o.curY s.win)) (o.curX s.win) }
  else if b = 0x12 then some { s with win := o.mv s.win (o.curY s.win) (pred32 (o.curX s.win)) }
  else if b = 0x0A ∨ b = 0x13 then (succ32 (o.curY s.win)).map fun y => { s with win := o.mv s.win y (o.curX s.win) }
  else if b = 0x14 then (succ32 (o.curX s.win)).map fun x => { s with win := o.mv s.win (o.curY s.win) x }
  else some { s with win := o.addch s.win b }

/-- A byte from the computer (`terminal.rs` 117-147). -/
def receive (o : Win W) (s : State W) (b : U8) : Option (State W) :=
  let s := { s with refresh := true }
  if s.control = some 0x10 then
    if s.collected.length = 1 then
      match s.collected.getLast? with
      | some y => some { s with collected := s.collected.dropLast, control := none, win := o.mv s.win y.toNat b.toNat }
      | none => none
    else (collect s.collected b).map fun l => { s with collected := l }
  else if s.control = some 0x15 then some { s with control := none, win := o.cursSet s.win b.toNat }
  else single o s b

/-- What `recv_timeout` returns (`terminal.rs` 115-155). -/
inductive Got
  | data (b : U8)
  | timeout
  | disconnected

/-- What `getch` returns (`terminal.rs` 157-216); characters by their code point. -/
inductive Key
  | character (c : Nat)
  | resize
  | f1 | f4 | f5 | f6 | f7 | f8 | f10
  | pPage | home | «end» | nPage | ic | up | left | down | right | dc
  | other
deriving DecidableEq

/-- The byte for a key that is neither a character nor a function key (`terminal.rs` 197-213). -/
def Key.byte : Key → Option U8
  | .pPage => some 1
  | .home => some 2
  | .end => some 3
  | .nPage => some 4
  | .ic => some 5
  | .up => some 17
  | .left => some 18
  | .down => some 19
  | .right => some 20
  | .dc => some 127
  | _ => none

/-- A turn of the loop: the state after it, what was sent to the computer's thread and to its port, and whether the loop
goes on. -/
structure Turn (W : Type) where
  state : State W
  msg : Option Msg
  byte : Option U8
  go : Bool

/-- The first half of a turn (`terminal.rs` 115-155); `none` inside: the channel is disconnected. -/
def incoming (o : Win W) (s : State W) : Got → Option (Option (State W))
  | .data b => (receive o s b).map some
  | .timeout => some (some (if s.refresh then { s with win := o.refresh s.win, refresh := false } else s))
  | .disconnected => some none

/-- The second half of a turn (`terminal.rs` 157-216); `ok` says if sending succeeds. -/
def pressed (o : Win W) (s : State W) (ok : Bool) : Option Key → Turn W
  | none => ⟨s, none, none, true⟩
  | some (.character c) => if c < 128 then ⟨s, none, some (BitVec.ofNat 8 c), ok⟩ else ⟨s, none, none, true⟩
  | some .resize => ⟨{ s with win := o.refresh (o.resize s.win) }, none, none, true⟩
  | some .f10 => ⟨s, none, none, false⟩
  | some .f8 => ⟨s, some .continue, none, ok⟩
  | some .f7 => ⟨s, some .debugRunIrq, none, ok⟩
  | some .f6 => ⟨s, some .debugCompletion, none, ok⟩
  | some .f5 => ⟨s, some .debugNext, none, ok⟩
  | some .f4 => ⟨{ s with control := none, collected := [] }, some .reset, none, ok⟩
  | some .f1 => ⟨{ s with control := none, collected := [] }, some .nmi, none, ok⟩
  | some k => match k.byte with
    | some b => ⟨s, none, some b, ok⟩
    | none => ⟨s, none, none, true⟩

/-- One turn (`terminal.rs` 114-217). -/
def turn (o : Win W) (s : State W) (g : Got) (k : Option Key) (ok : Bool) : Option (Turn W) :=
  (incoming o s g).map fun
    | some s => pressed o s ok k
    | none => ⟨s, none, none, false⟩

/-- What comes from outside in a turn. -/
structure Event where
  got : Got
  key : Option Key
  ok : Bool

/-- The loop and what follows (`terminal.rs` 114-221) for as long as events are given: the state, the messages and the
bytes sent, and whether the loop has ended. -/
def loop (o : Win W) : State W → List Event → Option (State W × List Msg × List U8 × Bool)
  | s, [] => some (s, [], [], false)
  | s, e :: l => do
    let t ← turn o s e.got e.key e.ok
    if t.go then
      let (s, ms, bs, b) ← loop o t.state l
      some (s, t.msg.toList ++ ms, t.byte.toList ++ bs, b)
    else some (t.state, t.msg.toList ++ [.terminate], t.byte.toList, true)

/-- The clock of the command line in kHz becomes one in Hz (`terminal.rs` 37, 75); with overflow checks it panics. -/
def clockHz (checks : Bool) (khz : Option Nat) : Option Nat :=
  let k := khz.getD 4000
  if checks ∧ 2 ^ 32 ≤ 1000 * k then none else some (1000 * k % 2 ^ 32)

/-- `Ral1243::check_clock` (`ral1243/src/lib.rs` 169-176) as called by `terminal.rs` 43, 79: no error. -/
def checkClock (hz : Nat) : Option Bool := (clockIsValid 10000 hz).map fun v => v && !(decide (40000000 < hz))

end Z80.Ral.Terminal
