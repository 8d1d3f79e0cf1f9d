import Verif.Model.RalThread

/-!
# The thread of the example computer (`/repo/examples/ral1243/src/thread.rs` 76-215)

The channel of messages is a list: `some` is a message, `none` a moment at which no message is there, and the channel is
closed (all senders are gone) when the list is at an end. What happens is noted in order. Sleeping, and the log of the
speed every five seconds, are not modelled.
-/

namespace Z80.Ral.Runner

/-- `RunnerMsg` (`thread.rs` 16-33). -/
inductive Msg
  | terminate
  | reset
  | nmi
  | debugNext
  | debugCompletion
  | debugRunIrq
  | continue
deriving DecidableEq, Repr

/-- What can be observed of the thread. -/
inductive Note (Q : Type)
  /-- no message was there -/
  | empty
  | got (a : Msg)
  /-- `step` was called -/
  | frame
  | reset
  /-- `nmi` was called with the processor in this state, and what it returned -/
  | nmi (c : Cpu Q) (r : Option Nat)
  /-- `debug_step`, `run_to_completion`, `debug_runto_int` (through `run_for`) were called and took so many T-states -/
  | next (ts : Nat)
  | completion (ts : Nat)
  | toIrq (ts : Nat)
  /-- printed -/
  | header
  | line (d : CpuDebug)
  | preview (ts : Nat)

variable {Q D : Type}

/-- `print_debug` (`thread.rs` 165-175), if there is a record (208-210); `lines` is `header_lines`. -/
def print (lines : Nat) : Option CpuDebug → Nat × List (Note Q)
  | none => (lines, [])
  | some d => if lines > 10 then (0, [.header, .line d]) else (lines + 1, [.line d])

variable [Flavour Q] (dev : Device D)

/-- The head of the loop of `debug` (`thread.rs` 178-190). `debug_preview` changes nothing. -/
def top (request : Bool) (last : Nat) (m : Machine Q D) : Option (Bool × Nat × Machine Q D × List (Note Q)) :=
  if request then
    match m.nmi dev with
    | (some ts, m') => (add32 last ts).map fun last => (false, last, m', [.nmi m.cpu (some ts), .preview last])
    | (none, m') => some (true, last, m', [.nmi m.cpu none, .preview last])
  else some (false, last, m, [.preview last])

variable (search : List U16 → U16 → Machine.Found) (fps n : Nat)

/-- The orders of the debugger (`thread.rs` 196-210): `header_lines`, `nmi_request`, `last_ts` and the computer
afterwards. -/
def order : Msg → Nat → Nat → Bool → Machine Q D → Option (Nat × Nat × Bool × Machine Q D × List (Note Q))
  | .reset, lines, last, _, m => some (lines, last, false, m.reset dev, [.reset])
  | .nmi, lines, last, _, m => some (lines, last, true, m, [])
  | .debugCompletion, lines, _, request, m =>
    (m.runToCompletion dev search fps n).map fun (d, before, ts, m) =>
      let p := print lines before
      let q := print p.1 d
      (q.1, ts, request, m, .completion ts :: (p.2 ++ q.2))
  | .debugRunIrq, lines, _, request, m =>
    (m.runToIrq dev fps n).map fun (d, ts, m) =>
      let p := print lines d
      (p.1, ts, request, m, .toIrq ts :: p.2)
  | .debugNext, lines, _, request, m =>
    (m.debugStep dev n).map fun (d, ts, m) =>
      let p := print lines d
      (p.1, ts, request, m, .next ts :: p.2)
  | _, lines, last, request, m => some (lines, last, request, m, [])

/-- The loop of `debug` (`thread.rs` 177-212) from `run_rx.recv()`, which waits. The first of the results is whether to
terminate, then come the messages left, `nmi_request` and the computer. -/
def wait : List (Option Msg) → Nat → Nat → Bool → Machine Q D →
    Option (Bool × List (Option Msg) × Bool × Machine Q D × List (Note Q))
  | [], _, _, request, m => some (true, [], request, m, [])
  | none :: l, lines, last, request, m => wait l lines last request m
  | some .continue :: l, _, _, request, m => some (false, l, request, m, [.got .continue])
  | some .terminate :: l, _, _, request, m => some (true, l, request, m, [.got .terminate])
  | some a :: l, lines, last, request, m => do
    let (lines, last, request, m, t) ← order dev search fps n a lines last request m
    let (request, last, m, u) ← top dev request last m
    let (done, rest, request, m, v) ← wait l lines last request m
    some (done, rest, request, m, .got a :: (t ++ (u ++ v)))

/-- `debug` (`thread.rs` 160-213). -/
def debug (l : List (Option Msg)) (request : Bool) (m : Machine Q D) :
    Option (Bool × List (Option Msg) × Bool × Machine Q D × List (Note Q)) := do
  let (request, last, m, t) ← top dev request 0 m
  let (done, rest, request, m, u) ← wait dev search fps n l 255 last request m
  some (done, rest, request, m, t ++ u)

/-- `if nmi_request && self.nmi().is_some() { nmi_request = false }` (`thread.rs` 87-89). -/
def retry (request : Bool) (m : Machine Q D) : Bool × Machine Q D × List (Note Q) :=
  if request then
    match m.nmi dev with
    | (some ts, m') => (false, m', [.nmi m.cpu (some ts)])
    | (none, m') => (true, m', [.nmi m.cpu none])
  else (false, m, [])

variable (k : Nat)

/-- The loop of `run` (`thread.rs` 86-138): the messages left and the computer. The first argument bounds the number of
iterations; `n` and `k` bound the loops within. -/
def loop : Nat → List (Option Msg) → Bool → Machine Q D → Option (List (Option Msg) × Machine Q D × List (Note Q))
  | 0, _, _, _ => none
  | j + 1, inbox, request, m => do
    let (request, m, t) := retry dev request m
    let (_, m) ← m.step dev n k
    let after : Option (List (Option Msg) × Machine Q D × List (Note Q)) := match inbox with
      | [] => some ([], m, [])
      | none :: l => (loop j l request m).map fun (r, m, u) => (r, m, .empty :: u)
      | some .continue :: l => (loop j l request m).map fun (r, m, u) => (r, m, .got .continue :: u)
      | some .terminate :: l => some (l, m, [.got .terminate])
      | some .reset :: l => (loop j l false (m.reset dev)).map fun (r, m, u) => (r, m, .got .reset :: .reset :: u)
      | some .nmi :: l =>
        let c := m.cpu
        let (ts, m) := m.nmi dev
        (loop j l ts.isNone m).map fun (r, m, u) => (r, m, .got .nmi :: .nmi c ts :: u)
      | some a :: l => do
        let (done, l, request, m, u) ← debug dev search fps n l request m
        if done then some (l, m, .got a :: u)
        else (loop j l request m).map fun (r, m, v) => (r, m, .got a :: (u ++ v))
    let (rest, m, u) ← after
    some (rest, m, t ++ .frame :: u)

/-- `run` (`thread.rs` 76-139). -/
def run (j : Nat) (inbox : List (Option Msg)) (m : Machine Q D) :
    Option (List (Option Msg) × Machine Q D × List (Note Q)) := loop dev search fps n k j inbox false m

end Z80.Ral.Runner
