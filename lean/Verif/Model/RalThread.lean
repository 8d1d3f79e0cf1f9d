import Verif.Model.RalDebug

/-!
# Running to completion (`/repo/examples/ral1243/src/thread.rs`)

What a user of the debugger asks for with `DebugCompletion` and `DebugRunIrq`. Threads, channels and the printing itself
are not modelled; what is printed on the way is part of the result.
-/

namespace Z80.Ral

/-- `run_for` (`thread.rs` 217-240): `debug` is called until it returns something, but not more often than `frames + 1`
times. `start_ts + ts` panics if it is too large. -/
def runFor {M A : Type} (debug : M → Option (Option A × Nat × M)) : Nat → Nat → M → Option (Option A × Nat × M)
  | frames, start, m =>
    match debug m with
    | none => none
    | some (r, ts, m) =>
      match add32 start ts with
      | none => none
      | some start =>
        match r, frames with
        | some d, _ => some (some d, start, m)
        | none, 0 => some (none, start, m)
        | none, frames + 1 => runFor debug frames start m

namespace Machine
variable {Q D : Type} [Flavour Q] (dev : Device D)

/-- `run_to_completion` (`thread.rs` 141-157), with `fps` for `FRAME_HZ`; `n` bounds the number of instructions in a call of the
debugger. The results are the record returned, the one printed before (`print_debug`), the duration and the machine. -/
def runToCompletion (search : List U16 → U16 → Found) (fps n : Nat) (m : Machine Q D) :
    Option (Option CpuDebug × Option CpuDebug × Nat × Machine Q D) := do
  let (dbg, ts, m) ← m.debugStep dev n
  let rest (m : Machine Q D) : Option (Option CpuDebug × Option CpuDebug × Nat × Machine Q D) := do
    let (r, ts, m) ← runFor (debugRuntoRet dev n) fps ts m
    some (r, none, ts, m)
  match dbg with
  | none => rest m
  | some deb => do
    let ret ← wasJustARet deb m.cpu
    if ret then some (dbg, none, ts, m)
    else do
      let call ← wasJustACall deb m.cpu
      if call then do
        let pc := deb.pc + BitVec.ofNat 16 deb.code.length
        let (_, ts, m) ← runFor (runUntilBrkpt dev search n [pc]) fps ts m
        some (none, some deb, ts, m)
      else rest m

/-- `DebugRunIrq` (`thread.rs` 205). -/
def runToIrq (fps n : Nat) (m : Machine Q D) : Option (Option CpuDebug × Nat × Machine Q D) :=
  runFor (debugRuntoInt dev n) fps 0 m

end Machine
end Z80.Ral
