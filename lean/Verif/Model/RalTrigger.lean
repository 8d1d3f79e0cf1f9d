import Verif.Model.RalCtc

/-!
# Triggers of the counter/timer (`/repo/examples/ral1243/src/ctc_trigger.rs`)

An active and a passive trigger share the cells of a pulse collector; here they are one state.
-/

namespace Z80.Ral

/-- `CtcPulse` of `n` cells (`ctc_trigger.rs` 14-31), of which the first `pulses` are in use. -/
structure CtcPulse (n : Nat) where
  ts : Fin n → Nat
  pulses : Nat

/-- `CtcActive` (`ctc_trigger.rs` 33-48) with the collector it shares with a `CtcPassive` (50-55). -/
structure CtcActive (n : Nat) where
  hclock : Nat
  periodTs : Nat
  edgeHigh : Bool
  next : CtcPulse n

/-- `CtcPulse::default` (`ctc_trigger.rs` 25-31). -/
def CtcPulse.new (n : Nat) : CtcPulse n := { ts := fun _ => 0, pulses := 0 }

/-- `CtcPulse::shift` (`ctc_trigger.rs` 133-141). The indices are in range: `i + 1 ≤ count ≤ n - 1`. -/
def CtcPulse.shift {n : Nat} (index : Nat) (p : CtcPulse n) : CtcPulse n :=
  let count := min (n - 1) index
  { ts := fun i => if h : i.val < count then p.ts ⟨i.val + 1, by omega⟩ else p.ts i
    pulses := count }

namespace CtcActive
variable {n : Nat}

/-- `CtcActive::new` (`ctc_trigger.rs` 62-70): panics unless the period is even. -/
def new (n period : Nat) : Option (CtcActive n) :=
  if period % 2 = 0 then some { hclock := period / 2, periodTs := 0, edgeHigh := false, next := .new n } else none

/-- `next_clk_trg` of the active trigger (`ctc_trigger.rs` 82-103). -/
def nextClkTrg (rising : Bool) (ts : Nat) (a : CtcActive n) : Option (Except Nat Nat × CtcActive n) := do
  let next ← add32 a.periodTs a.hclock
  if next ≤ ts then
    let edge := !a.edgeHigh
    if edge = rising then
      some (.ok next, { a with edgeHigh := edge, periodTs := next })
    else
      let next2 ← add32 next a.hclock
      if next2 ≤ ts then some (.ok next2, { a with periodTs := next2 })
      else some (.error next2, { a with edgeHigh := edge, periodTs := next })
  else some (.error next, a)

/-- `purge_clk_trg` of the active trigger (`ctc_trigger.rs` 105-115). -/
def purge (ts : Nat) (a : CtcActive n) : Option (Nat × CtcActive n) := do
  let next ← add32 a.periodTs a.hclock
  if next ≤ ts then
    let next2 ← add32 next a.hclock
    some (next2, { a with periodTs := next, edgeHigh := !a.edgeHigh })
  else some (next, a)

/-- `zc_to_pulse` of the active trigger (`ctc_trigger.rs` 117-125): panics when the collector is full. -/
def pulse (ts : Nat) (a : CtcActive n) : Option (CtcActive n) :=
  if a.next.pulses < n then
    some { a with next := { ts := fun i => if i.val = a.next.pulses then ts else a.next.ts i
                            pulses := a.next.pulses + 1 } }
  else none

/-- `next_second` of the active trigger (`ctc_trigger.rs` 127-129). -/
def nextSecond (delta : Nat) (a : CtcActive n) : CtcActive n := { a with periodTs := a.periodTs - delta }

/-- `next_clk_trg` of the passive trigger (`ctc_trigger.rs` 145-165). The first cell is read if there are pulses; a
collector without cells has none. -/
def nextClkTrg' (rising : Bool) (ts : Nat) (a : CtcActive n) : Option (Except Nat Nat × CtcActive n) :=
  if a.next.pulses ≠ 0 then
    if h : 0 < n then
      let next := a.next.ts ⟨0, h⟩
      if next ≤ ts then
        if rising then some (.ok next, { a with next := a.next.shift (a.next.pulses - 1) })
        else do
          let next2 ← add32 next 2
          if next2 ≤ ts then some (.ok next2, { a with next := a.next.shift (a.next.pulses - 1) })
          else some (.error next2, a)
      else some (.error next, a)
    else none
  else some (.error (2 ^ 32 - 1), a)

/-- The loop of `purge_clk_trg` of the passive trigger (`ctc_trigger.rs` 167-181). -/
def purgeLoop (ts : Nat) : Nat → CtcPulse n → Option (Nat × CtcPulse n)
  | 0, p => some (2 ^ 32 - 1, p)
  | k + 1, p =>
    if h : 0 < n then
      let next := p.ts ⟨0, h⟩
      if next > ts then some (next, p)
      else do
        let next2 ← add32 next 2
        if next2 > ts then some (next2, p) else purgeLoop ts k (p.shift k)
    else none

/-- `purge_clk_trg` of the passive trigger (`ctc_trigger.rs` 167-181). -/
def purge' (ts : Nat) (a : CtcActive n) : Option (Nat × CtcActive n) :=
  (purgeLoop ts a.next.pulses a.next).map fun (hint, p) => (hint, { a with next := p })

/-- `next_second` of the passive trigger (`ctc_trigger.rs` 185-190). -/
def nextSecond' (delta : Nat) (a : CtcActive n) : CtcActive n :=
  { a with next := { a.next with ts := fun i => if i.val < a.next.pulses then a.next.ts i - delta else a.next.ts i } }

end CtcActive

/-- The triggers of the computer (`lib.rs` 73-79, 217-228): channels 0 and 2 are active, 1 and 3 get their pulses. -/
def ralTriggers (bound n : Nat) : Triggers (CtcActive n × CtcActive n) where
  bound := bound
  nextClkTrg i rising ts w := match i with
    | 0 => (w.1.nextClkTrg rising ts).map fun (r, a) => (r, a, w.2)
    | 1 => (w.1.nextClkTrg' rising ts).map fun (r, a) => (r, a, w.2)
    | 2 => (w.2.nextClkTrg rising ts).map fun (r, a) => (r, w.1, a)
    | 3 => (w.2.nextClkTrg' rising ts).map fun (r, a) => (r, w.1, a)
  purge i ts w := match i with
    | 0 => (w.1.purge ts).map fun (r, a) => (r, a, w.2)
    | 1 => (w.1.purge' ts).map fun (r, a) => (r, a, w.2)
    | 2 => (w.2.purge ts).map fun (r, a) => (r, w.1, a)
    | 3 => (w.2.purge' ts).map fun (r, a) => (r, w.1, a)
  pulse i ts w := match i with
    | 0 => (w.1.pulse ts).map fun a => (a, w.2)
    | 2 => (w.2.pulse ts).map fun a => (w.1, a)
    | _ => some w
  nextSecond i delta w := some (match i with
    | 0 => (w.1.nextSecond delta, w.2)
    | 1 => (w.1.nextSecond' delta, w.2)
    | 2 => (w.1, w.2.nextSecond delta)
    | 3 => (w.1, w.2.nextSecond' delta))

end Z80.Ral
