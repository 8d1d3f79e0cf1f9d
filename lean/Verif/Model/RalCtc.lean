import Verif.Model.RalBus

/-!
# Counter/timer of the example computer (`/repo/examples/ral1243/src/ctc.rs`)

The types of the four triggers are parameters in Rust, and two triggers may share cells. Here the four have one common
state `W`, and each method gets the number of the channel.
-/

namespace Z80.Ral

/-- `CtcTrigger` (`ctc.rs` 16-30) of the four channels. `bound` bounds the loop that skips edges. -/
structure Triggers (W : Type) where
  bound : Nat
  nextClkTrg : Fin 4 → Bool → Nat → W → Option (Except Nat Nat × W)
  purge : Fin 4 → Nat → W → Option (Nat × W)
  pulse : Fin 4 → Nat → W → Option W
  nextSecond : Fin 4 → Nat → W → Option W

/-- `Prescaler` (`ctc.rs` 32-45). -/
inductive Prescaler
  | x256
  | x16
deriving DecidableEq, Repr

/-- `to_ts_factor` (`ctc.rs` 40-45): units counted off in a T-state, of which there are 256 in a count. -/
def Prescaler.factor : Prescaler → Nat
  | .x256 => 1
  | .x16 => 16

/-- `ChannelMode` (`ctc.rs` 47-50). -/
inductive CtcMode
  | timer
  | counter
deriving DecidableEq, Repr

/-- `Channel` without its trigger (`ctc.rs` 52-67). -/
structure CtcChannel where
  prescaler : Prescaler
  mode : CtcMode
  hint : Nat
  lastTs : Option Nat
  extTs : Option Nat
  internal : Nat
  restart : Option U8
  current : U8
  awaiting : Bool
  extTrigger : Bool
  intsEnabled : Bool
  intActive : Bool
  rising : Bool
deriving DecidableEq, Repr

namespace CtcChannel
variable {W : Type} (t : Triggers W) (i : Fin 4)

/-- `Channel::new` (`ctc.rs` 400-417). -/
def new : CtcChannel where
  prescaler := .x256
  mode := .timer
  hint := 0
  lastTs := none
  extTs := none
  internal := 256
  restart := none
  current := 0
  awaiting := false
  extTrigger := false
  intsEnabled := false
  intActive := false
  rising := false

/-- `set_int_active` (`ctc.rs` 423-429). -/
def setIntActive (c : CtcChannel) : CtcChannel :=
  { c with intActive := c.intActive || c.intsEnabled, hint := 0 }

/-- `start_timer` (`ctc.rs` 574-579). -/
def startTimer (ts : Nat) (c : CtcChannel) : Option CtcChannel :=
  (add32 ts 1).map fun start => { c with lastTs := some start, hint := start }

/-- `downcount_by_one` (`ctc.rs` 562-572). -/
def downcount (restart : U8) (ts : Nat) (c : CtcChannel) (w : W) : Option (Bool × CtcChannel × W) :=
  let c := { c with current := c.current - 1 }
  if c.current = 0 then
    let c := { c with current := restart }
    (t.pulse i ts w).map fun w => (true, c.setIntActive, w)
  else some (false, c, w)

/-- The loop in counter mode (`ctc.rs` 604-614). -/
def countLoop (restart : U8) (ts : Nat) : Nat → CtcChannel → W → Option (CtcChannel × W)
  | 0, _, _ => none
  | n + 1, c, w => match t.nextClkTrg i c.rising ts w with
    | none => none
    | some (.ok tgt, w) => match downcount t i restart tgt c w with
      | none => none
      | some (true, c, w) => some (c, w)
      | some (false, c, w) => countLoop restart ts n c w
    | some (.error hint, w) => some ({ c with hint := hint }, w)

/-- The loop that counts off a running timer (`ctc.rs` 637-643): what remains to be counted off, the counter, the time
of the last pulse. -/
def timerLoop (restart factor : Nat) : Nat → Nat → Nat → Nat → CtcChannel → W →
    Option (Nat × Nat × Nat × CtcChannel × W)
  | 0, _, _, _, _, _ => none
  | n + 1, delta, counter, pulseTs, c, w =>
    if delta ≥ counter then
      match add32 pulseTs (counter / factor) with
      | none => none
      | some p => match t.pulse i p w with
        | none => none
        | some w => timerLoop restart factor n (delta - counter) restart p c.setIntActive w
    else some (delta, counter, pulseTs, c, w)

/-- The counter of a timer in units of 1/256 of a count (`ctc.rs` 625-627). -/
def units (c : CtcChannel) : Nat := (c.current - 1).toNat * 256 + c.internal

/-- The units of a time constant, of which 0 is 256 (`ctc.rs` 633-636). -/
def reload (restart : U8) : Nat := (if restart = 0 then 256 else restart.toNat) * 256

/-- A running timer (`ctc.rs` 616-667). The product of two `u32` panics when it does not fit. -/
def runTimer (restart : U8) (last ts : Nat) (c : CtcChannel) (w : W) : Option (CtcChannel × W) :=
  match t.purge i ts w with
  | none => none
  | some (_, w) =>
    if ts > last then
      let factor := c.prescaler.factor
      let delta := (ts - last) * factor
      if delta < 2 ^ 32 then
        match timerLoop t i (reload restart) factor (delta + 2) delta c.units last c w with
        | none => none
        | some (delta, counter, pulseTs, c, w) =>
          let counter := counter - delta
          match (if pulseTs ≠ last then some 0 else add32 ts (counter / factor)) with
          | none => none
          | some hint =>
            let c := { c with hint := hint }
            let c := if counter % 256 = 0 then
                { c with internal := 256, current := BitVec.ofNat 8 (counter / 256) }
              else
                { c with internal := counter % 256, current := BitVec.ofNat 8 (counter / 256) + 1 }
            some ({ c with lastTs := some ts }, w)
      else none
    else (add32 last 1).map fun hint => ({ c with hint := hint }, w)

/-- The loop of a timer that waits for its trigger (`ctc.rs` 669-683). -/
def triggerLoop (trig ts : Nat) : Nat → CtcChannel → W → Option (CtcChannel × W)
  | 0, _, _ => none
  | n + 1, c, w => match t.nextClkTrg i c.rising ts w with
    | none => none
    | some (.ok tgt, w) =>
      if tgt ≥ trig then (startTimer tgt c).map fun c => (c, w) else triggerLoop trig ts n c w
    | some (.error hint, w) => some ({ c with hint := hint }, w)

/-- `process` (`ctc.rs` 600-690). -/
def process (ts : Nat) (c : CtcChannel) (w : W) : Option (CtcChannel × W) :=
  let idle := (t.purge i ts w).map fun (hint, w) => ({ c with hint := hint }, w)
  match c.restart, c.mode with
  | some restart, .counter => countLoop t i restart ts 257 c w
  | some restart, .timer => match c.lastTs, c.extTs with
    | some last, _ => runTimer t i restart last ts c w
    | none, some trig => triggerLoop t i trig ts t.bound c w
    | none, none => idle
  | none, _ => idle

/-- `reset` (`ctc.rs` 436-447). -/
def reset (ts : Nat) (c : CtcChannel) (w : W) : Option (CtcChannel × W) :=
  (process t i ts c w).map fun (c, w) =>
    ({ c with hint := 0, restart := none, lastTs := none, extTs := none, internal := 256, mode := .timer,
              awaiting := false, intsEnabled := false, intActive := false }, w)

/-- `next_second` (`ctc.rs` 449-464). -/
def nextSecond (delta : Nat) (c : CtcChannel) (w : W) : Option (CtcChannel × W) :=
  match (match c.lastTs with
    | some ts => if ts ≥ delta then some (some (ts - delta)) else none
    | none => some none) with
  | none => none
  | some lastTs =>
    (t.nextSecond i delta w).map fun w =>
      ({ c with lastTs, extTs := c.extTs.map (· - delta), hint := c.hint - delta }, w)

/-- `read_counter` (`ctc.rs` 466-469). -/
def readCounter (ts : Nat) (c : CtcChannel) (w : W) : Option (U8 × CtcChannel × W) :=
  (process t i ts c w).map fun (c, w) => (c.current, c, w)

/-- `clk_trg_edge_changed` (`ctc.rs` 581-598). -/
def edgeChanged (ts : Nat) (c : CtcChannel) (w : W) : Option (CtcChannel × W) :=
  match c.restart, c.mode with
  | some restart, .counter => (downcount t i restart ts c w).map Prod.snd
  | some _, .timer => match c.lastTs, c.extTs with
    | none, some trig => if ts ≥ trig then (startTimer ts c).map fun c => (c, w) else some (c, w)
    | _, _ => some (c, w)
  | none, _ => some (c, w)

/-- The time constant (`ctc.rs` 474-495). -/
def writeConstant (data : U8) (ts : Nat) (c : CtcChannel) : Option CtcChannel :=
  let c := { c with awaiting := false, current := if c.restart.isNone then data else c.current,
                    restart := some data }
  match c.mode, c.lastTs with
  | .timer, none => if c.extTrigger then some { c with extTs := some ts } else startTimer ts c
  | _, _ => some c

/-- A control word up to the edge (`ctc.rs` 496-547). -/
def control (data : U8) (ts : Nat) (c : CtcChannel) : Option CtcChannel := do
  let c := if data.getLsbD 1 then { c with restart := none, lastTs := none, extTs := none, internal := 256 } else c
  let c := if data.getLsbD 2 then { c with awaiting := true } else c
  let c := { c with prescaler := if data.getLsbD 5 then .x256 else .x16 }
  let c := if data.getLsbD 7 then { c with intsEnabled := true } else { c with intActive := false, intsEnabled := false }
  let c ← if data.getLsbD 6 then
      some (if c.mode = .timer then { c with lastTs := none, extTs := none, mode := .counter } else c)
    else if c.mode = .counter then
      (if c.restart.isSome && !c.awaiting then
          if data.getLsbD 3 then some { c with extTs := some ts } else startTimer ts c
        else some c).map fun c => { c with mode := .timer }
    else some c
  if c.mode = .timer then
    if data.getLsbD 3 then some { c with extTrigger := true }
    else if c.extTrigger then
      (if c.lastTs.isNone && c.restart.isSome && !c.awaiting then startTimer ts c else some c).map fun c =>
        { c with extTs := none, extTrigger := false }
    else some c
  else some c

/-- `write_control` (`ctc.rs` 471-560); `false` for a vector. -/
def writeControl (data : U8) (ts : Nat) (c : CtcChannel) (w : W) : Option (Bool × CtcChannel × W) := do
  let (c, w) ← process t i ts c w
  if c.awaiting then
    let c ← writeConstant data ts c
    some (true, c, w)
  else if data.getLsbD 0 then
    let c ← control data ts c
    if c.rising ≠ data.getLsbD 4 then
      let (c, w) ← edgeChanged t i ts { c with rising := data.getLsbD 4 } w
      some (true, c, w)
    else some (true, c, w)
  else some (false, c, w)

end CtcChannel

/-- `Ctc` (`ctc.rs` 69-91). -/
structure Ctc (W D : Type) where
  hint : Nat
  matchMask : U16
  matchBits : U16
  cs0 : U16
  cs1 : U16
  vector : U8
  ch0 : CtcChannel
  ch1 : CtcChannel
  ch2 : CtcChannel
  ch3 : CtcChannel
  ieo : Bool
  triggers : W
  chained : D

namespace Ctc
variable {W D : Type} (t : Triggers W) (dev : Device D)

/-- `Ctc::new` (`ctc.rs` 105-127). -/
def new (w : W) (d : D) : Ctc W D where
  hint := 0
  matchMask := 0
  matchBits := 0
  cs0 := 1
  cs1 := 2
  vector := 0
  ch0 := .new
  ch1 := .new
  ch2 := .new
  ch3 := .new
  ieo := false
  triggers := w
  chained := d

/-- `with_port_bits` (`ctc.rs` 152-171); the assertions panic. -/
def withPortBits (mask bits : U16) (sel1 sel0 : Nat) (s : Ctc W D) : Option (Ctc W D) :=
  if sel1 ≠ sel0 ∧ sel1 < 16 ∧ sel0 < 16 ∧ mask &&& bits = bits ∧ mask &&& (1#16 <<< sel1) = 0 ∧
      mask &&& (1#16 <<< sel0) = 0 then
    some { s with matchMask := mask, matchBits := bits, cs0 := 1#16 <<< sel0, cs1 := 1#16 <<< sel1 }
  else none

/-- `process_channel!` (`ctc.rs` 220-226). -/
def processChannel (i : Fin 4) (force : Bool) (ts : Nat) (c : CtcChannel) (w : W) : Option (CtcChannel × W) :=
  if ts ≥ c.hint || force then c.process t i ts w else some (c, w)

/-- `process_channels` (`ctc.rs` 216-237). -/
def processChannels (ts : Nat) (s : Ctc W D) : Option (Ctc W D) :=
  if ts ≥ s.hint then do
    let force := s.hint == 0
    let (c0, w) ← processChannel t 0 force ts s.ch0 s.triggers
    let (c1, w) ← processChannel t 1 force ts s.ch1 w
    let (c2, w) ← processChannel t 2 force ts s.ch2 w
    let (c3, w) ← processChannel t 3 force ts s.ch3 w
    some { s with ch0 := c0, ch1 := c1, ch2 := c2, ch3 := c3, triggers := w,
                  hint := min (min (min c0.hint c1.hint) c2.hint) c3.hint }
  else some s

/-- `frame_end` (`ctc.rs` 250-253). -/
def frameEnd (ts : Nat) (s : Ctc W D) : Option (Ctc W D) := do
  let s ← s.processChannels t ts
  let d ← dev.frameEnd ts s.chained
  some { s with chained := d }

/-- `m1` (`ctc.rs` 255-258). -/
def m1 (ts : Nat) (s : Ctc W D) : Option (Ctc W D) := do
  let s ← s.processChannels t ts
  let d ← dev.m1 ts s.chained
  some { s with chained := d }

/-- `reset` (`ctc.rs` 260-268). -/
def reset (ts : Nat) (s : Ctc W D) : Option (Ctc W D) := do
  let (c0, w) ← s.ch0.reset t 0 ts s.triggers
  let (c1, w) ← s.ch1.reset t 1 ts w
  let (c2, w) ← s.ch2.reset t 2 ts w
  let (c3, w) ← s.ch3.reset t 3 ts w
  let d ← dev.reset ts s.chained
  some { s with ieo := false, hint := 0, ch0 := c0, ch1 := c1, ch2 := c2, ch3 := c3, triggers := w, chained := d }

/-- `next_second` (`ctc.rs` 274-282). -/
def nextSecond (delta : Nat) (s : Ctc W D) : Option (Ctc W D) := do
  let (c0, w) ← s.ch0.nextSecond t 0 delta s.triggers
  let (c1, w) ← s.ch1.nextSecond t 1 delta w
  let (c2, w) ← s.ch2.nextSecond t 2 delta w
  let (c3, w) ← s.ch3.nextSecond t 3 delta w
  let d ← dev.nextSecond delta s.chained
  some { s with hint := s.hint - delta, ch0 := c0, ch1 := c1, ch2 := c2, ch3 := c3, triggers := w, chained := d }

/-- `read_io` (`ctc.rs` 297-311). -/
def readIo (port : U16) (ts : Nat) (s : Ctc W D) : Option ((U8 × Option U16) × Ctc W D) :=
  if port &&& s.matchMask = s.matchBits then
    if port &&& s.cs1 = 0 then
      if port &&& s.cs0 = 0 then
        (s.ch0.readCounter t 0 ts s.triggers).map fun (v, c, w) => ((v, none), { s with ch0 := c, triggers := w })
      else
        (s.ch1.readCounter t 1 ts s.triggers).map fun (v, c, w) => ((v, none), { s with ch1 := c, triggers := w })
    else
      if port &&& s.cs0 = 0 then
        (s.ch2.readCounter t 2 ts s.triggers).map fun (v, c, w) => ((v, none), { s with ch2 := c, triggers := w })
      else
        (s.ch3.readCounter t 3 ts s.triggers).map fun (v, c, w) => ((v, none), { s with ch3 := c, triggers := w })
  else (dev.readIo port ts s.chained).map fun (v, d) => (v, { s with chained := d })

/-- `write_io` (`ctc.rs` 313-331). -/
def writeIo (port : U16) (data : U8) (ts : Nat) (s : Ctc W D) : Option (Option U16 × Ctc W D) :=
  let vector (word : Bool) (s : Ctc W D) : Option U16 × Ctc W D :=
    (none, if word then s else { s with vector := data &&& 0b11111000#8 })
  if port &&& s.matchMask = s.matchBits then
    if port &&& s.cs1 = 0 then
      if port &&& s.cs0 = 0 then
        (s.ch0.writeControl t 0 data ts s.triggers).map fun (b, c, w) => vector b { s with ch0 := c, triggers := w }
      else
        (s.ch1.writeControl t 1 data ts s.triggers).map fun (b, c, w) => vector b { s with ch1 := c, triggers := w }
    else
      if port &&& s.cs0 = 0 then
        (s.ch2.writeControl t 2 data ts s.triggers).map fun (b, c, w) => vector b { s with ch2 := c, triggers := w }
      else
        (s.ch3.writeControl t 3 data ts s.triggers).map fun (b, c, w) => vector b { s with ch3 := c, triggers := w }
  else (dev.writeIo port data ts s.chained).map fun (v, d) => (v, { s with chained := d })

/-- `is_irq` (`ctc.rs` 333-355). -/
def isIrq (ts : Nat) (s : Ctc W D) : Option (Bool × Ctc W D) :=
  if s.ieo then some (false, s)
  else do
    let s ← s.processChannels t ts
    if s.ch0.intActive || s.ch1.intActive || s.ch2.intActive || s.ch3.intActive then some (true, s)
    else
      let (b, d) ← dev.isIrq ts s.chained
      some (b, { s with chained := d })

/-- `irq_data` (`ctc.rs` 357-384). -/
def irqData (pc : U16) (ts : Nat) (s : Ctc W D) : Option ((U8 × Option U16) × Ctc W D) :=
  let s := { s with ieo := true }
  if s.ch0.intActive then
    some ((s.vector ||| 0#8, none), { s with ch0 := { s.ch0 with intActive := false } })
  else if s.ch1.intActive then
    some ((s.vector ||| 2#8, none), { s with ch1 := { s.ch1 with intActive := false } })
  else if s.ch2.intActive then
    some ((s.vector ||| 4#8, none), { s with ch2 := { s.ch2 with intActive := false } })
  else if s.ch3.intActive then
    some ((s.vector ||| 6#8, none), { s with ch3 := { s.ch3 with intActive := false } })
  else (dev.irqData pc ts s.chained).map fun (v, d) => (v, { s with ieo := false, chained := d })

/-- `reti` (`ctc.rs` 386-394). -/
def reti (pc : U16) (ts : Nat) (s : Ctc W D) : Option (Ctc W D) :=
  if s.ieo then some { s with ieo := false }
  else (dev.reti pc ts s.chained).map fun d => { s with chained := d }

/-- `Ctc` as a device in a chain. -/
def device : Device (Ctc W D) where
  reset := reset t dev
  frameEnd := frameEnd t dev
  m1 := m1 t dev
  nextSecond := nextSecond t dev
  readIo := readIo t dev
  writeIo := writeIo t dev
  isIrq := isIrq t dev
  irqData := irqData dev
  reti := reti dev

end Ctc
end Z80.Ral
