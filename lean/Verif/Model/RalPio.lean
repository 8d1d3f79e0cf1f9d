import Verif.Model.RalBus

/-!
# Parallel ports of the example computer (`/repo/examples/ral1243/src/pio.rs`, `pio_device.rs`)
-/

namespace Z80.Ral

/-- `PioDevice` (`pio.rs` 18-50), implemented by a type `P`. -/
structure PioDev (P : Type) where
  setFloatingBus : Nat → P → P
  ready : Nat → P → P
  trySample : Nat → P → Option U8 × P
  setBusData : U8 → Nat → P → P
  readyWithData : U8 → Nat → P → P
  wasStrobe : Nat → P → Bool × P

/-- `ChannelMode` (`pio.rs` 52-58). -/
inductive PioMode
  | input
  | output
deriving DecidableEq, Repr

/-- `Channel` (`pio.rs` 60-70). -/
structure PioChannel (P : Type) where
  mode : PioMode
  wantInts : Bool
  intsEnabled : Bool
  intActive : Bool
  readyActive : Bool
  dataIn : U8
  dataOut : U8
  vector : U8
  device : P

namespace PioChannel
variable {P : Type} (p : PioDev P)

/-- `Channel::new` (`pio.rs` 288-300). -/
def new (device : P) : PioChannel P where
  mode := .input
  wantInts := false
  intsEnabled := false
  intActive := false
  readyActive := true
  dataIn := 0
  dataOut := 0
  vector := 0
  device := device

/-- `reset` (`pio.rs` 302-312). -/
def reset (ts : Nat) (c : PioChannel P) : PioChannel P :=
  { c with mode := .input, wantInts := false, intsEnabled := false, intActive := false, readyActive := true,
           dataIn := 0, dataOut := 0, device := p.setFloatingBus ts c.device }

/-- `set_int_active` (`pio.rs` 314-318). -/
def setIntActive (c : PioChannel P) : PioChannel P := { c with intActive := c.intActive || c.intsEnabled }

/-- `m1` (`pio.rs` 320-326). -/
def m1 (c : PioChannel P) : PioChannel P :=
  if c.wantInts then { c with intsEnabled := true, wantInts := false } else c

/-- `check_int` (`pio.rs` 328-347). -/
def checkInt (ts : Nat) (c : PioChannel P) : Bool × PioChannel P :=
  let c := if c.readyActive then
      match c.mode with
      | .input => match p.trySample ts c.device with
        | (some data, d) => { c with device := d, dataIn := data, readyActive := false }.setIntActive
        | (none, d) => { c with device := d }
      | .output => match p.wasStrobe ts c.device with
        | (true, d) => { c with device := d, readyActive := false }.setIntActive
        | (false, d) => { c with device := d }
    else c
  (c.intActive, c)

/-- `read_io` (`pio.rs` 349-367). -/
def readIo (ts : Nat) (c : PioChannel P) : Option (U8 × PioChannel P) :=
  match c.mode with
  | .input =>
    if c.readyActive then
      (add32 ts 3).map fun ts => (c.dataIn, { c with device := p.ready ts c.device })
    else
      (add32 ts 1).map fun ts => (c.dataIn, { c with readyActive := true, device := p.ready ts c.device })
  | .output => some (c.dataOut, c)

/-- `write_io_data` (`pio.rs` 369-390). -/
def writeData (data : U8) (ts : Nat) (c : PioChannel P) : Option (PioChannel P) :=
  let c := { c with dataOut := data }
  match c.mode with
  | .output =>
    let (more, c) := if c.readyActive then
        match p.wasStrobe ts c.device with
        | (true, d) => (1, { c with device := d }.setIntActive)
        | (false, d) => (3, { c with device := d })
      else (1, { c with readyActive := true })
    (add32 ts more).map fun ts => { c with device := p.readyWithData data ts c.device }
  | .input => some c

/-- `write_io_control` (`pio.rs` 392-436); `unimplemented!` panics. -/
def writeControl (data : U8) (ts : Nat) (c : PioChannel P) : Option (PioChannel P) :=
  if data.getLsbD 0 = false then some { c with vector := data }
  else match (data &&& 0b1111#8).toNat with
    | 0b1111 => match (data >>> 6).toNat with
      | 0 => some { c with readyActive := false, device := p.setBusData c.dataOut ts c.device, mode := .output }
      | 1 => some { c with readyActive := true, device := p.setFloatingBus ts c.device, mode := .input }
      | _ => none
    | 0b0111 => none
    | 0b0011 =>
      if data.getLsbD 7 then some { c with wantInts := c.wantInts || !c.intsEnabled }
      else some { c with wantInts := false, intsEnabled := false, intActive := false }
    | _ => some c

end PioChannel

/-- `Pio` (`pio.rs` 72-84). -/
structure Pio (A B D : Type) where
  matchMask : U16
  matchBits : U16
  controlMask : U16
  channelMask : U16
  chA : PioChannel A
  chB : PioChannel B
  ieo : Bool
  chained : D

namespace Pio
variable {A B D : Type} (a : PioDev A) (b : PioDev B) (dev : Device D)

/-- `Pio::new` (`pio.rs` 97-108). -/
def new (x : A) (y : B) (d : D) : Pio A B D where
  matchMask := 0
  matchBits := 0
  controlMask := 1
  channelMask := 2
  chA := .new x
  chB := .new y
  ieo := false
  chained := d

/-- `with_port_bits` (`pio.rs` 132-151); the assertions panic. -/
def withPortBits (mask bits : U16) (channel control : Nat) (s : Pio A B D) : Option (Pio A B D) :=
  if channel ≠ control ∧ channel < 16 ∧ control < 16 ∧ mask &&& bits = bits ∧ mask &&& (1#16 <<< channel) = 0 ∧
      mask &&& (1#16 <<< control) = 0 then
    some { s with matchMask := mask, matchBits := bits, channelMask := 1#16 <<< channel,
                  controlMask := 1#16 <<< control }
  else none

/-- `frame_end` (`pio.rs` 176-180). -/
def frameEnd (ts : Nat) (s : Pio A B D) : Option (Pio A B D) :=
  (dev.frameEnd ts s.chained).map fun d =>
    { s with chA := (s.chA.checkInt a ts).2, chB := (s.chB.checkInt b ts).2, chained := d }

/-- `m1` (`pio.rs` 182-186). -/
def m1 (ts : Nat) (s : Pio A B D) : Option (Pio A B D) :=
  (dev.m1 ts s.chained).map fun d => { s with chA := s.chA.m1, chB := s.chB.m1, chained := d }

/-- `reset` (`pio.rs` 188-193). -/
def reset (ts : Nat) (s : Pio A B D) : Option (Pio A B D) :=
  (dev.reset ts s.chained).map fun d =>
    { s with ieo := false, chA := s.chA.reset a ts, chB := s.chB.reset b ts, chained := d }

/-- `next_second` (`pio.rs` 199-201). -/
def nextSecond (delta : Nat) (s : Pio A B D) : Option (Pio A B D) :=
  (dev.nextSecond delta s.chained).map fun d => { s with chained := d }

/-- `read_io` (`pio.rs` 214-226). -/
def readIo (port : U16) (ts : Nat) (s : Pio A B D) : Option ((U8 × Option U16) × Pio A B D) :=
  if port &&& s.matchMask = s.matchBits then
    if port &&& s.channelMask = 0 then
      (s.chA.readIo a ts).map fun (v, c) => ((v, none), { s with chA := c })
    else
      (s.chB.readIo b ts).map fun (v, c) => ((v, none), { s with chB := c })
  else (dev.readIo port ts s.chained).map fun (v, d) => (v, { s with chained := d })

/-- `write_io` (`pio.rs` 228-242). -/
def writeIo (port : U16) (data : U8) (ts : Nat) (s : Pio A B D) : Option (Option U16 × Pio A B D) :=
  if port &&& s.matchMask = s.matchBits then
    if port &&& s.channelMask = 0 then
      (if port &&& s.controlMask = 0 then s.chA.writeData a data ts else s.chA.writeControl a data ts).map fun c =>
        (none, { s with chA := c })
    else
      (if port &&& s.controlMask = 0 then s.chB.writeData b data ts else s.chB.writeControl b data ts).map fun c =>
        (none, { s with chB := c })
  else (dev.writeIo port data ts s.chained).map fun (v, d) => (v, { s with chained := d })

/-- `is_irq` (`pio.rs` 244-256). -/
def isIrq (ts : Nat) (s : Pio A B D) : Option (Bool × Pio A B D) :=
  if s.ieo then some (false, s)
  else match s.chA.checkInt a ts with
    | (true, c) => some (true, { s with chA := c })
    | (false, c) =>
      let s := { s with chA := c }
      match s.chB.checkInt b ts with
      | (true, c) => some (true, { s with chB := c })
      | (false, c) => (dev.isIrq ts s.chained).map fun (r, d) => (r, { s with chB := c, chained := d })

/-- `irq_data` (`pio.rs` 258-272). -/
def irqData (pc : U16) (ts : Nat) (s : Pio A B D) : Option ((U8 × Option U16) × Pio A B D) :=
  if s.chA.intActive then
    some ((s.chA.vector, none), { s with ieo := true, chA := { s.chA with intActive := false } })
  else if s.chB.intActive then
    some ((s.chB.vector, none), { s with ieo := true, chB := { s.chB with intActive := false } })
  else (dev.irqData pc ts s.chained).map fun (v, d) => (v, { s with chained := d })

/-- `reti` (`pio.rs` 274-282). -/
def reti (pc : U16) (ts : Nat) (s : Pio A B D) : Option (Pio A B D) :=
  if s.ieo then some { s with ieo := false }
  else (dev.reti pc ts s.chained).map fun d => { s with chained := d }

/-- `Pio` as a device in a chain. -/
def device : Device (Pio A B D) where
  reset := reset a b dev
  frameEnd := frameEnd a b dev
  m1 := m1 dev
  nextSecond := nextSecond dev
  readIo := readIo a b dev
  writeIo := writeIo a b dev
  isIrq := isIrq a b dev
  irqData := irqData dev
  reti := reti dev

end Pio

/-! ### Streams and sinks (`pio_device.rs`) -/

/-- `PioInput` (`pio_device.rs` 26-30). -/
structure PioInput (S : Type) where
  source : S
  ready : Bool

/-- `impl PioDevice for PioInput` (`pio_device.rs` 64-88), with the `slurp` of the stream. The methods that are not
implemented are the default ones (`pio.rs` 18-50). -/
def pioInput {S : Type} (slurp : S → Option U8 × S) : PioDev (PioInput S) where
  setFloatingBus _ d := { d with ready := true }
  ready _ d := { d with ready := true }
  trySample _ d :=
    if d.ready then
      match slurp d.source with
      | (some data, s) => (some data, { source := s, ready := false })
      | (none, s) => (none, { d with source := s })
    else (none, d)
  setBusData _ _ d := { d with ready := false }
  readyWithData _ _ d := d
  wasStrobe _ d := (false, d)

/-- `PioOutput` (`pio_device.rs` 32-36). -/
structure PioOutput (S : Type) where
  sink : S
  pending : Option U8

/-- `impl PioDevice for PioOutput` (`pio_device.rs` 90-115), with the `flush` of the sink. -/
def pioOutput {S : Type} (flush : U8 → S → Bool × S) : PioDev (PioOutput S) where
  setFloatingBus _ d := { d with pending := none }
  ready _ d := d
  trySample _ d := (none, d)
  setBusData _ _ d := d
  readyWithData data _ d :=
    match flush data d.sink with
    | (true, s) => { d with sink := s }
    | (false, s) => { sink := s, pending := some data }
  wasStrobe _ d :=
    match d.pending with
    | some data => match flush data d.sink with
      | (true, s) => (true, { sink := s, pending := none })
      | (false, s) => (false, { sink := s, pending := some data })
    | none => (true, d)

end Z80.Ral
