import Verif.Model.Host
import Verif.Model.Run
import Verif.Model.RalMemory
import Verif.Model.RalBoard

/-!
# The example computer (`/repo/examples/ral1243/src/{clock,bus,runner,lib}.rs`)

The processor calls the clock and the bus as a host. A panic of a device or of the memory cannot end the program of
calls in the model: instead the bus is `none` from then on, and what it answers does not matter. Panics of the runner
and loops that do not end within the bounds given to them are `none` too.
-/

namespace Z80.Ral

/-- The host of the computer: `Timestamp` and `Limit` are `u32`, `WrIoBreak` and `RetiBreak` are `()`. -/
abbrev ralSig : Sig := tsSig 32 Unit Unit

/-- `TClock` as `Clock` (`clock.rs` 55-100) next to a bus. It differs from `TsCounter` in what `add_irq` and `add_io`
answer: the end of the cycle. -/
def tClock {B : Type} (bus : Bus ralSig B) : Handler ralSig (BitVec 32 × B)
  | .addIrq _, (t, b) => (t + BitVec.ofNat 32 IRQ_ACK_CYCLE_TS, (t + BitVec.ofNat 32 IRQ_ACK_CYCLE_TS, b))
  | .addIo _, (t, b) => (t + BitVec.ofNat 32 IO_CYCLE_TS, (t + BitVec.ofNat 32 IO_CYCLE_TS, b))
  | r, s => tsHost bus r s

/-- `Bus` (`bus.rs` 61-67). -/
structure Boards (D : Type) where
  mask : U16
  bits : U16
  device : D
  memory : Memory

/-- The answers of a bus that has panicked. -/
def silent : (r : Req ralSig) → r.Ans
  | .isPastLimit _ => false
  | .addIrq _ => 0
  | .addNoMreq _ _ => ()
  | .addM1 _ => 0
  | .addMreq _ => 0
  | .addIo _ => 0
  | .addWait _ _ => ()
  | .asTimestamp => 0
  | .readIo _ _ => (0, none)
  | .writeIo _ _ _ => (none, none)
  | .isIrq _ => false
  | .irqData _ _ => (0, none)
  | .reti _ _ => none
  | .readMem _ _ => 0
  | .readMem16 _ _ => 0
  | .readOpcode _ _ _ => 0
  | .writeMem _ _ _ => ()
  | .readDebug _ => 0
  | .debug _ => ()

namespace Boards
variable {D : Type} (dev : Device D)

/-- `Io for Bus` (`bus.rs` 128-172) and `Memory for Bus` (`bus.rs` 174-201); `none` is a panic. No request of the clock
gets here. -/
def answer : (r : Req ralSig) → Boards D → Option (r.Ans × Boards D)
  | .readIo port ts, s =>
    if port &&& s.mask = s.bits then some ((s.memory.readCtrl, none), s)
    else (dev.readIo port ts.toNat s.device).map fun (v, d) => (v, { s with device := d })
  | .writeIo port data ts, s =>
    if port &&& s.mask = s.bits then some ((none, none), { s with memory := s.memory.writeCtrl data })
    else (dev.writeIo port data ts.toNat s.device).map fun (ws, d) => ((none, ws), { s with device := d })
  | .isIrq ts, s => (dev.isIrq ts.toNat s.device).map fun (b, d) => (b, { s with device := d })
  | .irqData pc ts, s => (dev.irqData pc ts.toNat s.device).map fun (v, d) => (v, { s with device := d })
  | .reti addr ts, s => (dev.reti addr ts.toNat s.device).map fun d => (none, { s with device := d })
  | .readOpcode pc _ ts, s => do
    let d ← dev.m1 ts.toNat s.device
    let (v, m) ← s.memory.readOpcode pc
    some (v, { s with device := d, memory := m })
  | .readMem a _, s => (s.memory.readMem a).map fun v => (v, s)
  | .readMem16 a _, s => (s.memory.readMem16 a).map fun v => (v, s)
  | .writeMem a v _, s => some ((), { s with memory := s.memory.writeMem a v })
  | .readDebug a, s => (s.memory.readDebug a).map fun v => (v, s)
  | r, s => some (silent r, s)

/-- The bus as seen by the processor. -/
def host : Bus ralSig (Option (Boards D)) := fun r s =>
  match s.bind (answer dev r) with
  | some (x, s) => (x, some s)
  | none => (silent r, none)

/-- `BusDevice for Bus` (`bus.rs` 78-97). -/
def onDevice (f : D → Option D) (s : Option (Boards D)) : Option (Boards D) :=
  s.bind fun s => (f s.device).map fun d => { s with device := d }

end Boards

/-- `Ral1243` (`lib.rs` 116-122) with its `FrameRunner` (`runner.rs` 35-39) and `TClock` (`clock.rs` 19). -/
structure Machine (Q D : Type) where
  cur : BitVec 32
  hz : Nat
  limit : Nat
  frame : Nat
  cpu : Cpu Q
  bus : Option (Boards D)

/-- `clock_is_valid` (`runner.rs` 55-57); the products and the remainder may panic. -/
def clockIsValid (ext hz : Nat) : Option Bool :=
  if 0 < ext ∧ ext * 10 < 2 ^ 32 then some (hz % (ext * 2) == 0 && decide (hz ≥ ext * 10)) else none

namespace Machine
variable {Q D : Type} [Flavour Q] (dev : Device D)

/-- `FrameRunner::start` (`runner.rs` 89-96). -/
def start (m : Machine Q D) : Machine Q D :=
  let cur := BitVec.ofNat 32 m.hz
  { m with cur := cur, cpu := m.cpu.reset, bus := Boards.onDevice (dev.reset cur.toNat) m.bus, limit := cur.toNat }

/-- `TClock::check_wrap_second` (`clock.rs` 44-52) and what `step` does about it (`runner.rs` 105-108); the same is
`check_wrap_next_second` (`debug.rs` 418-426). -/
def wrapSecond (m : Machine Q D) : Option (Machine Q D) :=
  if 2 * m.hz < 2 ^ 32 then
    if m.cur.toNat > 2 * m.hz then
      if m.hz ≤ m.limit then
        some { m with cur := m.cur - BitVec.ofNat 32 m.hz, limit := m.limit - m.hz,
                      bus := Boards.onDevice (dev.nextSecond m.hz) m.bus }
      else none
    else some m
  else none

/-- The loop of `step` (`runner.rs` 115-125): `k` bounds the calls of `execute_with_limit`, `n` the iterations of its
loops. -/
def frameLoop (n : Nat) : Nat → Machine Q D → Option (Machine Q D)
  | 0, _ => none
  | k + 1, m =>
    match (executeWithLimit n (BitVec.ofNat 32 m.limit) m.cpu).run (tClock (Boards.host dev)) (m.cur, m.bus) with
    | (some (.ok, cpu), cur, bus) => some { m with cpu, cur, bus }
    | (some (.halt, cpu), cur, bus) => frameLoop n k { m with cpu, cur, bus }
    | _ => none

/-- `FrameRunner::step` (`runner.rs` 100-129): the duration of the frame. -/
def step (n k : Nat) (m : Machine Q D) : Option (Nat × Machine Q D) := do
  let m ← m.wrapSecond dev
  let startTs := m.cur
  let limit ← add32 m.limit m.frame
  let m ← frameLoop dev n k { m with limit := limit }
  some ((m.cur - startTs).toNat, { m with bus := Boards.onDevice (dev.frameEnd m.cur.toNat) m.bus })

/-- `FrameRunner::reset` (`runner.rs` 132-137). -/
def reset (m : Machine Q D) : Machine Q D :=
  { m with cpu := m.cpu.reset, bus := Boards.onDevice (dev.reset m.cur.toNat) m.bus }

/-- `FrameRunner::nmi` (`runner.rs` 141-149): the T-states taken, if it was accepted. -/
def nmi (m : Machine Q D) : Option Nat × Machine Q D :=
  let r := (Z80.nmi m.cpu).run (tClock (Boards.host dev)) (m.cur, m.bus)
  (if r.1.1 then some (r.2.1 - m.cur).toNat else none, { m with cpu := r.1.2, cur := r.2.1, bus := r.2.2 })

end Machine

/-- `MEMORY_PORT_MASK` and `MEMORY_PORT_BITS` (`lib.rs` 83-86). -/
def MEMORY_PORT_MASK : U16 := 0b11111111#16
@[inherit_doc MEMORY_PORT_MASK] def MEMORY_PORT_BITS : U16 := 124#16

/-- `Ral1243::new` (`lib.rs` 198-247), with `ext` for `EXT_HZ`, `fps` for `FRAME_HZ`, `n` for `MAX_PULSES`, the contents
of the ROM and the EX-ROMs to attach. `Chain.new` is the middle part. -/
def Machine.new {Q I O : Type} [Flavour Q] (ext fps n : Nat) (dev : Device (Chain n I O)) (rom : List U8)
    (exroms : List (Nat × Block)) (kilos hz : Nat) (stream : I) (sink : O) : Option (Machine Q (Chain n I O)) := do
  if 1 ≤ kilos ∧ kilos ≤ 48 ∧ hz < 2 ^ 32 then
    let valid ← clockIsValid ext hz
    if valid ∧ 0 < fps then
      let memory ← Memory.new rom kilos
      let (_, memory) ← memory.attachExroms exroms
      let chain ← Chain.new n (hz / ext) stream sink
      some (Machine.start dev
        { cur := BitVec.ofNat 32 hz, hz, limit := 0, frame := hz / fps, cpu := Cpu.default,
          bus := some { mask := MEMORY_PORT_MASK, bits := MEMORY_PORT_BITS, device := chain, memory } })
    else none
  else none

end Z80.Ral
