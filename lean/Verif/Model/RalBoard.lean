import Verif.Model.RalCtc
import Verif.Model.RalPio
import Verif.Model.RalTrigger

/-!
# The devices of the example computer put together (`/repo/examples/ral1243/src/lib.rs`)
-/

namespace Z80.Ral

/-- The state of the devices: `CtcT` with its `PioT` (`lib.rs` 70-78), for a stream `I` and a sink `O`. -/
abbrev Chain (n : Nat) (I O : Type) : Type :=
  Ctc (CtcActive n × CtcActive n) (Pio (PioInput I) (PioOutput O) Unit)

/-- The devices, with `slurp` of the stream and `flush` of the sink. `n` is `MAX_PULSES` and `bound` bounds loops. -/
def board (bound n : Nat) {I O : Type} (slurp : I → Option U8 × I) (flush : U8 → O → Bool × O) :
    Device (Chain n I O) :=
  Ctc.device (ralTriggers bound n) (Pio.device (pioInput slurp) (pioOutput flush) terminator)

/-- The devices as `Ral1243::new` makes them (`lib.rs` 83-101, 222-241), with the period of the external clock. The
input is `PioInput::new` and the output `PioOutput::new` (`pio_device.rs`). -/
def Chain.new (n period : Nat) {I O : Type} (stream : I) (sink : O) : Option (Chain n I O) := do
  let pio ← (Pio.new { source := stream, ready := false } { sink := sink, pending := none } ()).withPortBits
    0b11111100#16 0b00001000#16 1 0
  let c0 ← CtcActive.new n period
  let c2 ← CtcActive.new n period
  (Ctc.new (c0, c2) pio).withPortBits 0b11111100#16 0b00000100#16 1 0

end Z80.Ral
