import Verif.Model.Basic

/-!
# Devices of the example computer (`/repo/examples/ral1243/src/bus.rs`)

Timestamps are `u32` in the computer; sums that do not fit panic. Panics, and loops that do not end within the bound
given to them, are `none`.
-/

namespace Z80.Ral

/-- `u32` addition that panics on overflow. -/
def add32 (a b : Nat) : Option Nat := if a + b < 2 ^ 32 then some (a + b) else none

/-- The methods of `BusDevice` and of `Io<WrIoBreak=(), RetiBreak=()>` of a type `D` (`bus.rs` 33-50, `src/host.rs`).
`write_io` and `reti` of all devices answer `None` for a break, so breaks are left out. A `u16` next to a result is a
number of wait states. -/
structure Device (D : Type) where
  reset : Nat → D → Option D
  frameEnd : Nat → D → Option D
  m1 : Nat → D → Option D
  nextSecond : Nat → D → Option D
  readIo : U16 → Nat → D → Option ((U8 × Option U16) × D)
  writeIo : U16 → U8 → Nat → D → Option (Option U16 × D)
  isIrq : Nat → D → Option (Bool × D)
  irqData : U16 → Nat → D → Option ((U8 × Option U16) × D)
  reti : U16 → Nat → D → Option D

/-- `Terminator` (`bus.rs` 15-19, 203-251): the end of the chain. -/
def terminator : Device Unit where
  reset _ d := some d
  frameEnd _ d := some d
  m1 _ d := some d
  nextSecond _ d := some d
  readIo _ _ d := some ((0xFF#8, none), d)
  writeIo _ _ _ d := some (none, d)
  isIrq _ d := some (false, d)
  irqData _ _ d := some ((0xFF#8, none), d)
  reti _ _ d := some d

end Z80.Ral
