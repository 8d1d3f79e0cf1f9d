import Verif.Spec.Alu

/-!
# Specification: the example of the documentation

The example at the start of the documentation of the crate (`/repo/src/lib.rs` 110-170, the same in
`/repo/examples/embedded/embedded.rs`) calculates a Fibonacci number.
-/

namespace Z80.Spec.Example

/-- The program (`/repo/src/lib.rs` 145-152). -/
def code : List U8 := [
  0x21, 0x00, 0x00, -- 0x0000 LD   HL, 0x0000
  0x11, 0x01, 0x00, -- 0x0003 LD   DE, 0x0001
  0xEB,             -- 0x0006 EX   DE, HL
  0x19,             -- 0x0007 ADD  HL, DE
  0x10, 0xFC,       -- 0x0008 DJNZ 0x0006
  0x76              -- 0x000A HALT
]

/-- The program is in the memory, from address 0 on. -/
def Installed (m : U16 → U8) : Prop := ∀ i, i < 11 → m (BitVec.ofNat 16 i) = code.getD i 0

/-- Fibonacci numbers. -/
def fibonacci : Nat → Nat
  | 0 => 0
  | 1 => 1
  | n + 2 => fibonacci n + fibonacci (n + 1)

/-- The number of times a loop that ends with `DJNZ` is gone through. -/
def rounds (b : U8) : Nat := if b = 0 then 256 else b.toNat

end Z80.Spec.Example
