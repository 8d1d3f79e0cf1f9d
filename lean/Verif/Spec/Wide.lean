import Verif.Spec.Alu

/-!
# Specification: arithmetic with numbers of many bytes

The usual loops for adding and subtracting numbers of any number of bytes, the least significant byte first, in binary
and in packed decimal.
-/

namespace Z80.Spec.Wide

/-- The bytes are in the memory from the address on. -/
def Code (m : U16 → U8) : U16 → List U8 → Prop
  | _, [] => True
  | p, x :: l => m p = x ∧ Code m (p + 1) l

/-- The loop: the number at HL is added to, or subtracted from, the number at DE, which has as many bytes as B says.
```
loop: LD A,(DE)
      ADC A,(HL)   or SBC A,(HL)
      DAA          in decimal only
      LD (DE),A
      INC HL
      INC DE
      DJNZ loop
      HALT
``` -/
def routine (sub dec : Bool) : List U8 :=
  0x1A :: (if sub then 0x9E else 0x8E) ::
    if dec then [0x27, 0x12, 0x23, 0x13, 0x10, 0xF8, 0x76] else [0x12, 0x23, 0x13, 0x10, 0xF9, 0x76]

/-- The number of values of a byte. -/
def weight (dec : Bool) : Nat := if dec then 100 else 256

/-- The value of a byte. -/
def value (dec : Bool) (x : U8) : Nat := if dec then x.toNat / 16 * 10 + x.toNat % 16 else x.toNat

/-- In decimal there are bytes without a value. -/
def Proper (dec : Bool) (x : U8) : Prop := dec = true → x.toNat / 16 < 10 ∧ x.toNat % 16 < 10

/-- The number of `k` bytes at an address. -/
def number (dec : Bool) (m : U16 → U8) : U16 → Nat → Nat
  | _, 0 => 0
  | p, k + 1 => value dec (m p) + weight dec * number dec m (p + 1) k

/-- All bytes of a number have a value. -/
def ProperAt (dec : Bool) (m : U16 → U8) (p : U16) (n : Nat) : Prop := ∀ i, i < n → Proper dec (m (p + BitVec.ofNat 16 i))

/-- The number of times a loop that ends with `DJNZ` is gone through. -/
def passes (b : U8) : Nat := if b = 0 then 256 else b.toNat

/-- Where the result is stored are neither the program nor bytes of the other number that are still needed (it may be the
same number). -/
def Apart (p src dst : U16) (len n : Nat) : Prop :=
  (∀ i j, i < n → j < len → dst + BitVec.ofNat 16 i ≠ p + BitVec.ofNat 16 j) ∧
  (∀ i j, i < j → j < n → dst + BitVec.ofNat 16 i ≠ src + BitVec.ofNat 16 j)

/-- T-states of one round. -/
def roundTime (dec : Bool) : Nat := 7 + 7 + (if dec then 4 else 0) + 7 + 6 + 6 + 13

end Z80.Spec.Wide
