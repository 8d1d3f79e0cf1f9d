import Verif.Model.Basic

/-!
# `CpuFlags` (`/repo/src/cpu/flags.rs`)

The bit-flags type is modelled by its underlying byte; `insert` is `|||`, `remove m` is
`&&& ~~~m`, `contains m` is `f &&& m = m`.
-/

namespace Z80
namespace F

/-- `/repo/src/cpu/flags.rs` 15. -/
def C : U8 := 0x01#8
/-- `/repo/src/cpu/flags.rs` 17. -/
def N : U8 := 0x02#8
/-- `/repo/src/cpu/flags.rs` 19 (aliases `P`, `V` at 35, 37). -/
def PV : U8 := 0x04#8
/-- `/repo/src/cpu/flags.rs` 21. -/
def X : U8 := 0x08#8
/-- `/repo/src/cpu/flags.rs` 23. -/
def H : U8 := 0x10#8
/-- `/repo/src/cpu/flags.rs` 25. -/
def Y : U8 := 0x20#8
/-- `/repo/src/cpu/flags.rs` 27. -/
def Z : U8 := 0x40#8
/-- `/repo/src/cpu/flags.rs` 29. -/
def S : U8 := 0x80#8
/-- `/repo/src/cpu/flags.rs` 39. -/
def XY : U8 := X ||| Y
/-- `/repo/src/cpu/flags.rs` 41. -/
def HMASK : U8 := H - 1#8

/-- bitflags `contains` (crate `bitflags`; all other bits ignored). -/
def contains (f m : U8) : Bool := f &&& m == m
/-- bitflags `remove`. -/
def remove (f m : U8) : U8 := f &&& ~~~m
/-- bitflags `insert`. -/
def insert (f m : U8) : U8 := f ||| m

/-- `/repo/src/cpu/flags.rs` 51-53. -/
def sf (f : U8) : Bool := contains f S
/-- `/repo/src/cpu/flags.rs` 57-59. -/
def zf (f : U8) : Bool := contains f Z
/-- `/repo/src/cpu/flags.rs` 63-65. -/
def hf (f : U8) : Bool := contains f H
/-- `/repo/src/cpu/flags.rs` 69-71. -/
def pvf (f : U8) : Bool := contains f PV
/-- `/repo/src/cpu/flags.rs` 75-77. -/
def nf (f : U8) : Bool := contains f N
/-- `/repo/src/cpu/flags.rs` 81-83. -/
def cf (f : U8) : Bool := contains f C

/-- The mask `m` if the condition holds, else the empty set: the shape shared by the
`mask_*` functions below. -/
def mask (b : Bool) (m : U8) : U8 := if b then m else 0#8

/-- `u8::count_ones` (Rust core). -/
def countOnes (v : U8) : Nat :=
  (v.getLsbD 0).toNat + (v.getLsbD 1).toNat + (v.getLsbD 2).toNat + (v.getLsbD 3).toNat +
  (v.getLsbD 4).toNat + (v.getLsbD 5).toNat + (v.getLsbD 6).toNat + (v.getLsbD 7).toNat

/-- `/repo/src/cpu/flags.rs` 89-101. -/
def maskCvz (c v z : Bool) : U8 := mask c C ||| mask v PV ||| mask z Z
/-- `/repo/src/cpu/flags.rs` 106-108. -/
def maskSign (res : U8) : U8 := res &&& S
/-- `/repo/src/cpu/flags.rs` 113-120. -/
def maskZero (res : U8) : U8 := mask (res == 0#8) Z
/-- `/repo/src/cpu/flags.rs` 125-132. -/
def maskCarry (c : Bool) : U8 := mask c C
/-- `/repo/src/cpu/flags.rs` 137-144. -/
def maskNf (n : Bool) : U8 := mask n N
/-- `/repo/src/cpu/flags.rs` 149-156. -/
def maskHf (h : Bool) : U8 := mask h H
/-- `/repo/src/cpu/flags.rs` 161-168. -/
def maskHcf (h : Bool) : U8 := mask h (H ||| C)
/-- `/repo/src/cpu/flags.rs` 173-180. -/
def maskPvf (p : Bool) : U8 := mask p PV
/-- `/repo/src/cpu/flags.rs` 185-187. -/
def parity (res : U8) : U8 := maskPvf (countOnes res &&& 1 == 0)
/-- `/repo/src/cpu/flags.rs` 192-194. -/
def maskXY (res : U8) : U8 := res &&& XY
/-- `/repo/src/cpu/flags.rs` 199-201. -/
def maskSXY (res : U8) : U8 := res &&& (S ||| XY)
/-- `/repo/src/cpu/flags.rs` 204-219. -/
def maskBitops (res : U8) (h c : Bool) : U8 :=
  maskSXY res ||| mask (res == 0#8) Z ||| mask h H ||| mask c C |||
    mask (countOnes res &&& 1 == 0) PV

/-- `/repo/src/cpu/flags.rs` 222-229. -/
def maskNhAdd (tgt add : U8) : U8 :=
  mask (((tgt &&& HMASK) + (add &&& HMASK)) &&& H != 0#8) H

/-- `HMASK16` (`/repo/src/cpu/flags.rs` 233, 256, 291). -/
def HMASK16 : U16 := 0x1000#16 - 1#16
/-- `H16` (`/repo/src/cpu/flags.rs` 257, 292). -/
def H16 : U16 := 0x1000#16

/-- `/repo/src/cpu/flags.rs` 232-240. -/
def maskNhAdd16 (tgt add : U16) : U8 :=
  mask (((tgt &&& HMASK16) + (add &&& HMASK16)) &&& H16 != 0#16) H

/-- `u8::from(bool)`. -/
def b8 (b : Bool) : U8 := if b then 1#8 else 0#8
/-- `u16::from(bool)`. -/
def b16 (b : Bool) : U16 := if b then 1#16 else 0#16

/-- `/repo/src/cpu/flags.rs` 243-252. -/
def maskNhAdc (tgt add : U8) (c : Bool) : U8 :=
  let t := (tgt &&& HMASK) + (add &&& HMASK)
  mask (t &&& H != 0#8 || ((t &&& HMASK) + b8 c) &&& H != 0#8) H

/-- `/repo/src/cpu/flags.rs` 255-265. -/
def maskNhAdc16 (tgt add : U16) (c : Bool) : U8 :=
  let t := (tgt &&& HMASK16) + (add &&& HMASK16)
  mask (t &&& H16 != 0#16 || ((t &&& HMASK16) + b16 c) &&& H16 != 0#16) H

/-- `/repo/src/cpu/flags.rs` 268-275. -/
def maskNhSub (tgt sub : U8) : U8 :=
  mask (((tgt &&& HMASK) - (sub &&& HMASK)) &&& H != 0#8) H ||| N

/-- `/repo/src/cpu/flags.rs` 278-287. -/
def maskNhSbc (tgt sub : U8) (c : Bool) : U8 :=
  let t := (tgt &&& HMASK) - (sub &&& HMASK)
  mask (t &&& H != 0#8 || ((t &&& HMASK) - b8 c) &&& H != 0#8) H ||| N

/-- `/repo/src/cpu/flags.rs` 290-300. -/
def maskNhSbc16 (tgt sub : U16) (c : Bool) : U8 :=
  let t := (tgt &&& HMASK16) - (sub &&& HMASK16)
  mask (t &&& H16 != 0#16 || ((t &&& HMASK16) - b16 c) &&& H16 != 0#16) H ||| N

/-- `/repo/src/cpu/flags.rs` 303-305. -/
def maskBlockOpXY (n : U8) : U8 := (n &&& X) ||| ((n <<< 4) &&& Y)

end F
end Z80
