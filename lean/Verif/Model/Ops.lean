import Verif.Model.Flags

/-!
# Arithmetic and logic (`/repo/src/z80/ops.rs`)

`flags: &mut CpuFlags` becomes an argument and a second result. Functions that return a
`(hi, lo)` pair of bytes return a `RegPair`.
-/

namespace Z80
namespace Ops
open F

/-- `ops::add16` (`/repo/src/z80/ops.rs` 19-27). -/
def add16 (val add : U16) (flags : U8) : RegPair × U8 :=
  let rval : U16 := val + add
  let c := BitVec.uaddOverflow val add
  let f := remove flags (XY ||| H ||| N ||| C)
  (.of16 rval, insert f (maskNhAdd16 val add ||| maskXY (hi8 rval) ||| maskCarry c))

/-- `ops::adc16` (`/repo/src/z80/ops.rs` 30-43). -/
def adc16 (val add : U16) (flags : U8) : RegPair × U8 :=
  let cf0 := cf flags
  let resu : BitVec 32 := val.setWidth 32 + add.setWidth 32 + (b16 cf0).setWidth 32
  let c := resu &&& 0x10000#32 != 0#32
  let vali := val + add
  let v := BitVec.saddOverflow val add ^^ BitVec.saddOverflow vali (b16 cf0)
  let rval : U16 := resu.setWidth 16
  let z := rval == 0#16
  (.of16 rval, maskNhAdc16 val add cf0 ||| maskSXY (hi8 rval) ||| maskCvz c v z)

/-- `ops::sbc16` (`/repo/src/z80/ops.rs` 46-59). -/
def sbc16 (val sub : U16) (flags : U8) : RegPair × U8 :=
  let cf0 := cf flags
  let resu : BitVec 32 := val.setWidth 32 - sub.setWidth 32 - (b16 cf0).setWidth 32
  let c := resu &&& 0x10000#32 != 0#32
  let vali := val - sub
  let v := BitVec.ssubOverflow val sub ^^ BitVec.ssubOverflow vali (b16 cf0)
  let rval : U16 := resu.setWidth 16
  let z := rval == 0#16
  (.of16 rval, maskNhSbc16 val sub cf0 ||| maskSXY (hi8 rval) ||| maskCvz c v z)

/-- `ops::add` (`/repo/src/z80/ops.rs` 62-70). The prior flags are not used. -/
def add (val add _flags : U8) : U8 × U8 :=
  let rval := val + add
  let c := BitVec.uaddOverflow val add
  let v := BitVec.saddOverflow val add
  let z := rval == 0#8
  (rval, maskNhAdd val add ||| maskSXY rval ||| maskCvz c v z)

/-- `ops::sub` (`/repo/src/z80/ops.rs` 73-81). -/
def sub (val sub _flags : U8) : U8 × U8 :=
  let rval := val - sub
  let c := BitVec.usubOverflow val sub
  let v := BitVec.ssubOverflow val sub
  let z := rval == 0#8
  (rval, maskNhSub val sub ||| maskSXY rval ||| maskCvz c v z)

/-- `ops::cp` (`/repo/src/z80/ops.rs` 84-92). -/
def cp (val cmp _flags : U8) : U8 :=
  let rval := val - cmp
  let c := BitVec.usubOverflow val cmp
  let v := BitVec.ssubOverflow val cmp
  let z := rval == 0#8
  maskNhSub val cmp ||| maskSign rval ||| maskXY cmp ||| maskCvz c v z

/-- `ops::adc` (`/repo/src/z80/ops.rs` 95-107). -/
def adc (val add flags : U8) : U8 × U8 :=
  let cf0 := cf flags
  let resu : U16 := val.setWidth 16 + add.setWidth 16 + b16 cf0
  let c := resu &&& 0x100#16 != 0#16
  let vali := val + add
  let v := BitVec.saddOverflow val add ^^ BitVec.saddOverflow vali (b8 cf0)
  let rval : U8 := resu.setWidth 8
  let z := rval == 0#8
  (rval, maskNhAdc val add cf0 ||| maskSXY rval ||| maskCvz c v z)

/-- `ops::sbc` (`/repo/src/z80/ops.rs` 110-122). -/
def sbc (val sub flags : U8) : U8 × U8 :=
  let cf0 := cf flags
  let resu : U16 := val.setWidth 16 - sub.setWidth 16 - b16 cf0
  let c := resu &&& 0x100#16 != 0#16
  let vali := val - sub
  let v := BitVec.ssubOverflow val sub ^^ BitVec.ssubOverflow vali (b8 cf0)
  let rval : U8 := resu.setWidth 8
  let z := rval == 0#8
  (rval, maskNhSbc val sub cf0 ||| maskSXY rval ||| maskCvz c v z)

/-- `ops::and` (`/repo/src/z80/ops.rs` 125-129). -/
def and (val arg _flags : U8) : U8 × U8 :=
  let rval := val &&& arg
  (rval, maskBitops rval true false)

/-- `ops::xor` (`/repo/src/z80/ops.rs` 132-136). -/
def xor (val arg _flags : U8) : U8 × U8 :=
  let rval := val ^^^ arg
  (rval, maskBitops rval false false)

/-- `ops::or` (`/repo/src/z80/ops.rs` 139-143). -/
def or (val arg _flags : U8) : U8 × U8 :=
  let rval := val ||| arg
  (rval, maskBitops rval false false)

/-- `ops::inc` (`/repo/src/z80/ops.rs` 146-154). -/
def inc (val flags : U8) : U8 × U8 :=
  let rval := val + 1#8
  let v := BitVec.saddOverflow val 1#8
  let z := rval == 0#8
  (rval, maskNhAdd val 1#8 ||| maskSXY rval ||| maskCvz (cf flags) v z)

/-- `ops::dec` (`/repo/src/z80/ops.rs` 157-165). -/
def dec (val flags : U8) : U8 × U8 :=
  let rval := val - 1#8
  let v := BitVec.ssubOverflow val 1#8
  let z := rval == 0#8
  (rval, maskNhSub val 1#8 ||| maskSXY rval ||| maskCvz (cf flags) v z)

/-- `ops::neg` (`/repo/src/z80/ops.rs` 168-170). -/
def neg (acc flags : U8) : U8 × U8 := sub 0#8 acc flags

/-- `ops::cpl` (`/repo/src/z80/ops.rs` 173-178). -/
def cpl (acc flags : U8) : U8 × U8 :=
  let rval := ~~~acc
  (rval, insert (remove flags XY) (maskXY rval ||| H ||| N))

/-- `ops::ccf` (`/repo/src/z80/ops.rs` 181-185). -/
def ccf (q flags : U8) : U8 :=
  let c := cf flags
  insert (remove flags (XY ||| H ||| N ||| C)) (maskXY q ||| maskHf c ||| maskCarry (!c))

/-- `ops::scf` (`/repo/src/z80/ops.rs` 188-191). -/
def scf (q flags : U8) : U8 :=
  insert (remove flags (XY ||| H ||| N)) (maskXY q ||| C)

/-- `a..=b` range pattern on bytes. -/
def inR (v a b : U8) : Bool := a ≤ v && v ≤ b

/-- First `match` of `ops::daa` (`/repo/src/z80/ops.rs` 201-212); `none` is the
`debug_unreachable_unchecked!()` arm. -/
def daaDiff (cf0 : Bool) (hiN : U8) (hf0 : Bool) (loN : U8) : Option U8 :=
  if !cf0 && inR hiN 0x00 0x90 && !hf0 && inR loN 0x0 0x9 then some 0x00
  else if !cf0 && inR hiN 0x00 0x90 && hf0 && inR loN 0x0 0x9 then some 0x06
  else if !cf0 && inR hiN 0x00 0x80 && inR loN 0xA 0xF then some 0x06
  else if !cf0 && inR hiN 0xA0 0xF0 && !hf0 && inR loN 0x0 0x9 then some 0x60
  else if cf0 && !hf0 && inR loN 0x0 0x9 then some 0x60
  else if cf0 && hf0 && inR loN 0x0 0x9 then some 0x66
  else if cf0 && inR loN 0xA 0xF then some 0x66
  else if !cf0 && inR hiN 0x90 0xF0 && inR loN 0xA 0xF then some 0x66
  else if !cf0 && inR hiN 0xA0 0xF0 && hf0 && inR loN 0x0 0x9 then some 0x66
  else none

/-- Second `match` of `ops::daa` (`/repo/src/z80/ops.rs` 214-221). -/
def daaCf (cf0 : Bool) (hiN loN : U8) : Option Bool :=
  if !cf0 && inR hiN 0x00 0x90 && inR loN 0x0 0x9 then some false
  else if !cf0 && inR hiN 0x00 0x80 && inR loN 0xA 0xF then some false
  else if !cf0 && inR hiN 0x90 0xF0 && inR loN 0xA 0xF then some true
  else if !cf0 && inR hiN 0xA0 0xF0 && inR loN 0x0 0x9 then some true
  else if cf0 then some true
  else none

/-- Third `match` of `ops::daa` (`/repo/src/z80/ops.rs` 223-230). -/
def daaHf (nf0 hf0 : Bool) (loN : U8) : Option Bool :=
  if !nf0 && inR loN 0x0 0x9 then some false
  else if !nf0 && inR loN 0xA 0xF then some true
  else if nf0 && !hf0 then some false
  else if nf0 && hf0 && inR loN 0x6 0xF then some false
  else if nf0 && hf0 && inR loN 0x0 0x5 then some true
  else none

/-- `ops::daa` (`/repo/src/z80/ops.rs` 194-239); `none` if an arm declared unreachable
is reached. -/
def daa (acc flags : U8) : Option (U8 × U8) := do
  let cf0 := cf flags
  let hf0 := hf flags
  let nf0 := nf flags
  let hiN := acc &&& 0xF0#8
  let loN := acc &&& 0x0F#8
  let diff ← daaDiff cf0 hiN hf0 loN
  let c ← daaCf cf0 hiN loN
  let h ← daaHf nf0 hf0 loN
  let res := if nf0 then acc - diff else acc + diff
  return (res, maskBitops res h c ||| maskNf nf0)

/-- `ops::rlca` (`/repo/src/z80/ops.rs` 242-248). -/
def rlca (acc flags : U8) : U8 × U8 :=
  let acc := acc.rotateLeft 1
  let cflag := acc &&& 1#8
  (acc, insert (remove flags (XY ||| H ||| N ||| C)) (maskXY acc ||| cflag))

/-- `ops::rrca` (`/repo/src/z80/ops.rs` 251-257). -/
def rrca (acc flags : U8) : U8 × U8 :=
  let cflag := acc &&& 1#8
  let acc := acc.rotateRight 1
  (acc, insert (remove flags (XY ||| H ||| N ||| C)) (maskXY acc ||| cflag))

/-- `ops::rla` (`/repo/src/z80/ops.rs` 260-267). -/
def rla (acc flags : U8) : U8 × U8 :=
  let acc := acc.rotateLeft 1
  let cflag := acc &&& 1#8
  let acc := (acc &&& ~~~1#8) ||| (flags &&& C)
  (acc, insert (remove flags (XY ||| H ||| N ||| C)) (maskXY acc ||| cflag))

/-- `ops::rra` (`/repo/src/z80/ops.rs` 270-276). -/
def rra (acc flags : U8) : U8 × U8 :=
  let cflag := acc &&& 1#8
  let acc := ((acc &&& ~~~1#8) ||| (flags &&& C)).rotateRight 1
  (acc, insert (remove flags (XY ||| H ||| N ||| C)) (maskXY acc ||| cflag))

/-- `ops::rlc` (`/repo/src/z80/ops.rs` 279-284). -/
def rlc (val _flags : U8) : U8 × U8 :=
  let val := val.rotateLeft 1
  let c := val &&& 1#8 != 0#8
  (val, maskBitops val false c)

/-- `ops::rrc` (`/repo/src/z80/ops.rs` 287-292). -/
def rrc (val _flags : U8) : U8 × U8 :=
  let c := val &&& 1#8 != 0#8
  let val := val.rotateRight 1
  (val, maskBitops val false c)

/-- `ops::rl` (`/repo/src/z80/ops.rs` 295-301). -/
def rl (val flags : U8) : U8 × U8 :=
  let val := val.rotateLeft 1
  let c := val &&& 1#8 != 0#8
  let val := (val &&& ~~~1#8) ||| (flags &&& C)
  (val, maskBitops val false c)

/-- `ops::rr` (`/repo/src/z80/ops.rs` 304-309). -/
def rr (val flags : U8) : U8 × U8 :=
  let c := val &&& 1#8 != 0#8
  let val := ((val &&& ~~~1#8) ||| (flags &&& C)).rotateRight 1
  (val, maskBitops val false c)

/-- `ops::sla` (`/repo/src/z80/ops.rs` 312-317). -/
def sla (val _flags : U8) : U8 × U8 :=
  let c := val &&& 0x80#8 != 0#8
  let val := val <<< 1
  (val, maskBitops val false c)

/-- `ops::sll` (`/repo/src/z80/ops.rs` 320-325). -/
def sll (val _flags : U8) : U8 × U8 :=
  let c := val &&& 0x80#8 != 0#8
  let val := (val <<< 1) ||| 1#8
  (val, maskBitops val false c)

/-- `ops::srl` (`/repo/src/z80/ops.rs` 328-333). -/
def srl (val _flags : U8) : U8 × U8 :=
  let c := val &&& 1#8 != 0#8
  let val := val >>> 1
  (val, maskBitops val false c)

/-- `ops::sra` (`/repo/src/z80/ops.rs` 336-341). -/
def sra (val _flags : U8) : U8 × U8 :=
  let c := val &&& 1#8 != 0#8
  let val := val.sshiftRight 1
  (val, maskBitops val false c)

/-- `ops::rld` (`/repo/src/z80/ops.rs` 344-349): new accumulator, new memory byte, flags. -/
def rld (acc oth flags : U8) : U8 × U8 × U8 :=
  let oth := oth.rotateLeft 4
  let acc' := (acc &&& 0xF0#8) ||| (oth &&& 0x0F#8)
  let oth' := (oth &&& 0xF0#8) ||| (acc &&& 0x0F#8)
  (acc', oth', maskBitops acc' false (cf flags))

/-- `ops::rrd` (`/repo/src/z80/ops.rs` 352-357). -/
def rrd (acc oth flags : U8) : U8 × U8 × U8 :=
  let acc' := (acc &&& 0xF0#8) ||| (oth &&& 0x0F#8)
  let oth' := (oth &&& 0xF0#8) ||| (acc &&& 0x0F#8)
  let oth'' := oth'.rotateRight 4
  (acc', oth'', maskBitops acc' false (cf flags))

/-- `ops::bit_mp` (`/repo/src/z80/ops.rs` 373-381). -/
def bitMp (n : Nat) (val b35 flags : U8) : U8 :=
  let res := val &&& (1#8 <<< n)
  maskSign res ||| maskXY b35 ||| H ||| (flags &&& C) ||| mask (res == 0#8) (Z ||| PV)

/-- `ops::bit` (`/repo/src/z80/ops.rs` 361-369). -/
def bit (n : Nat) (val flags : U8) : U8 :=
  let res := val &&& (1#8 <<< n)
  maskSign res ||| maskXY val ||| H ||| (flags &&& C) ||| mask (res == 0#8) (Z ||| PV)

/-- `ops::res` (`/repo/src/z80/ops.rs` 384). -/
def res (b : Nat) (v : U8) : U8 := ~~~(1#8 <<< b) &&& v

/-- `ops::set` (`/repo/src/z80/ops.rs` 387). -/
def set (b : Nat) (v : U8) : U8 := (1#8 <<< b) ||| v

/-- `ops::ld_a_ir` (`/repo/src/z80/ops.rs` 390-392). -/
def ldAIr (ir : U8) (iff2 : Bool) (flags : U8) : U8 :=
  maskSXY ir ||| maskZero ir ||| maskPvf iff2 ||| (flags &&& C)

/-- `ops::io` (`/repo/src/z80/ops.rs` 395-397). -/
def io (val flags : U8) : U8 := maskBitops val false (cf flags)

/-- `ops::ldx` (`/repo/src/z80/ops.rs` 400-405). -/
def ldx (acc val : U8) (bcIsZero : Bool) (flags : U8) : U8 :=
  let n := val + acc
  insert (remove flags (H ||| XY ||| PV ||| N)) (maskBlockOpXY n ||| maskPvf (!bcIsZero))

/-- `ops::cpx` (`/repo/src/z80/ops.rs` 408-420). -/
def cpx (acc cmp : U8) (bcIsZero : Bool) (flags : U8) : Bool × U8 :=
  let r := acc - cmp
  let bits := maskNhSub acc cmp ||| maskSign r ||| maskZero r ||| maskPvf (!bcIsZero)
  let n := r - b8 (hf bits)
  (bcIsZero || r == 0#8, bits ||| maskBlockOpXY n ||| (flags &&& C))

/-- `ops::iox` (`/repo/src/z80/ops.rs` 423-435). -/
def iox (io b m _flags : U8) : U8 :=
  let k := io + m
  let hcf := BitVec.uaddOverflow io m
  let n := io &&& 0x80#8 != 0#8
  maskSXY b ||| maskZero b ||| maskNf n ||| maskHcf hcf ||| parity ((k &&& 7#8) ^^^ b)

end Ops
end Z80
