import Verif.Spec.Decode

/-!
# Specification of arithmetic and flags

Written from the documentation of the processor, in terms of natural and integer arithmetic.
It uses none of the definitions that model the crate except the byte and word types.
-/

namespace Z80.Spec

/-- The eight bits of register F. -/
structure Fl where
  s : Bool
  z : Bool
  y : Bool
  h : Bool
  x : Bool
  pv : Bool
  n : Bool
  c : Bool
deriving DecidableEq, Repr

/-- The flags as the byte stored in F: S is bit 7, C is bit 0. -/
def Fl.byte (f : Fl) : U8 :=
  BitVec.ofNat 8 (128 * f.s.toNat + 64 * f.z.toNat + 32 * f.y.toNat + 16 * f.h.toNat +
    8 * f.x.toNat + 4 * f.pv.toNat + 2 * f.n.toNat + f.c.toNat)

/-- The flags stored in a byte. -/
def Fl.of (b : U8) : Fl where
  s := b.toNat.testBit 7
  z := b.toNat.testBit 6
  y := b.toNat.testBit 5
  h := b.toNat.testBit 4
  x := b.toNat.testBit 3
  pv := b.toNat.testBit 2
  n := b.toNat.testBit 1
  c := b.toNat.testBit 0

/-- Number of one bits. -/
def ones (r : U8) : Nat := ((List.range 8).filter fun i => r.toNat.testBit i).length

/-- Even parity. -/
def parityEven (r : U8) : Bool := ones r % 2 = 0

/-- S, Z and the undocumented Y and X taken from a result byte; the rest clear. -/
def Fl.res (r : U8) : Fl where
  s := 128 ≤ r.toNat
  z := r.toNat = 0
  y := r.toNat.testBit 5
  h := false
  x := r.toNat.testBit 3
  pv := false
  n := false
  c := false

/-- `8`-bit addition with carry in: the result and all eight flags. -/
def add8 (a b : U8) (cin : Bool) : U8 × Fl :=
  let r := BitVec.ofNat 8 (a.toNat + b.toNat + cin.toNat)
  (r, { Fl.res r with
    h := 16 ≤ a.toNat % 16 + b.toNat % 16 + cin.toNat
    pv := a.toInt + b.toInt + cin.toNat < -128 || 127 < a.toInt + b.toInt + cin.toNat
    n := false
    c := 256 ≤ a.toNat + b.toNat + cin.toNat })

/-- `8`-bit subtraction with borrow in. -/
def sub8 (a b : U8) (cin : Bool) : U8 × Fl :=
  let r := BitVec.ofInt 8 ((a.toNat : Int) - b.toNat - cin.toNat)
  (r, { Fl.res r with
    h := a.toNat % 16 < b.toNat % 16 + cin.toNat
    pv := a.toInt - b.toInt - cin.toNat < -128 || 127 < a.toInt - b.toInt - cin.toNat
    n := true
    c := a.toNat < b.toNat + cin.toNat })

/-- Comparison: subtraction that keeps only the flags, with Y and X taken from the operand. -/
def cp8 (a b : U8) : Fl :=
  { (sub8 a b false).2 with y := b.toNat.testBit 5, x := b.toNat.testBit 3 }

/-- Increment: as addition of one, carry unchanged. -/
def inc8 (a : U8) (f : Fl) : U8 × Fl := ((add8 a 1 false).1, { (add8 a 1 false).2 with c := f.c })
/-- Decrement: as subtraction of one, carry unchanged. -/
def dec8 (a : U8) (f : Fl) : U8 × Fl := ((sub8 a 1 false).1, { (sub8 a 1 false).2 with c := f.c })

/-- Negation: subtraction from zero. -/
def neg8 (a : U8) : U8 × Fl := sub8 0 a false

/-- `ADD HL,ss`: S, Z and P/V unchanged, Y and X from the high byte of the result. -/
def add16 (a b : U16) (f : Fl) : U16 × Fl :=
  let r := BitVec.ofNat 16 (a.toNat + b.toNat)
  (r, { f with
    y := r.toNat.testBit 13
    h := 4096 ≤ a.toNat % 4096 + b.toNat % 4096
    x := r.toNat.testBit 11
    n := false
    c := 65536 ≤ a.toNat + b.toNat })

/-- `ADC HL,ss`. -/
def adc16 (a b : U16) (cin : Bool) : U16 × Fl :=
  let r := BitVec.ofNat 16 (a.toNat + b.toNat + cin.toNat)
  (r, {
    s := 32768 ≤ r.toNat
    z := r.toNat = 0
    y := r.toNat.testBit 13
    h := 4096 ≤ a.toNat % 4096 + b.toNat % 4096 + cin.toNat
    x := r.toNat.testBit 11
    pv := a.toInt + b.toInt + cin.toNat < -32768 || 32767 < a.toInt + b.toInt + cin.toNat
    n := false
    c := 65536 ≤ a.toNat + b.toNat + cin.toNat })

/-- `SBC HL,ss`. -/
def sbc16 (a b : U16) (cin : Bool) : U16 × Fl :=
  let r := BitVec.ofInt 16 ((a.toNat : Int) - b.toNat - cin.toNat)
  (r, {
    s := 32768 ≤ r.toNat
    z := r.toNat = 0
    y := r.toNat.testBit 13
    h := a.toNat % 4096 < b.toNat % 4096 + cin.toNat
    x := r.toNat.testBit 11
    pv := a.toInt - b.toInt - cin.toNat < -32768 || 32767 < a.toInt - b.toInt - cin.toNat
    n := true
    c := a.toNat < b.toNat + cin.toNat })

/-- The flags of a result with parity: logic, rotates, `IN r,(C)`, `RLD`, `RRD`. -/
def logicFl (r : U8) (h c : Bool) : Fl :=
  { Fl.res r with h := h, pv := parityEven r, c := c }

/-- A byte given by its bits. -/
def ofBits (f : Nat → Bool) : U8 :=
  BitVec.ofNat 8 (((List.range 8).map fun i => if f i then 2 ^ i else 0).sum)

/-- Bitwise AND; half carry set. -/
def and8 (a b : U8) : U8 × Fl :=
  let r := ofBits fun i => a.toNat.testBit i && b.toNat.testBit i
  (r, logicFl r true false)
/-- Bitwise XOR. -/
def xor8 (a b : U8) : U8 × Fl :=
  let r := ofBits fun i => a.toNat.testBit i != b.toNat.testBit i
  (r, logicFl r false false)
/-- Bitwise OR. -/
def or8 (a b : U8) : U8 × Fl :=
  let r := ofBits fun i => a.toNat.testBit i || b.toNat.testBit i
  (r, logicFl r false false)

/-- `CPL`: 255 − A; H and N set, Y and X from the result. -/
def cpl8 (a : U8) (f : Fl) : U8 × Fl :=
  let r := BitVec.ofNat 8 (255 - a.toNat)
  (r, { f with y := r.toNat.testBit 5, h := true, x := r.toNat.testBit 3, n := true })

/-- `SCF`: carry set, H and N clear, Y and X from the byte `q`. -/
def scf8 (q : U8) (f : Fl) : Fl :=
  { f with y := q.toNat.testBit 5, h := false, x := q.toNat.testBit 3, n := false, c := true }
/-- `CCF`: carry inverted, H the old carry, N clear, Y and X from the byte `q`. -/
def ccf8 (q : U8) (f : Fl) : Fl :=
  { f with y := q.toNat.testBit 5, h := f.c, x := q.toNat.testBit 3, n := false, c := !f.c }

/-- The correction added or subtracted by `DAA`. -/
def daaCorrection (a : U8) (h c : Bool) : Nat :=
  (if h || 9 < a.toNat % 16 then 6 else 0) + (if c || 0x99 < a.toNat then 0x60 else 0)

/-- `DAA`. -/
def daa8 (a : U8) (f : Fl) : U8 × Fl :=
  let k := daaCorrection a f.h f.c
  let r := if f.n then BitVec.ofInt 8 ((a.toNat : Int) - k) else BitVec.ofNat 8 (a.toNat + k)
  (r, { Fl.res r with
    h := if f.n then f.h && decide (a.toNat % 16 < 6) else decide (9 < a.toNat % 16)
    pv := parityEven r
    n := f.n
    c := f.c || decide (0x99 < a.toNat) })

/-- Packed decimal: tens digit in the high nibble. -/
def bcd (n : Nat) : U8 := BitVec.ofNat 8 (16 * (n / 10 % 10) + n % 10)




/-- Result byte of a rotate or shift, in natural arithmetic. -/
def Sh.val (k : Sh) (v : U8) (c : Bool) : U8 :=
  let n := v.toNat
  BitVec.ofNat 8 <| match k with
  | .rlc => 2 * n % 256 + n / 128
  | .rrc => n / 2 + 128 * (n % 2)
  | .rl => 2 * n % 256 + c.toNat
  | .rr => n / 2 + 128 * c.toNat
  | .sla => 2 * n % 256
  | .sra => n / 2 + 128 * (n / 128)
  | .sll => 2 * n % 256 + 1
  | .srl => n / 2

/-- Carry out of a rotate or shift: bit 7 to the left, bit 0 to the right. -/
def Sh.carry (k : Sh) (v : U8) : Bool :=
  match k with
  | .rlc | .rl | .sla | .sll => 128 ≤ v.toNat
  | .rrc | .rr | .sra | .srl => v.toNat % 2 = 1

/-- Rotate or shift with the flags of the CB group. -/
def Sh.op (k : Sh) (v : U8) (c : Bool) : U8 × Fl :=
  (k.val v c, logicFl (k.val v c) false (k.carry v))

/-- Accumulator rotate (`RLCA`, `RRCA`, `RLA`, `RRA`): S, Z, P/V unchanged. -/
def Sh.accOp (k : Sh) (a : U8) (f : Fl) : U8 × Fl :=
  let r := k.val a f.c
  (r, { f with y := r.toNat.testBit 5, h := false, x := r.toNat.testBit 3, n := false,
               c := k.carry a })

/-- `BIT b,v` with the byte `q` supplying Y and X. -/
def bit8 (b : Nat) (v q : U8) (c : Bool) : Fl where
  s := b = 7 && v.toNat.testBit 7
  z := !v.toNat.testBit b
  y := q.toNat.testBit 5
  h := true
  x := q.toNat.testBit 3
  pv := !v.toNat.testBit b
  n := false
  c := c

/-- `RES b,v`. -/
def res8 (b : Nat) (v : U8) : U8 := ofBits fun i => i != b && v.toNat.testBit i
/-- `SET b,v`. -/
def set8 (b : Nat) (v : U8) : U8 := ofBits fun i => i == b || v.toNat.testBit i

/-- `RLD`: the low nibble of A, the high and the low nibble of memory rotate to the left. -/
def rld8 (a m : U8) (c : Bool) : U8 × U8 × Fl :=
  let a' := BitVec.ofNat 8 (a.toNat / 16 * 16 + m.toNat / 16)
  let m' := BitVec.ofNat 8 (m.toNat % 16 * 16 + a.toNat % 16)
  (a', m', logicFl a' false c)
/-- `RRD`: the same nibbles rotate to the right. -/
def rrd8 (a m : U8) (c : Bool) : U8 × U8 × Fl :=
  let a' := BitVec.ofNat 8 (a.toNat / 16 * 16 + m.toNat % 16)
  let m' := BitVec.ofNat 8 (a.toNat % 16 * 16 + m.toNat / 16)
  (a', m', logicFl a' false c)

/-- Flags of `IN r,(C)`. -/
def inFl (v : U8) (c : Bool) : Fl := logicFl v false c
/-- Flags of `LD A,I` and `LD A,R`. -/
def ldAIrFl (v : U8) (iff2 c : Bool) : Fl := { Fl.res v with pv := iff2, c := c }

/-- Flags of `LDI` and its family: P/V tells that BC is not zero; Y is bit 1 and X is bit 3 of
A plus the byte transferred. -/
def ldxFl (a v : U8) (bcNZ : Bool) (f : Fl) : Fl :=
  { f with y := (a.toNat + v.toNat).testBit 1, h := false, x := (a.toNat + v.toNat).testBit 3,
           pv := bcNZ, n := false }

/-- Flags of `CPI` and its family: as a comparison, but P/V tells that BC is not zero, the
carry is unchanged, and Y and X are bits 1 and 3 of A − value − half carry. -/
def cpxFl (a v : U8) (bcNZ : Bool) (f : Fl) : Fl :=
  let d := (sub8 a v false)
  let k := d.1 - (if d.2.h then 1#8 else 0#8)
  { d.2 with y := k.toNat.testBit 1, x := k.toNat.testBit 3, pv := bcNZ, c := f.c }

/-- Flags of block input and output: `v` the byte, `b` the new B, `m` the byte added to `v`. -/
def ioxFl (v b m : U8) : Fl :=
  { Fl.res b with
    h := 256 ≤ v.toNat + m.toNat
    pv := parityEven (BitVec.ofNat 8 ((v.toNat + m.toNat) % 8) ^^^ b)
    n := v.toNat.testBit 7
    c := 256 ≤ v.toNat + m.toNat }

end Z80.Spec
