import Verif.Spec.Machine

/-!
# Specification: control state

What an executed opcode does to the interrupt flip-flops, the interrupt mode, the halt state,
the pending prefix and the registers I and R, from the bytes of the opcode alone.
-/

namespace Z80.Spec

/-- Control state visible to the programmer. -/
structure Ctl where
  i : U8
  r : U8
  iff1 : Bool
  iff2 : Bool
  im : Nat
  halted : Bool
  ei : Bool
  idx : Ix
deriving DecidableEq, Repr

/-- The control state among all registers. -/
def Regs.ctl (s : Regs) : Ctl := ⟨s.i, s.r, s.iff1, s.iff2, s.im, s.halted, s.ei, s.idx⟩

/-- R after `n` M1 cycles: seven bits count, the top bit stays. -/
def refresh (r : U8) (n : Nat) : U8 :=
  BitVec.ofNat 8 (r.toNat / 128 * 128 + (r.toNat + n) % 128)

/-- Effect of the byte following ED; `a` is the accumulator. -/
def controlEd (c a : U8) (k : Ctl) : Ctl :=
  if c = 0x46 ∨ c = 0x4E ∨ c = 0x66 ∨ c = 0x6E then { k with im := 0 }
  else if c = 0x56 ∨ c = 0x76 then { k with im := 1 }
  else if c = 0x5E ∨ c = 0x7E then { k with im := 2 }
  else if c = 0x47 then { k with i := a }
  else if c = 0x4F then { k with r := a }
  else if c &&& 0xC7 = 0x45 then { k with iff1 := k.iff2 }
  else k

/-- Effect of an opcode byte; `ops` are the opcode bytes fetched after it. -/
def control (code : U8) (ops : List U8) (a : U8) (k : Ctl) : Ctl :=
  let k := { k with idx := .hl, r := refresh k.r ops.length }
  if code = 0xDD then { k with idx := .ix }
  else if code = 0xFD then { k with idx := .iy }
  else if code = 0x76 then { k with halted := true }
  else if code = 0xF3 then { k with iff1 := false, iff2 := false }
  else if code = 0xFB then { k with iff1 := true, iff2 := true, ei := true }
  else if code = 0xED then controlEd (ops.headD 0) a k
  else k

/-- How many more opcode bytes are fetched after `code`, when the pending prefix is `x`. -/
def moreOpcodes (x : Ix) (code : U8) : Nat :=
  if code = 0xED ∨ (code = 0xCB ∧ x = .hl) then 1 else 0

end Z80.Spec
