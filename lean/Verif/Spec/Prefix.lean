import Verif.Spec.Timing

/-!
# Specification: DD and FD prefixes

Which opcodes a DD or FD prefix changes, by their bit fields and independent of the decoder.
-/

namespace Z80.Spec

/-- A register field that names H, L or (HL). -/
def hlField (n : Nat) : Bool := n == 4 || n == 5 || n == 6

/-- Opcodes that use HL, H, L or (HL), which a prefix DD or FD replaces by IX or IY and their parts;
`EX DE,HL` and EXX are not affected. CB is included: the instruction following is another one. -/
def indexable (op : U8) : Bool :=
  let n := op.toNat
  match n / 64 with
  | 0 =>
    n == 0x09 || n == 0x19 || n == 0x29 || n == 0x39 ||
    n == 0x21 || n == 0x22 || n == 0x2A || n == 0x23 || n == 0x2B ||
    (hlField (n / 8) && hlField (n % 8))
  | 1 => n != 0x76 && (hlField (n / 8 % 8) || hlField (n % 8))
  | 2 => hlField (n % 8)
  | _ => n == 0xCB || n == 0xE1 || n == 0xE3 || n == 0xE5 || n == 0xE9 || n == 0xF9

/-- The two prefix bytes. -/
def isIxPrefix (op : U8) : Bool := op == 0xDD || op == 0xFD

/-- The register a prefix byte puts in the place of HL. -/
def prefixOf (op : U8) : Ix := if op == 0xDD then .ix else .iy

/-- Registers after a prefix byte, with PC past it: the pending EI has passed, the CPU is not halted,
and the byte counts as an instruction that does not affect the flags. -/
def afterPrefix (op : U8) (r : Regs) : Regs :=
  { r with ei := false, halted := false, idx := prefixOf op, q := r.q.map fun _ => false }

/-- R after `n` opcode fetches. -/
def refreshed (r : U8) (n : Nat) : U8 := BitVec.ofNat 8 (r.toNat / 128 * 128 + (r.toNat % 128 + n) % 128)

end Z80.Spec
