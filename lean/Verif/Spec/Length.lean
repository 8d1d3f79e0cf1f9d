import Verif.Spec.Decode

/-!
# Specification: lengths of instructions

From the decoded instruction, as in the published opcode tables.
-/

set_option linter.constructorNameAsVariable false

namespace Z80.Spec

/-- Does the instruction name H, L, HL or (HL), so that a DD or FD prefix changes it? `EX DE,HL` and
`EXX` are not changed. -/
def I0.named : I0 → Bool
  | .ldRpNn p | .incRp p | .decRp p => p == .hl
  | .addHl _ | .ldNnHl | .ldHlNn | .jpHl | .ldSpHl | .exSpHl | .cb => true
  | .incR r | .decR r | .ldRN r | .aluR _ r => r == .h || r == .l || r == .m
  | .ldRR d s => d == .h || d == .l || d == .m || s == .h || s == .l || s == .m
  | .pop p | .push p => p == .hl
  | _ => false

/-- Does the instruction have the memory operand `(HL)`, which becomes `(IX+d)`? -/
def I0.memory : I0 → Bool
  | .incR r | .decR r | .ldRN r | .aluR _ r => r == .m
  | .ldRR d s => d == .m || s == .m
  | .cb => true
  | _ => false

/-- Number of operand bytes following the opcode byte; the second byte of CB and ED instructions
counts as one. -/
def I0.operands : I0 → Nat
  | .djnz | .jr | .jrCc _ | .ldRN _ | .outNA | .inAN | .aluN _ | .cb | .ed => 1
  | .ldRpNn _ | .ldNnHl | .ldHlNn | .ldNnA | .ldANn | .jpCc _ | .jp | .callCc _ | .call => 2
  | _ => 0

/-- Number of operand bytes following an ED instruction. -/
def IEd.operands : IEd → Nat
  | .ldNnRp _ | .ldRpNn _ => 2
  | _ => 0

/-- Is `op` changed by a preceding DD or FD? -/
def indexed (op : U8) : Bool := (decode op).named

/-- Is `op` a DD or FD prefix? -/
def isPrefix (op : U8) : Bool := op == 0xDD || op == 0xFD

/-- Number of bytes of the instruction starting with `op` (not a prefix), from its bytes: with
`ix`, a DD or FD prefix, which is not counted, precedes it and changes it. -/
def length (ix : Bool) (op next : U8) : Nat :=
  1 + (decode op).operands + (if decode op = .ed then (decodeEd next).operands else 0) +
    if ix && (decode op).memory then 1 else 0

/-- No instruction has more than four bytes, the prefix included. -/
theorem length_le (op next : U8) : length false op next ≤ 4 ∧
    (indexed op = true → length true op next ≤ 3) := by
  have h1 : ∀ k : IEd, k.operands ≤ 2 := by intro k; cases k <;> simp [IEd.operands, I0.operands]
  have h2 : ∀ k : I0, k.operands ≤ 2 := by intro k; cases k <;> simp [IEd.operands, I0.operands]
  have h3 : ∀ k : I0, k = .ed → k.operands ≤ 1 ∧ k.named = false := by rintro k rfl; decide
  have h4 : ∀ k : I0, k.memory = true → k.operands ≤ 1 := by
    intro k; cases k <;> simp [I0.memory, I0.operands]
  have a1 := h1 (decodeEd next)
  have a2 := h2 (decode op)
  have a3 := h3 (decode op)
  have a4 := h4 (decode op)
  unfold length indexed
  refine ⟨?_, fun h => ?_⟩
  · split
    · next he => have := (a3 he).1; simp; omega
    · simp; omega
  · split
    · next he => rw [(a3 he).2] at h; cases h
    · cases hm : (decode op).memory with
      | true => have := a4 hm; simp; omega
      | false => simp; omega

end Z80.Spec
