import Verif.Spec.Timing

/-!
# Specification: where instructions write

The addresses an instruction writes to, in order, given the registers before it and the bytes and
words it reads; independent of the bus cycles in `Verif/Spec/Bus.lean`.
-/

set_option linter.constructorNameAsVariable false

namespace Z80.Spec

/-- The address of `(HL)`, or of `(IX+d)` or `(IY+d)` when `d` is the first byte read. -/
def memOperand (x : Ix) (r : Regs) (bytes : List U8) : U16 :=
  if x = .hl then r.hl else r.xhl x + disp (bytes.headD 0)

/-- The two bytes of a word at an address. -/
def both (a : U16) : List U16 := [a, a + 1]

/-- The two bytes pushed on the stack, in order. -/
def pushed (r : Regs) : List U16 := [r.sp - 1, r.sp - 2]

/-- Unprefixed instructions and those after DD and FD. -/
def dest0 (x : Ix) (k : I0) (r : Regs) (bytes : List U8) (words : List U16) : List U16 :=
  match k with
  | .ldRpA p => [r.getRp .hl p]
  | .ldNnA => [words.headD 0]
  | .ldNnHl => both (words.headD 0)
  | .incR .m | .decR .m | .ldRN .m | .ldRR .m _ => [memOperand x r bytes]
  | .push _ | .call | .rst _ => pushed r
  | .callCc c => if r.holds c then pushed r else []
  | .exSpHl => [r.sp + 1, r.sp]
  | _ => []

/-- CB instructions with operand address `a`, used if `m`. -/
def destCb (k : ICb) (m : R → Bool) (a : U16) : List U16 :=
  match k with
  | .bit _ _ => []
  | .rot _ g | .res _ g | .set _ g => if m g then [a] else []

/-- ED instructions. -/
def destEd (k : IEd) (r : Regs) (words : List U16) : List U16 :=
  match k with
  | .ldNnRp _ => both (words.headD 0)
  | .rld | .rrd | .blk .inp _ _ => [r.hl]
  | .blk .ld _ _ => [r.de]
  | _ => []

/-- The addresses written by the instruction with first opcode byte `op`; `ops` are the opcode
bytes fetched after it, `bytes` and `words` what it reads from memory. -/
def dests (op : U8) (r : Regs) (ops bytes : List U8) (words : List U16) : List U16 :=
  match decode op with
  | .ed => destEd (decodeEd (ops.headD 0)) r words
  | .cb =>
    if r.idx = .hl then destCb (decodeCb (ops.headD 0)) (· == .m) r.hl
    else destCb (decodeCb (bytes.tail.headD 0)) (fun _ => true) (memOperand r.idx r bytes)
  | k => dest0 r.idx k r bytes words

/-- The addresses written in one step. `acks` is the byte given by an interrupting device, if one
was acknowledged, `ops` are the opcode bytes fetched: none in the halted state. -/
def stepDests (r : Regs) (acks ops bytes : List U8) (words : List U16) : List U16 :=
  match acks, ops with
  | v :: _, ops => if r.im = 0 then dests v r ops bytes words else pushed r
  | [], op :: ops => dests op r ops bytes words
  | [], [] => []

/-- Words read by memory cycles. -/
def wordsRead (l : List Cyc) : List U16 := l.filterMap fun | .rd16 _ v => some v | _ => none
/-- Addresses written by memory cycles. -/
def written (l : List Cyc) : List U16 := l.filterMap fun | .wr a _ => some a | _ => none

variable {σ : Sig}

/-- The word in an answer of the host to a memory read. -/
def _root_.Z80.Ev.word? : Ev σ → Option U16
  | ⟨.readMem16 _ _, v⟩ => some v
  | _ => none
/-- Address and byte of a memory write. -/
def _root_.Z80.Ev.store? : Ev σ → Option (U16 × U8)
  | ⟨.writeMem a v _, _⟩ => some (a, v)
  | _ => none

/-- The words given by the host to memory reads. -/
def wordsOf (t : List (Ev σ)) : List U16 := t.filterMap Ev.word?
/-- The memory writes the host was asked for. -/
def storesOf (t : List (Ev σ)) : List (U16 × U8) := t.filterMap Ev.store?

/-- Memory after a sequence of writes. -/
def applyStores (m : U16 → U8) (l : List (U16 × U8)) : U16 → U8 :=
  l.foldl (fun m p x => if x = p.1 then p.2 else m x) m

end Z80.Spec
