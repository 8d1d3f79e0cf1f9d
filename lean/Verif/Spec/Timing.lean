import Verif.Spec.Path

/-!
# Specification: when an instruction takes the longer of its two times
-/

set_option linter.constructorNameAsVariable false

namespace Z80.Spec

/-- The jump, call or return of a conditional instruction is taken. -/
def taken (k : I0) (r : Regs) : Bool :=
  match k with
  | .djnz => r.b ≠ 1
  | .jrCc c | .retCc c | .callCc c => r.holds c
  | _ => false

/-- A repeating block instruction goes on: the counter does not become 0, and for the compare
instructions the byte read differs from A. `data` are the bytes read from memory. -/
def again (k : IEd) (r : Regs) (data : List U8) : Bool :=
  match k with
  | .blk .ld _ true => r.bc ≠ 1
  | .blk .cp _ true => decide (r.bc ≠ 1) && data.all fun v => r.a ≠ v
  | .blk .inp _ true | .blk .out _ true => r.b ≠ 1
  | _ => false

/-- Published T-states of the instruction whose first opcode byte, after the prefixes, is `op`,
with the last prefix. `ops` are the opcode bytes fetched after `op` and `data` the bytes read
from memory. Of CB and ED instructions the next opcode byte says which it is, of DD CB and FD CB
instructions the second byte read, which comes after the displacement. A prefix without effect
takes 4 T-states. -/
def published (op : U8) (r : Regs) (ops data : List U8) : Nat :=
  let p := if r.idx = .hl then 0 else 4
  match decode op with
  | .dd | .fd => 4 + p
  | .ed => tEd (decodeEd (ops.headD 0)) (again (decodeEd (ops.headD 0)) r data) + p
  | .cb => if r.idx = .hl then tCb (decodeCb (ops.headD 0)) else tXCb (decodeCb (data.tail.headD 0))
  | k => if r.idx = .hl then t0 k (taken k r) else tX k (taken k r)

/-- Opcode bytes fetched. -/
def opcodes (l : List Cyc) : List U8 := l.filterMap fun | .m1 _ _ v => some v | _ => none
/-- Bytes read by memory cycles, words excluded. -/
def bytesRead (l : List Cyc) : List U8 := l.filterMap fun | .rd _ v => some v | _ => none

variable {σ : Sig}

/-- The opcode byte in an answer of the host. -/
def _root_.Z80.Ev.opcode? : Ev σ → Option U8
  | ⟨.readOpcode _ _ _, v⟩ => some v
  | _ => none
/-- The byte in an answer of the host to a memory read. -/
def _root_.Z80.Ev.byte? : Ev σ → Option U8
  | ⟨.readMem _ _, v⟩ => some v
  | _ => none

/-- The opcode bytes given by the host. -/
def opcodesOf (t : List (Ev σ)) : List U8 := t.filterMap Ev.opcode?
/-- The bytes given by the host to memory reads. -/
def bytesOf (t : List (Ev σ)) : List U8 := t.filterMap Ev.byte?

/-- The byte in an answer of the host to an interrupt acknowledge. -/
def _root_.Z80.Ev.ack? : Ev σ → Option U8
  | ⟨.irqData _ _, v⟩ => some v.1
  | _ => none
/-- The bytes given by the host to interrupt acknowledge cycles. -/
def ackOf (t : List (Ev σ)) : List U8 := t.filterMap Ev.ack?
/-- The bytes of interrupt acknowledge cycles. -/
def acks (l : List Cyc) : List U8 := l.filterMap fun | .ack _ v _ => some v | _ => none

end Z80.Spec
