import Verif.Spec.Writes

/-!
# Specification: MEMPTR, and the instructions that affect the flags

The value of MEMPTR (WZ) after every instruction as a table, after V. Kladov's and boo_boo's
"MEMPTR, esoteric register of the Zilog Z80 CPU", with the registers before the instruction and
what it reads; independent of the bus cycles in `Verif/Spec/Bus.lean`.
-/

set_option linter.constructorNameAsVariable false

namespace Z80.Spec

/-- MEMPTR after a byte of A goes to an address or port with the low byte `lo`: A in the high byte,
or 0 on the BM1. -/
def wzFromA (o : Opt) (r : Regs) (lo : U8) : U16 := word (if o.wzHi0 then 0 else r.a) (lo + 1)

/-- Unprefixed instructions and those after DD and FD; PC points past the opcode. -/
def wz0 (o : Opt) (x : Ix) (k : I0) (r : Regs) (bytes : List U8) (words : List U16) : U16 :=
  match k with
  | .ldANn => words.headD 0 + 1
  | .ldNnA => wzFromA o r (lo8 (words.headD 0))
  | .ldARp p => r.getRp .hl p + 1
  | .ldRpA p => wzFromA o r (lo8 (r.getRp .hl p))
  | .ldNnHl | .ldHlNn => words.headD 0 + 1
  | .exSpHl => words.headD 0
  | .addHl _ => r.xhl x + 1
  | .djnz => if r.b ≠ 1 then r.pc + 1 + disp (bytes.headD 0) else r.wz
  | .jr => r.pc + 1 + disp (bytes.headD 0)
  | .jrCc c => if r.holds c then r.pc + 1 + disp (bytes.headD 0) else r.wz
  | .ret => words.headD 0
  | .retCc c => if r.holds c then words.headD 0 else r.wz
  | .rst y => BitVec.ofNat 16 (8 * y)
  | .jp | .jpCc _ | .call | .callCc _ => words.headD 0
  | .inAN => word r.a (bytes.headD 0) + 1
  | .outNA => wzFromA o r (bytes.headD 0)
  | .incR .m | .decR .m | .ldRN .m | .ldRR .m _ | .ldRR _ .m | .aluR _ .m =>
    if x = .hl then r.wz else memOperand x r bytes
  | _ => r.wz

/-- Instructions after ED; PC points past ED. -/
def wzEd (k : IEd) (r : Regs) (bytes : List U8) (words : List U16) : U16 :=
  match k with
  | .ldNnRp _ | .ldRpNn _ => words.headD 0 + 1
  | .adcHl _ | .sbcHl _ | .rld | .rrd => r.hl + 1
  | .inC _ | .outC _ => r.bc + 1
  | .retn | .reti => words.headD 0
  | .blk .ld d rep => if again (.blk .ld d rep) r bytes then r.pc else r.wz
  | .blk .cp d rep =>
    if again (.blk .cp d rep) r bytes then r.pc else if d then r.wz - 1 else r.wz + 1
  | .blk .inp d _ => if d then r.bc - 1 else r.bc + 1
  | .blk .out d _ => if d then word (r.b - 1) r.c - 1 else word (r.b - 1) r.c + 1
  | _ => r.wz

/-- MEMPTR after the instruction with first opcode byte `op`; `ops` are the opcode bytes fetched
after it, `bytes` and `words` what it reads from memory. -/
def wzAfter (o : Opt) (op : U8) (r : Regs) (ops bytes : List U8) (words : List U16) : U16 :=
  match decode op with
  | .ed => wzEd (decodeEd (ops.headD 0)) r bytes words
  | .cb => if r.idx = .hl then r.wz else memOperand r.idx r bytes
  | k => wz0 o r.idx k r bytes words

/-- The instruction with first opcode byte `op` is one that affects the flags. -/
def affects (op : U8) (r : Regs) (ops bytes : List U8) : Bool :=
  match decode op with
  | .ed => fEd (decodeEd (ops.headD 0))
  | .cb => fCb (decodeCb (if r.idx = .hl then ops.headD 0 else bytes.tail.headD 0))
  | k => f0 k

/-- Whether the last instruction changed the flags, after one step: as before in the halted state,
no after an interrupt in mode 1 or 2, and otherwise as the instruction executed says. -/
def affectedStep (r : Regs) (acks ops bytes : List U8) (q : Bool) : Bool :=
  match acks, ops with
  | v :: _, ops => if r.im = 0 then affects v r ops bytes else false
  | [], op :: ops => affects op r ops bytes
  | [], [] => q

/-- MEMPTR after one step. -/
def wzStep (o : Opt) (r : Regs) (acks ops bytes : List U8) (words : List U16) : U16 :=
  match acks, ops with
  | v :: _, ops =>
    match r.im with
    | 0 => wzAfter o v (wake r) ops bytes words
    | 1 => 0x38
    | _ => words.headD 0
  | [], op :: ops => wzAfter o op { r with pc := r.pc + 1 } ops bytes words
  | [], [] => r.wz

end Z80.Spec
