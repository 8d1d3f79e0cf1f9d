import Verif.Spec.Length
import Verif.Spec.Wz

/-!
# Specification: where instructions end, and which registers they change

The address of the next instruction and the registers an instruction may change as tables over the
published instruction set; independent of the bus cycles in `Verif/Spec/Bus.lean`.
-/

set_option linter.constructorNameAsVariable false

namespace Z80.Spec

/-! ### The program counter -/

/-- Where a relative jump goes: the displacement is counted from the end of the instruction. -/
def relTarget (r : Regs) (bytes : List U8) : U16 := r.pc + 1 + disp (bytes.headD 0)

/-- Unprefixed instructions and those after DD and FD; PC points past the opcode. -/
def pc0 (x : Ix) (k : I0) (r : Regs) (bytes : List U8) (words : List U16) : U16 :=
  match k with
  | .jp | .call | .ret => words.headD 0
  | .jpCc c | .callCc c => if r.holds c then words.headD 0 else r.pc + 2
  | .retCc c => if r.holds c then words.headD 0 else r.pc
  | .jpHl => r.xhl x
  | .jr => relTarget r bytes
  | .jrCc c => if r.holds c then relTarget r bytes else r.pc + 1
  | .djnz => if r.b ≠ 1 then relTarget r bytes else r.pc + 1
  | .rst y => BitVec.ofNat 16 (8 * y)
  | .halt => r.pc - 1
  | k => r.pc + BitVec.ofNat 16 (k.operands + if x ≠ .hl ∧ k.memory then 1 else 0)

/-- Instructions after ED; PC points past ED. -/
def pcEd (k : IEd) (r : Regs) (bytes : List U8) (words : List U16) : U16 :=
  match k with
  | .retn | .reti => words.headD 0
  | k => if again k r bytes then r.pc - 1 else r.pc + BitVec.ofNat 16 (1 + k.operands)

/-- PC after the instruction with first opcode byte `op`; `ops` are the opcode bytes fetched
after it, `bytes` and `words` what it reads from memory. -/
def pcAfter (op : U8) (r : Regs) (ops bytes : List U8) (words : List U16) : U16 :=
  match decode op with
  | .ed => pcEd (decodeEd (ops.headD 0)) r bytes words
  | .cb => if r.idx = .hl then r.pc + 1 else r.pc + 2
  | k => pc0 r.idx k r bytes words

/-- PC after one step. `acks` is the byte given by an interrupting device, if one was acknowledged, `ops` are the opcode
bytes fetched: none in the halted state, in which PC stays. -/
def pcStep (r : Regs) (acks ops bytes : List U8) (words : List U16) : U16 :=
  match acks, ops with
  | v :: _, ops =>
    match r.im with
    | 0 => pcAfter v (wake r) ops bytes words
    | 1 => 0x38
    | _ => words.headD 0
  | [], op :: ops => pcAfter op { r with pc := r.pc + 1 } ops bytes words
  | [], [] => r.pc

/-- Instructions that may go on elsewhere than after themselves. -/
def I0.jumps : I0 → Bool
  | .jp | .call | .ret | .jpCc _ | .callCc _ | .retCc _ | .jpHl | .jr | .jrCc _ | .djnz | .rst _ | .halt => true
  | _ => false

/-- Instructions after ED that may go on elsewhere. -/
def IEd.jumps : IEd → Bool
  | .retn | .reti => true
  | .blk _ _ rep => rep
  | _ => false

/-- Does the instruction, given by its first two bytes, always go on with the one after it? -/
def straight (op next : U8) : Bool :=
  !(decode op).jumps && !(decide (decode op = .ed) && (decodeEd next).jumps)

/-! ### The other registers -/

/-- Registers and parts of the state that only some instructions change. PC and MEMPTR have tables of their own; of R
the instructions count the lower seven bits, `r7` is bit 7. -/
inductive Loc
  | a | f | b | c | d | e | h | l | ixh | ixl | iyh | iyl
  | a' | f' | b' | c' | d' | e' | h' | l'
  | sp | i | r7 | iff1 | iff2 | im
deriving DecidableEq, Repr

/-- HL, IX or IY. -/
def Ix.locs : Ix → List Loc
  | .hl => [.h, .l]
  | .ix => [.ixh, .ixl]
  | .iy => [.iyh, .iyl]

/-- A register operand, with a part of `x` for H and L; a memory operand is no register. -/
def R.locs (x : Ix) : R → List Loc
  | .b => [.b] | .c => [.c] | .d => [.d] | .e => [.e] | .a => [.a] | .m => []
  | .h => x.locs.take 1
  | .l => x.locs.drop 1

/-- A register pair. -/
def RP.locs (x : Ix) : RP → List Loc
  | .bc => [.b, .c] | .de => [.d, .e] | .hl => x.locs | .sp => [.sp]

/-- A register pair of PUSH and POP. -/
def SP.locs (x : Ix) : SP → List Loc
  | .bc => [.b, .c] | .de => [.d, .e] | .hl => x.locs | .af => [.a, .f]

/-- Arithmetic changes A and the flags; a comparison only the flags. -/
def Alu.locs : Alu → List Loc
  | .cp => [.f]
  | _ => [.a, .f]

/-- Unprefixed instructions and those after DD and FD. -/
def changes0 (x : Ix) (k : I0) : List Loc :=
  match k with
  | .exAf => [.a, .f, .a', .f']
  | .exx => [.b, .c, .d, .e, .h, .l, .b', .c', .d', .e', .h', .l']
  | .exDeHl => [.d, .e, .h, .l]
  | .djnz => [.b]
  | .ldRpNn p | .incRp p | .decRp p => p.locs x
  | .addHl _ => .f :: x.locs
  | .ldARp _ | .ldANn | .inAN => [.a]
  | .ldHlNn | .exSpHl => x.locs
  | .incR g | .decR g => .f :: g.locs x
  | .ldRN g => g.locs x
  | .ldRR d s => if d = s then [] else if s = .m then d.locs .hl else d.locs x
  | .accRot _ | .daa | .cpl => [.a, .f]
  | .scf | .ccf => [.f]
  | .aluR k g => if g = .a ∧ (k = .and ∨ k = .or) then [.f] else k.locs
  | .aluN k => k.locs
  | .pop p => .sp :: p.locs x
  | .ret | .retCc _ | .push _ | .call | .callCc _ | .rst _ | .ldSpHl => [.sp]
  | .di | .ei => [.iff1, .iff2]
  | _ => []

/-- Instructions after CB, and after DD CB and FD CB, where the result also goes to a register. -/
def changesCb (k : ICb) : List Loc :=
  match k with
  | .bit _ _ => [.f]
  | .rot _ g => .f :: g.locs .hl
  | .res _ g | .set _ g => g.locs .hl

/-- Instructions after ED. -/
def changesEd (k : IEd) : List Loc :=
  match k with
  | .inC g => .f :: g.locs .hl
  | .sbcHl _ | .adcHl _ => [.f, .h, .l]
  | .ldRpNn p => p.locs .hl
  | .neg | .ldAI | .ldAR | .rld | .rrd => [.a, .f]
  | .retn | .reti => [.sp, .iff1]
  | .im _ => [.im]
  | .ldIA => [.i]
  | .ldRA => [.r7]
  | .blk .ld _ _ => [.b, .c, .d, .e, .h, .l, .f]
  | .blk .cp _ _ => [.b, .c, .h, .l, .f]
  | .blk .inp _ _ | .blk .out _ _ => [.b, .h, .l, .f]
  | _ => []

/-- What the instruction with first opcode byte `op` may change; `ops` are the opcode bytes fetched after it, `bytes`
the bytes it reads. -/
def changes (op : U8) (r : Regs) (ops bytes : List U8) : List Loc :=
  match decode op with
  | .ed => changesEd (decodeEd (ops.headD 0))
  | .cb => changesCb (decodeCb (if r.idx = .hl then ops.headD 0 else bytes.tail.headD 0))
  | k => changes0 r.idx k

/-- What one step may change. -/
def changesStep (r : Regs) (acks ops bytes : List U8) : List Loc :=
  match acks, ops with
  | v :: _, ops => .iff1 :: .iff2 :: if r.im = 0 then changes v r ops bytes else [.sp]
  | [], op :: ops => changes op r ops bytes
  | [], [] => []

end Z80.Spec
