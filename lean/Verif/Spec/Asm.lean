import Verif.Spec.Length
import Verif.Spec.Machine

/-!
# Specification: instructions in assembly language

Mnemonic and operands of an instruction from its bytes, as in the assembly language of the
manufacturer; for instructions that are not in its manual, as they are commonly written.
-/

set_option linter.constructorNameAsVariable false

namespace Z80.Spec

/-- An operand as written. -/
inductive Opd
  /-- a register or a condition -/
  | name (s : String)
  /-- a bit number or an interrupt mode -/
  | num (n : Nat)
  /-- a number of 8 bits -/
  | byte (n : U8)
  /-- a number of 16 bits -/
  | word (nn : U16)
  /-- an address in parentheses -/
  | mem (nn : U16)
  /-- a register in parentheses -/
  | ind (s : String)
  /-- an index register and a displacement in parentheses -/
  | idx (s : String) (d : U8)
  /-- a port number in parentheses -/
  | port (n : U8)
deriving DecidableEq, Repr

/-- The name of HL or of the index register in its place. -/
def Ix.txt : Ix → String | .hl => "HL" | .ix => "IX" | .iy => "IY"

/-- An 8-bit register. -/
def R.txt : Ix → R → String
  | _, .b => "B" | _, .c => "C" | _, .d => "D" | _, .e => "E" | _, .a => "A"
  | .hl, .h => "H" | .ix, .h => "IXH" | .iy, .h => "IYH"
  | .hl, .l => "L" | .ix, .l => "IXL" | .iy, .l => "IYL"
  | _, .m => ""

/-- A register pair. -/
def RP.txt (x : Ix) : RP → String | .bc => "BC" | .de => "DE" | .hl => x.txt | .sp => "SP"
/-- A register pair of `PUSH` and `POP`. -/
def SP.txt (x : Ix) : SP → String | .bc => "BC" | .de => "DE" | .hl => x.txt | .af => "AF"
/-- A condition. -/
def Cc.txt : Cc → String
  | .nz => "NZ" | .z => "Z" | .nc => "NC" | .c => "C" | .po => "PO" | .pe => "PE" | .p => "P"
  | .m => "M"
/-- An operation on the accumulator. -/
def Alu.txt : Alu → String
  | .add => "ADD" | .adc => "ADC" | .sub => "SUB" | .sbc => "SBC" | .and => "AND" | .xor => "XOR"
  | .or => "OR" | .cp => "CP"
/-- A rotate or shift. -/
def Sh.txt : Sh → String
  | .rlc => "RLC" | .rrc => "RRC" | .rl => "RL" | .rr => "RR" | .sla => "SLA" | .sra => "SRA"
  | .sll => "SLL" | .srl => "SRL"

/-- The memory operand. -/
def memOpd (x : Ix) (d : U8) : Opd := if x = .hl then .ind "HL" else .idx x.txt d

/-- A register or memory operand. Beside a memory operand with index register, H and L are not
replaced. -/
def R.opd (x : Ix) (d : U8) (r : R) : Opd := if r = .m then memOpd x d else .name (r.txt x)

/-- `ADD`, `ADC` and `SBC` are written with the accumulator, since there are such operations on HL; the
others are not. -/
def Alu.opds (k : Alu) (o : Opd) : List Opd :=
  match k with
  | .add | .adc | .sbc => [.name "A", o]
  | _ => [o]

/-- Rotates of the accumulator. -/
def Sh.accTxt : Sh → String
  | .rlc => "RLCA" | .rrc => "RRCA" | .rl => "RLA" | .rr => "RRA" | _ => ""

/-- The target of a relative jump at `a`. -/
def target (a : U16) (e : U8) : U16 := a + 2 + e.signExtend 16

/-- Block instructions. -/
def Blk.txt : Blk → Bool → Bool → String
  | .ld, false, false => "LDI" | .ld, false, true => "LDIR"
  | .ld, true, false => "LDD" | .ld, true, true => "LDDR"
  | .cp, false, false => "CPI" | .cp, false, true => "CPIR"
  | .cp, true, false => "CPD" | .cp, true, true => "CPDR"
  | .inp, false, false => "INI" | .inp, false, true => "INIR"
  | .inp, true, false => "IND" | .inp, true, true => "INDR"
  | .out, false, false => "OUTI" | .out, false, true => "OTIR"
  | .out, true, false => "OUTD" | .out, true, true => "OTDR"

/-- Instructions after CB. With an index register the memory operand is always operated upon, and a
register named in the opcode receives the result too. -/
def ICb.asm (x : Ix) (d : U8) : ICb → String × List Opd
  | .rot k r => (k.txt, if x = .hl then [r.opd x d] else memOpd x d :: into r)
  | .bit n r => ("BIT", [.num n, if x = .hl then r.opd x d else memOpd x d])
  | .res n r => ("RES", .num n :: if x = .hl then [r.opd x d] else memOpd x d :: into r)
  | .set n r => ("SET", .num n :: if x = .hl then [r.opd x d] else memOpd x d :: into r)
where
  into (r : R) : List Opd := if r = .m then [] else [.name (r.txt .hl)]

/-- Instructions after ED, with the 16-bit number that follows. -/
def IEd.asm (nn : U16) : IEd → String × List Opd
  | .nop => ("NOP*", [])
  | .inC r => ("IN", (if r = .m then [] else [.name (r.txt .hl)]) ++ [.ind "C"])
  | .outC r => ("OUT", .ind "C" :: if r = .m then [] else [.name (r.txt .hl)])
  | .sbcHl p => ("SBC", [.name "HL", .name (p.txt .hl)])
  | .adcHl p => ("ADC", [.name "HL", .name (p.txt .hl)])
  | .ldNnRp p => ("LD", [.mem nn, .name (p.txt .hl)])
  | .ldRpNn p => ("LD", [.name (p.txt .hl), .mem nn])
  | .neg => ("NEG", []) | .retn => ("RETN", []) | .reti => ("RETI", []) | .im n => ("IM", [.num n])
  | .ldIA => ("LD", [.name "I", .name "A"]) | .ldRA => ("LD", [.name "R", .name "A"])
  | .ldAI => ("LD", [.name "A", .name "I"]) | .ldAR => ("LD", [.name "A", .name "R"])
  | .rrd => ("RRD", []) | .rld => ("RLD", [])
  | .blk k dec rep => (k.txt dec rep, [])

/-- Mnemonic and operands of an instruction at `a` with the bytes `byte 0`, `byte 1`, .. -/
def I0.asm (x : Ix) (a : U16) (byte : Nat → U8) (k : I0) : String × List Opd :=
  let nn : U16 := byte 2 ++ byte 1
  let r (r : R) : Opd := r.opd x (byte 1)
  match k with
  | .nop => ("NOP", []) | .exAf => ("EX", [.name "AF", .name "AF'"])
  | .djnz => ("DJNZ", [.word (target a (byte 1))]) | .jr => ("JR", [.word (target a (byte 1))])
  | .jrCc c => ("JR", [.name c.txt, .word (target a (byte 1))])
  | .ldRpNn p => ("LD", [.name (p.txt x), .word nn])
  | .addHl p => ("ADD", [.name x.txt, .name (p.txt x)])
  | .ldRpA p => ("LD", [.ind (p.txt x), .name "A"]) | .ldARp p => ("LD", [.name "A", .ind (p.txt x)])
  | .ldNnHl => ("LD", [.mem nn, .name x.txt]) | .ldHlNn => ("LD", [.name x.txt, .mem nn])
  | .ldNnA => ("LD", [.mem nn, .name "A"]) | .ldANn => ("LD", [.name "A", .mem nn])
  | .incRp p => ("INC", [.name (p.txt x)]) | .decRp p => ("DEC", [.name (p.txt x)])
  | .incR k => ("INC", [r k]) | .decR k => ("DEC", [r k])
  | .ldRN k => ("LD", [r k, .byte (byte (if x ≠ .hl ∧ k = .m then 2 else 1))])
  | .accRot k => (k.accTxt, [])
  | .daa => ("DAA", []) | .cpl => ("CPL", []) | .scf => ("SCF", []) | .ccf => ("CCF", [])
  | .halt => ("HALT", [])
  | .ldRR d s =>
    if d = .m ∨ s = .m then
      ("LD", [if d = .m then memOpd x (byte 1) else .name (d.txt .hl),
        if s = .m then memOpd x (byte 1) else .name (s.txt .hl)])
    else ("LD", [r d, r s])
  | .aluR k s => (k.txt, k.opds (r s)) | .aluN k => (k.txt, k.opds (.byte (byte 1)))
  | .retCc c => ("RET", [.name c.txt]) | .ret => ("RET", [])
  | .pop p => ("POP", [.name (p.txt x)]) | .push p => ("PUSH", [.name (p.txt x)])
  | .exx => ("EXX", []) | .jpHl => ("JP", [.ind x.txt]) | .ldSpHl => ("LD", [.name "SP", .name x.txt])
  | .jpCc c => ("JP", [.name c.txt, .word nn]) | .jp => ("JP", [.word nn])
  | .callCc c => ("CALL", [.name c.txt, .word nn]) | .call => ("CALL", [.word nn])
  | .outNA => ("OUT", [.port (byte 1), .name "A"]) | .inAN => ("IN", [.name "A", .port (byte 1)])
  | .exSpHl => ("EX", [.ind "SP", .name x.txt]) | .exDeHl => ("EX", [.name "DE", .name "HL"])
  | .di => ("DI", []) | .ei => ("EI", [])
  | .rst y => ("RST", [.byte (BitVec.ofNat 8 (8 * y))])
  | .cb => if x = .hl then (decodeCb (byte 1)).asm x 0 else (decodeCb (byte 2)).asm x (byte 1)
  | .ed => (decodeEd (byte 1)).asm (byte 3 ++ byte 2)
  | .dd | .fd => ("", [])

/-- Mnemonic and operands of the instruction with the bytes `l`, without a DD or FD prefix, at `a`;
`x` is not `hl` when a prefix precedes and changes it. -/
def asm (x : Ix) (a : U16) (l : List U8) : String × List Opd :=
  (decode (l.getD 0 0)).asm x a fun i => l.getD i 0

/-- Mnemonic and operands of the instruction at `a` with the bytes `l`, the first of which may be a
prefix that changes it. -/
def line (a : U16) (l : List U8) : String × List Opd :=
  if l.head? = some 0xDD then asm .ix (a + 1) l.tail
  else if l.head? = some 0xFD then asm .iy (a + 1) l.tail
  else asm .hl a l

end Z80.Spec
