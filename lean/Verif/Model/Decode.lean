import Verif.Model.Basic

/-!
# Opcode dispatch tables (`match_instruction!`, `/repo/src/z80/opcodes.rs`)

The arms are written in the order of the Rust `match`; the first matching arm is taken.
`none` stands for a byte matched by no arm, which `rustc` would reject.
-/

namespace Z80

/-- An arm pattern `lo..=hi`. -/
def rng (c lo hi : U8) : Bool := lo ≤ c && c ≤ hi
/-- An arm pattern `a|b|..`. -/
def oneOf (c : U8) (l : List U8) : Bool := l.contains c

/-- Mnemonics of the unprefixed table. -/
inductive M0
  | ldRR | opsR | cb | dd | fd | ed | nop | daa | cpl | ccf | scf | di | ei | exAf | exDeHl | exx
  | ldRN | ldABc | ldADe | ldANn | ldBcA | ldDeA | ldNnA | ldDdNn | ldNnHl | ldHlNn | ldSpHl
  | push | pop | exSpHl | opsN | incR | decR | addHl | incDd | decDd | rlca | rla | rrca | rra
  | jp | jpCc | jpHl | jr | jrCc | djnz | call | callCc | ret | retCc | rst | inAN | outNA
deriving DecidableEq, Repr

/-- `match_instruction!(@none ..)` (`/repo/src/z80/opcodes.rs` 12-78). -/
def decode0 (c : U8) : Option M0 :=
  if rng c 0x40 0x7F then some .ldRR
  else if rng c 0x80 0xBF then some .opsR
  else if c == 0xCB then some .cb
  else if c == 0xDD then some .dd
  else if c == 0xFD then some .fd
  else if c == 0xED then some .ed
  else if c == 0x00 then some .nop
  else if c == 0x27 then some .daa
  else if c == 0x2F then some .cpl
  else if c == 0x3F then some .ccf
  else if c == 0x37 then some .scf
  else if c == 0xF3 then some .di
  else if c == 0xFB then some .ei
  else if c == 0x08 then some .exAf
  else if c == 0xEB then some .exDeHl
  else if c == 0xD9 then some .exx
  else if oneOf c [0x06, 0x0E, 0x16, 0x1E, 0x26, 0x2E, 0x36, 0x3E] then some .ldRN
  else if c == 0x0A then some .ldABc
  else if c == 0x1A then some .ldADe
  else if c == 0x3A then some .ldANn
  else if c == 0x02 then some .ldBcA
  else if c == 0x12 then some .ldDeA
  else if c == 0x32 then some .ldNnA
  else if oneOf c [0x01, 0x11, 0x21, 0x31] then some .ldDdNn
  else if c == 0x22 then some .ldNnHl
  else if c == 0x2A then some .ldHlNn
  else if c == 0xF9 then some .ldSpHl
  else if oneOf c [0xC5, 0xD5, 0xE5, 0xF5] then some .push
  else if oneOf c [0xC1, 0xD1, 0xE1, 0xF1] then some .pop
  else if c == 0xE3 then some .exSpHl
  else if oneOf c [0xC6, 0xCE, 0xD6, 0xDE, 0xE6, 0xEE, 0xF6, 0xFE] then some .opsN
  else if oneOf c [0x04, 0x0C, 0x14, 0x1C, 0x24, 0x2C, 0x34, 0x3C] then some .incR
  else if oneOf c [0x05, 0x0D, 0x15, 0x1D, 0x25, 0x2D, 0x35, 0x3D] then some .decR
  else if oneOf c [0x09, 0x19, 0x29, 0x39] then some .addHl
  else if oneOf c [0x03, 0x13, 0x23, 0x33] then some .incDd
  else if oneOf c [0x0B, 0x1B, 0x2B, 0x3B] then some .decDd
  else if c == 0x07 then some .rlca
  else if c == 0x17 then some .rla
  else if c == 0x0F then some .rrca
  else if c == 0x1F then some .rra
  else if c == 0xC3 then some .jp
  else if oneOf c [0xC2, 0xCA, 0xD2, 0xDA, 0xE2, 0xEA, 0xF2, 0xFA] then some .jpCc
  else if c == 0xE9 then some .jpHl
  else if c == 0x18 then some .jr
  else if oneOf c [0x38, 0x30, 0x28, 0x20] then some .jrCc
  else if c == 0x10 then some .djnz
  else if c == 0xCD then some .call
  else if oneOf c [0xC4, 0xCC, 0xD4, 0xDC, 0xE4, 0xEC, 0xF4, 0xFC] then some .callCc
  else if c == 0xC9 then some .ret
  else if oneOf c [0xC0, 0xC8, 0xD0, 0xD8, 0xE0, 0xE8, 0xF0, 0xF8] then some .retCc
  else if oneOf c [0xC7, 0xCF, 0xD7, 0xDF, 0xE7, 0xEF, 0xF7, 0xFF] then some .rst
  else if c == 0xDB then some .inAN
  else if c == 0xD3 then some .outNA
  else none

/-- Mnemonics of the table after a DD or FD prefix. `plain` drops the prefix and repeats with
the unprefixed table; `dd` and `fd` replace the prefix. -/
inductive MI
  | plain | ldQQ | opsQ | cb | ldQN | ldIidN | ldIiNn | ldNnIi | ldIiMem | ldSpIi
  | push | pop | exSp | incQ | decQ | add | incIi | decIi | jp | dd | fd
deriving DecidableEq, Repr

/-- `match_instruction!(DD|FD ..)` (`/repo/src/z80/opcodes.rs` 82-117). -/
def decodeI (c : U8) : Option MI :=
  if rng c 0x00 0x08 || rng c 0x0A 0x18 || rng c 0x1A 0x20 || c == 0x27 || c == 0x28 ||
     rng c 0x2F 0x33 || c == 0x37 || c == 0x38 || rng c 0x3A 0x43 ||
     rng c 0x47 0x4B || rng c 0x4F 0x53 || rng c 0x57 0x5B || c == 0x5F || c == 0x76 ||
     rng c 0x78 0x7B || rng c 0x7F 0x83 || rng c 0x87 0x8B || rng c 0x8F 0x93 ||
     rng c 0x97 0x9B || rng c 0x9F 0xA3 || rng c 0xA7 0xAB || rng c 0xAF 0xB3 ||
     rng c 0xB7 0xBB || rng c 0xBF 0xCA || rng c 0xCC 0xDC || rng c 0xDE 0xE0 || c == 0xE2 ||
     c == 0xE4 || rng c 0xE6 0xE8 || rng c 0xEA 0xF8 || rng c 0xFA 0xFC || c == 0xFE ||
     c == 0xFF then some .plain
  else if rng c 0x44 0x46 || rng c 0x4C 0x4E || rng c 0x54 0x56 || rng c 0x5C 0x5E ||
     rng c 0x60 0x75 || c == 0x77 || rng c 0x7C 0x7E then some .ldQQ
  else if rng c 0x84 0x86 || rng c 0x8C 0x8E || rng c 0x94 0x96 || rng c 0x9C 0x9E ||
     rng c 0xA4 0xA6 || rng c 0xAC 0xAE || rng c 0xB4 0xB6 || rng c 0xBC 0xBE then some .opsQ
  else if c == 0xCB then some .cb
  else if oneOf c [0x26, 0x2E] then some .ldQN
  else if c == 0x36 then some .ldIidN
  else if c == 0x21 then some .ldIiNn
  else if c == 0x22 then some .ldNnIi
  else if c == 0x2A then some .ldIiMem
  else if c == 0xF9 then some .ldSpIi
  else if c == 0xE5 then some .push
  else if c == 0xE1 then some .pop
  else if c == 0xE3 then some .exSp
  else if oneOf c [0x24, 0x2C, 0x34] then some .incQ
  else if oneOf c [0x25, 0x2D, 0x35] then some .decQ
  else if oneOf c [0x09, 0x19, 0x29, 0x39] then some .add
  else if c == 0x23 then some .incIi
  else if c == 0x2B then some .decIi
  else if c == 0xE9 then some .jp
  else if c == 0xDD then some .dd
  else if c == 0xFD then some .fd
  else none

/-- Mnemonics of the table after an ED prefix. -/
inductive ME
  | nop | neg | im0 | im1 | im2 | ldDdMem | ldMemDd | ldAI | ldAR | ldIA | ldRA | adc | sbc
  | rld | rrd | retn | ldi | ldd | ldir | lddr | cpi | cpd | cpir | cpdr | ini | ind | inir
  | indr | outi | outd | otir | otdr | inR | outR
deriving DecidableEq, Repr

/-- `match_instruction!(ED ..)` (`/repo/src/z80/opcodes.rs` 119-161). -/
def decodeE (c : U8) : Option ME :=
  if rng c 0x00 0x3F || rng c 0x7F 0x9F || rng c 0xA4 0xA7 || rng c 0xAC 0xAF ||
     rng c 0xB4 0xB7 || rng c 0xBC 0xFF || c == 0x77 then some .nop
  else if oneOf c [0x44, 0x4C, 0x54, 0x5C, 0x64, 0x6C, 0x74, 0x7C] then some .neg
  else if oneOf c [0x46, 0x4E, 0x66, 0x6E] then some .im0
  else if oneOf c [0x56, 0x76] then some .im1
  else if oneOf c [0x5E, 0x7E] then some .im2
  else if oneOf c [0x4B, 0x5B, 0x6B, 0x7B] then some .ldDdMem
  else if oneOf c [0x43, 0x53, 0x63, 0x73] then some .ldMemDd
  else if c == 0x57 then some .ldAI
  else if c == 0x5F then some .ldAR
  else if c == 0x47 then some .ldIA
  else if c == 0x4F then some .ldRA
  else if oneOf c [0x4A, 0x5A, 0x6A, 0x7A] then some .adc
  else if oneOf c [0x42, 0x52, 0x62, 0x72] then some .sbc
  else if c == 0x6F then some .rld
  else if c == 0x67 then some .rrd
  else if oneOf c [0x45, 0x4D, 0x55, 0x5D, 0x65, 0x6D, 0x75, 0x7D] then some .retn
  else if c == 0xA0 then some .ldi
  else if c == 0xA8 then some .ldd
  else if c == 0xB0 then some .ldir
  else if c == 0xB8 then some .lddr
  else if c == 0xA1 then some .cpi
  else if c == 0xA9 then some .cpd
  else if c == 0xB1 then some .cpir
  else if c == 0xB9 then some .cpdr
  else if c == 0xA2 then some .ini
  else if c == 0xAA then some .ind
  else if c == 0xB2 then some .inir
  else if c == 0xBA then some .indr
  else if c == 0xA3 then some .outi
  else if c == 0xAB then some .outd
  else if c == 0xB3 then some .otir
  else if c == 0xBB then some .otdr
  else if oneOf c [0x40, 0x48, 0x50, 0x58, 0x60, 0x68, 0x70, 0x78] then some .inR
  else if oneOf c [0x41, 0x49, 0x51, 0x59, 0x61, 0x69, 0x71, 0x79] then some .outR
  else none

end Z80
