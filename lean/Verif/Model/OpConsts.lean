import Verif.Model.Debug
import Verif.Model.Cpu

/-!
# Opcode constants (`/repo/src/lib.rs` 198-294) and the functions of the example computer that use them
(`/repo/examples/ral1243/src/debug.rs` 456-480)
-/

namespace Z80

namespace Op

/-- `ED_PREFIX` (`/repo/src/lib.rs` 202). -/
def ED_PREFIX : U8 := 0xED
/-- `DD_PREFIX` (`/repo/src/lib.rs` 204). -/
def DD_PREFIX : U8 := 0xDD
/-- `FD_PREFIX` (`/repo/src/lib.rs` 206). -/
def FD_PREFIX : U8 := 0xFD
/-- `NOP_OPCODE` (`/repo/src/lib.rs` 208). -/
def NOP_OPCODE : U8 := 0x00
/-- `HALT_OPCODE` (`/repo/src/lib.rs` 210). -/
def HALT_OPCODE : U8 := 0x76
/-- `DI_OPCODE` (`/repo/src/lib.rs` 212). -/
def DI_OPCODE : U8 := 0xF3
/-- `EI_OPCODE` (`/repo/src/lib.rs` 214). -/
def EI_OPCODE : U8 := 0xFB
/-- `RET_OPCODE` (`/repo/src/lib.rs` 216). -/
def RET_OPCODE : U8 := 0xC9
/-- `RET_CC_OPBASE` (`/repo/src/lib.rs` 222). -/
def RET_CC_OPBASE : U8 := 0b11000000
/-- `RET_CC_OPMASK` (`/repo/src/lib.rs` 224). -/
def RET_CC_OPMASK : U8 := 0b11000111
/-- `RETI_OPCODE_T2` (`/repo/src/lib.rs` 226). -/
def RETI_OPCODE_T2 : U8 × U8 := (ED_PREFIX, 0x4D)
/-- `RETN_OPCODE_T2` (`/repo/src/lib.rs` 228). -/
def RETN_OPCODE_T2 : U8 × U8 := (ED_PREFIX, 0x45)
/-- `RETN_OP2_BASE` (`/repo/src/lib.rs` 232). -/
def RETN_OP2_BASE : U8 := 0b01000101
/-- `RETN_OP2_MASK` (`/repo/src/lib.rs` 234). -/
def RETN_OP2_MASK : U8 := 0b11000111
/-- `CALL_OPCODE` (`/repo/src/lib.rs` 236). -/
def CALL_OPCODE : U8 := 0xCD
/-- `CALL_CC_OPBASE` (`/repo/src/lib.rs` 242). -/
def CALL_CC_OPBASE : U8 := 0b11000100
/-- `CALL_CC_OPMASK` (`/repo/src/lib.rs` 244). -/
def CALL_CC_OPMASK : U8 := 0b11000111
/-- `JP_OPCODE` (`/repo/src/lib.rs` 246). -/
def JP_OPCODE : U8 := 0xC3
/-- `JP_CC_OPBASE` (`/repo/src/lib.rs` 252). -/
def JP_CC_OPBASE : U8 := 0b11000010
/-- `JP_CC_OPMASK` (`/repo/src/lib.rs` 254). -/
def JP_CC_OPMASK : U8 := 0b11000111
/-- `JR_OPCODE` (`/repo/src/lib.rs` 256). -/
def JR_OPCODE : U8 := 0x18
/-- `JR_CC_OPBASE` (`/repo/src/lib.rs` 264). -/
def JR_CC_OPBASE : U8 := 0b00100000
/-- `JR_CC_OPMASK` (`/repo/src/lib.rs` 266). -/
def JR_CC_OPMASK : U8 := 0b11100111
/-- `RST_00H_OPCODE` (`/repo/src/lib.rs` 268). -/
def RST_00H_OPCODE : U8 := 0xC7
/-- `RST_08H_OPCODE` (`/repo/src/lib.rs` 270). -/
def RST_08H_OPCODE : U8 := 0xCF
/-- `RST_10H_OPCODE` (`/repo/src/lib.rs` 272). -/
def RST_10H_OPCODE : U8 := 0xD7
/-- `RST_18H_OPCODE` (`/repo/src/lib.rs` 274). -/
def RST_18H_OPCODE : U8 := 0xDF
/-- `RST_20H_OPCODE` (`/repo/src/lib.rs` 276). -/
def RST_20H_OPCODE : U8 := 0xE7
/-- `RST_28H_OPCODE` (`/repo/src/lib.rs` 278). -/
def RST_28H_OPCODE : U8 := 0xEF
/-- `RST_30H_OPCODE` (`/repo/src/lib.rs` 280). -/
def RST_30H_OPCODE : U8 := 0xF7
/-- `RST_38H_OPCODE` (`/repo/src/lib.rs` 282). -/
def RST_38H_OPCODE : U8 := 0xFF
/-- `RST_OPBASE` (`/repo/src/lib.rs` 289). -/
def RST_OPBASE : U8 := 0b11000111
/-- `RST_OPMASK` (`/repo/src/lib.rs` 291). -/
def RST_OPMASK : U8 := 0b11000111
/-- `DJNZ_OPCODE` (`/repo/src/lib.rs` 293). -/
def DJNZ_OPCODE : U8 := 0x10

end Op

open Op

variable {Q : Type}

/-- `was_just_a_call` (`/repo/examples/ral1243/src/debug.rs` 457-467); `none` if the index into the code panics. -/
def wasJustACall (deb : CpuDebug) (cpu : Cpu Q) : Option Bool :=
  match deb.code[0]? with
  | none => none
  | some op =>
    if op = CALL_OPCODE then some true
    else if op &&& RST_OPMASK = RST_OPBASE then some true
    else if op &&& CALL_CC_OPMASK = CALL_CC_OPBASE then some ((Cond.fromCode op).isSatisfied cpu.getFlags)
    else some false

/-- The arms of `was_just_a_ret` after the one for ED (`/repo/examples/ral1243/src/debug.rs` 475-478). -/
def wasJustARetCc (op : U8) (cpu : Cpu Q) : Bool :=
  if op &&& RET_CC_OPMASK = RET_CC_OPBASE then (Cond.fromCode op).isSatisfied cpu.getFlags else false

/-- `was_just_a_ret` (`/repo/examples/ral1243/src/debug.rs` 470-480); `none` if an index into the code panics. -/
def wasJustARet (deb : CpuDebug) (cpu : Cpu Q) : Option Bool :=
  match deb.code[0]? with
  | none => none
  | some op =>
    if op = RET_OPCODE then some true
    else if op = ED_PREFIX then
      match deb.code[1]? with
      | none => none
      | some b => if b &&& RETN_OP2_MASK = RETN_OP2_BASE then some true else some (wasJustARetCc op cpu)
    else some (wasJustARetCc op cpu)

end Z80
