import Verif.Model.Parse
import Verif.Model.Flavour

/-!
# The CPU structure and its pure methods (`/repo/src/z80.rs`)

`GeneralRegisters` and `IndexRegisters` (`/repo/src/cpu/registers.rs` 35-48) are flattened
into the structure. `pc`, `sp` and `memptr` are only ever used as 16-bit values in Rust and
are stored as words here.
-/

namespace Z80
open F

/-- `struct Z80<Q>` (`/repo/src/z80.rs` 51-70). -/
structure Cpu (Q : Type) where
  af : RegPair
  afAlt : RegPair
  bc : RegPair
  de : RegPair
  hl : RegPair
  bcAlt : RegPair
  deAlt : RegPair
  hlAlt : RegPair
  ix : RegPair
  iy : RegPair
  pc : U16
  sp : U16
  memptr : U16
  lastEi : Bool
  ir : RegPair
  im : IntMode
  iff1 : Bool
  iff2 : Bool
  halt : Bool
  pfx : Option Prefix
  r : U8
  flavour : Q
deriving DecidableEq, Repr

/-- `is_int_allowed` (`/repo/src/z80.rs` 75-77). -/
def isIntAllowed (pfx : Option Prefix) (lastEi : Bool) : Bool := pfx.isNone && !lastEi

namespace Cpu
variable {Q : Type} (c : Cpu Q)

/-- `#[derive(Default)]` of `Z80` (`/repo/src/z80.rs` 50): all fields zero. -/
def default [Flavour Q] : Cpu Q where
  af := ⟨0, 0⟩
  afAlt := ⟨0, 0⟩
  bc := ⟨0, 0⟩
  de := ⟨0, 0⟩
  hl := ⟨0, 0⟩
  bcAlt := ⟨0, 0⟩
  deAlt := ⟨0, 0⟩
  hlAlt := ⟨0, 0⟩
  ix := ⟨0, 0⟩
  iy := ⟨0, 0⟩
  pc := 0
  sp := 0
  memptr := 0
  lastEi := false
  ir := ⟨0, 0⟩
  im := .mode0
  iff1 := false
  iff2 := false
  halt := false
  pfx := none
  r := 0
  flavour := Flavour.dflt

/-- `reset` (`/repo/src/z80.rs` 144-167). -/
def reset [Flavour Q] : Cpu Q :=
  { c with
    af := .of16 0xFFFF
    afAlt := .of16 0xFFFF
    bc := .of16 0
    de := .of16 0
    hl := .of16 0
    bcAlt := .of16 0
    deAlt := .of16 0
    hlAlt := .of16 0
    ix := .of16 0
    iy := .of16 0
    pc := 0
    sp := 0xFFFF
    memptr := 0
    lastEi := false
    ir := .of16 0
    im := .mode0
    iff1 := false
    iff2 := false
    halt := false
    pfx := none
    r := 0
    flavour := Flavour.reset c.flavour }

/-- `Z80::new` (`/repo/src/z80.rs` 81-85). -/
def new [Flavour Q] : Cpu Q := (default : Cpu Q).reset

/-- `get_memptr` (`/repo/src/z80.rs` 89-91). -/
def getMemptr : U16 := c.memptr
/-- `set_memptr` (`/repo/src/z80.rs` 95-97). -/
def setMemptr (v : U16) : Cpu Q := { c with memptr := v }

/-- `get_pc` (`/repo/src/z80.rs` 170-172). -/
def getPc : U16 := c.pc
/-- `set_pc` (`/repo/src/z80.rs` 175-177). -/
def setPc (v : U16) : Cpu Q := { c with pc := v }
/-- `get_sp` (`/repo/src/z80.rs` 180-182). -/
def getSp : U16 := c.sp
/-- `set_sp` (`/repo/src/z80.rs` 185-187). -/
def setSp (v : U16) : Cpu Q := { c with sp := v }
/-- `get_acc` (`/repo/src/z80.rs` 190-192). -/
def getAcc : U8 := c.af.hi
/-- `set_acc` (`/repo/src/z80.rs` 195-197). -/
def setAcc (v : U8) : Cpu Q := { c with af := { c.af with hi := v } }
/-- `get_flags` (`/repo/src/z80.rs` 200-202). -/
def getFlags : U8 := c.af.lo
/-- `set_flags` (`/repo/src/z80.rs` 205-207). -/
def setFlags (f : U8) : Cpu Q := { c with af := { c.af with lo := f } }
/-- `inc_r` (`/repo/src/z80.rs` 210-212). -/
def incR : Cpu Q := { c with r := c.r + 1#8 }
/-- `add_r` (`/repo/src/z80.rs` 215-217); `delta as u8` keeps the low byte of the `i32`. -/
def addR (delta : BitVec 32) : Cpu Q := { c with r := c.r + delta.setWidth 8 }
/-- `get_r` (`/repo/src/z80.rs` 220-223). -/
def getR : U8 := (c.ir.lo &&& 0x80#8) ||| (c.r &&& 0x7F#8)
/-- `set_r` (`/repo/src/z80.rs` 226-229). -/
def setR (v : U8) : Cpu Q := { c with r := v, ir := { c.ir with lo := v } }
/-- `normalize_r` (`/repo/src/z80.rs` 102-104). -/
def normalizeR : Cpu Q := c.setR c.getR
/-- `get_i` (`/repo/src/z80.rs` 232-234). -/
def getI : U8 := c.ir.hi
/-- `set_i` (`/repo/src/z80.rs` 237-239). -/
def setI (v : U8) : Cpu Q := { c with ir := { c.ir with hi := v } }
/-- `get_ir` (`/repo/src/z80.rs` 242-245). -/
def getIr : U16 := (c.ir.get16 &&& 0xFF80#16) ||| (c.r.setWidth 16 &&& 0x007F#16)
/-- `get_iffs` (`/repo/src/z80.rs` 248-250). -/
def getIffs : Bool × Bool := (c.iff1, c.iff2)
/-- `set_iffs` (`/repo/src/z80.rs` 253-256). -/
def setIffs (a b : Bool) : Cpu Q := { c with iff1 := a, iff2 := b }
/-- `halt` (`/repo/src/z80.rs` 259-261). -/
def doHalt : Cpu Q := { c with halt := true }
/-- `is_halt` (`/repo/src/z80.rs` 264-266). -/
def isHalt : Bool := c.halt
/-- `get_im` (`/repo/src/z80.rs` 269-271). -/
def getIm : IntMode := c.im
/-- `set_im` (`/repo/src/z80.rs` 274-276). -/
def setIm (m : IntMode) : Cpu Q := { c with im := m }
/-- `ex_af_af` (`/repo/src/z80.rs` 279-281). -/
def exAfAf : Cpu Q := { c with af := c.afAlt, afAlt := c.af }
/-- `exx` (`/repo/src/z80.rs` 284-286). -/
def exx : Cpu Q :=
  { c with bc := c.bcAlt, de := c.deAlt, hl := c.hlAlt,
           bcAlt := c.bc, deAlt := c.de, hlAlt := c.hl }

/-- `get_reg` (`/repo/src/z80.rs` 289-307). -/
def getReg (reg : Reg8) (p : Option Prefix) : U8 :=
  match reg with
  | .B => c.bc.hi
  | .C => c.bc.lo
  | .D => c.de.hi
  | .E => c.de.lo
  | .H => match p with | none => c.hl.hi | some .xdd => c.ix.hi | some .yfd => c.iy.hi
  | .L => match p with | none => c.hl.lo | some .xdd => c.ix.lo | some .yfd => c.iy.lo
  | .A => c.af.hi

/-- `set_reg` (`/repo/src/z80.rs` 310-314) through `reg8_ptr`
(`/repo/src/z80/internal.rs` 257-275). -/
def setReg (dst : Reg8) (p : Option Prefix) (v : U8) : Cpu Q :=
  match dst with
  | .B => { c with bc := { c.bc with hi := v } }
  | .C => { c with bc := { c.bc with lo := v } }
  | .D => { c with de := { c.de with hi := v } }
  | .E => { c with de := { c.de with lo := v } }
  | .H => match p with
    | none => { c with hl := { c.hl with hi := v } }
    | some .xdd => { c with ix := { c.ix with hi := v } }
    | some .yfd => { c with iy := { c.iy with hi := v } }
  | .L => match p with
    | none => { c with hl := { c.hl with lo := v } }
    | some .xdd => { c with ix := { c.ix with lo := v } }
    | some .yfd => { c with iy := { c.iy with lo := v } }
  | .A => { c with af := { c.af with hi := v } }

/-- `stkreg16_ref` (`/repo/src/z80/internal.rs` 298-305). -/
def stkRef (src : StkReg16) : RegPair :=
  match src with | .BC => c.bc | .DE => c.de | .HL => c.hl | .AF => c.af
/-- `stkreg16_alt_ref` (`/repo/src/z80/internal.rs` 308-315). -/
def stkAltRef (src : StkReg16) : RegPair :=
  match src with | .BC => c.bcAlt | .DE => c.deAlt | .HL => c.hlAlt | .AF => c.afAlt
/-- Assignment through `stkreg16_mut` (`/repo/src/z80/internal.rs` 346-353). -/
def setStk (src : StkReg16) (v : RegPair) : Cpu Q :=
  match src with
  | .BC => { c with bc := v } | .DE => { c with de := v }
  | .HL => { c with hl := v } | .AF => { c with af := v }

/-- `get_reg2` (`/repo/src/z80.rs` 317-319). -/
def getReg2 (src : StkReg16) : U8 × U8 := ((c.stkRef src).hi, (c.stkRef src).lo)
/-- `get_alt_reg2` (`/repo/src/z80.rs` 322-324). -/
def getAltReg2 (src : StkReg16) : U8 × U8 := ((c.stkAltRef src).hi, (c.stkAltRef src).lo)
/-- `get_reg16` (`/repo/src/z80.rs` 327-329). -/
def getReg16 (src : StkReg16) : U16 := (c.stkRef src).get16
/-- `get_alt_reg16` (`/repo/src/z80.rs` 332-334). -/
def getAltReg16 (src : StkReg16) : U16 := (c.stkAltRef src).get16
/-- `set_reg2` (`/repo/src/z80.rs` 337-339). -/
def setReg2 (src : StkReg16) (hi lo : U8) : Cpu Q := c.setStk src ⟨hi, lo⟩
/-- `set_reg16` (`/repo/src/z80.rs` 342-344). -/
def setReg16 (src : StkReg16) (v : U16) : Cpu Q := c.setStk src (.of16 v)

/-- `index16_ref` (`/repo/src/z80/internal.rs` 328-333). -/
def indexRef (p : Prefix) : RegPair := match p with | .xdd => c.ix | .yfd => c.iy
/-- Assignment through `index16_mut` (`/repo/src/z80/internal.rs` 356-361). -/
def setIndexRef (p : Prefix) (v : RegPair) : Cpu Q :=
  match p with | .xdd => { c with ix := v } | .yfd => { c with iy := v }
/-- `get_index2` (`/repo/src/z80.rs` 347-349). -/
def getIndex2 (p : Prefix) : U8 × U8 := ((c.indexRef p).hi, (c.indexRef p).lo)
/-- `get_index16` (`/repo/src/z80.rs` 352-354). -/
def getIndex16 (p : Prefix) : U16 := (c.indexRef p).get16
/-- `set_index2` (`/repo/src/z80.rs` 357-359). -/
def setIndex2 (p : Prefix) (hi lo : U8) : Cpu Q := c.setIndexRef p ⟨hi, lo⟩
/-- `set_index16` (`/repo/src/z80.rs` 362-364). -/
def setIndex16 (p : Prefix) (v : U16) : Cpu Q := c.setIndexRef p (.of16 v)

/-- Value through `reg16_ref` (`/repo/src/z80/internal.rs` 288-295). -/
def reg16 (r : Reg16) : U16 :=
  match r with | .BC => c.bc.get16 | .DE => c.de.get16 | .HL => c.hl.get16 | .SP => c.sp
/-- Assignment through `reg16_mut` (`/repo/src/z80/internal.rs` 336-343). -/
def setReg16' (r : Reg16) (v : U16) : Cpu Q :=
  match r with
  | .BC => { c with bc := .of16 v } | .DE => { c with de := .of16 v }
  | .HL => { c with hl := .of16 v } | .SP => { c with sp := v }
/-- `get_prefix_reg16` (`/repo/src/z80/internal.rs` 318-325). -/
def prefixReg16 (r : Reg16) (p : Prefix) : U16 :=
  match r with
  | .BC => c.bc.get16 | .DE => c.de.get16 | .HL => c.getIndex16 p | .SP => c.sp

/-- `is_irq_allowed` (`/repo/src/z80.rs` 367-369). -/
def isIrqAllowed : Bool := c.iff1 && isIntAllowed c.pfx c.lastEi
/-- `is_nmi_allowed` (`/repo/src/z80.rs` 372-374). -/
def isNmiAllowed : Bool := isIntAllowed c.pfx c.lastEi
/-- `restore_iff1` (`/repo/src/z80.rs` 377-379). -/
def restoreIff1 : Cpu Q := { c with iff1 := c.iff2 }
/-- `disable_interrupts` (`/repo/src/z80.rs` 382-385). -/
def disableInterrupts : Cpu Q := { c with iff1 := false, iff2 := false }
/-- `enable_interrupts` (`/repo/src/z80.rs` 388-392). -/
def enableInterrupts : Cpu Q := { c with iff1 := true, iff2 := true, lastEi := true }
/-- `is_after_ei` (`/repo/src/z80.rs` 395-397). -/
def isAfterEi : Bool := c.lastEi
/-- `is_after_prefix` (`/repo/src/z80.rs` 400-402). -/
def isAfterPrefix : Bool := c.pfx.isSome
/-- `get_prefix` (`/repo/src/z80.rs` 405-407). -/
def getPrefix : Option Prefix := c.pfx

/-- `into_flavour` (`/repo/src/z80.rs` 109-131); `conv` is the `From` conversion. -/
def intoFlavour {Q' : Type} (conv : Q → Q') : Cpu Q' where
  af := c.af
  afAlt := c.afAlt
  bc := c.bc
  de := c.de
  hl := c.hl
  bcAlt := c.bcAlt
  deAlt := c.deAlt
  hlAlt := c.hlAlt
  ix := c.ix
  iy := c.iy
  pc := c.pc
  sp := c.sp
  memptr := c.memptr
  lastEi := c.lastEi
  ir := c.ir
  im := c.im
  iff1 := c.iff1
  iff2 := c.iff2
  halt := c.halt
  pfx := c.pfx
  r := c.r
  flavour := conv c.flavour

end Cpu
end Z80
