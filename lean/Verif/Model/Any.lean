import Verif.Model.Run

/-!
# `Z80Any` (`/repo/src/z80/any.rs`)

An enumeration of the CPU with each of the three flavours. Every method dispatches on the variant
with the macro `cpu_dispatch_any!` and calls the method of the same name. A panic of `unwrap_*` is
`none`.
-/

namespace Z80
variable {σ : Sig}

/-- `enum Z80Any` (`/repo/src/z80/any.rs` 42-46). -/
inductive Any
  | nmos (c : Cpu NMOS)
  | cmos (c : Cpu CMOS)
  | bm1 (c : Cpu BM1)
deriving DecidableEq, Repr

/-- `Flavour::cpu_into_any` and `Flavour::unwrap_cpu_any` of the three flavours
(`/repo/src/z80/flavours.rs` 40-46, 117-123, 144-150, 183-189) and the conversions between flavours
used by `From<Z80Any> for Z80<Q>`. -/
class AnyFlavour (Q : Type) [Flavour Q] where
  /-- `cpu_into_any` -/
  toAny : Cpu Q → Any
  /-- `unwrap_cpu_any`; `none` is the panic -/
  unwrap : Any → Option (Cpu Q)
  /-- `From<NMOS>` -/
  ofNMOS : NMOS → Q
  /-- `From<CMOS>` -/
  ofCMOS : CMOS → Q
  /-- `From<BM1>` -/
  ofBM1 : BM1 → Q

namespace Any

/-- `unwrap_nmos` (`/repo/src/z80/any.rs` 148-155). -/
def unwrapNmos : Any → Option (Cpu NMOS) | .nmos c => some c | _ => none
/-- `unwrap_cmos` (`/repo/src/z80/any.rs` 161-168). -/
def unwrapCmos : Any → Option (Cpu CMOS) | .cmos c => some c | _ => none
/-- `unwrap_bm1` (`/repo/src/z80/any.rs` 174-181). -/
def unwrapBm1 : Any → Option (Cpu BM1) | .bm1 c => some c | _ => none

end Any

/-- NMOS (`/repo/src/z80/flavours.rs` 117-123, 199-203, 224-228; `From<T> for T` of core). -/
instance : AnyFlavour NMOS := ⟨.nmos, Any.unwrapNmos, id, NMOS.ofCMOS, NMOS.ofBM1⟩
/-- CMOS (`/repo/src/z80/flavours.rs` 144-150, 193-197, 206-210). -/
instance : AnyFlavour CMOS := ⟨.cmos, Any.unwrapCmos, CMOS.ofNMOS, id, CMOS.ofBM1⟩
/-- BM1 (`/repo/src/z80/flavours.rs` 183-189, 212-222). -/
instance : AnyFlavour BM1 := ⟨.bm1, Any.unwrapBm1, BM1.ofNMOS, BM1.ofCMOS, id⟩

namespace Any

/-- `From<Z80Any> for Z80<Q>` (`/repo/src/z80/any.rs` 54-60). -/
def toCpu {Q : Type} [Flavour Q] [AnyFlavour Q] : Any → Cpu Q
  | .nmos c => c.intoFlavour (AnyFlavour.ofNMOS (Q := Q))
  | .cmos c => c.intoFlavour (AnyFlavour.ofCMOS (Q := Q))
  | .bm1 c => c.intoFlavour (AnyFlavour.ofBM1 (Q := Q))

/-- `tag` (`/repo/src/z80/any.rs` 64-70), also `Display` (206-210). -/
def tag : Any → String
  | .nmos _ => Flavour.tag NMOS
  | .cmos _ => Flavour.tag CMOS
  | .bm1 _ => Flavour.tag BM1

/-- `new_nmos` (`/repo/src/z80/any.rs` 91-93). -/
def newNmos : Any := .nmos Cpu.new
/-- `new_cmos` (`/repo/src/z80/any.rs` 96-98). -/
def newCmos : Any := .cmos Cpu.new
/-- `new_bm1` (`/repo/src/z80/any.rs` 101-103). -/
def newBm1 : Any := .bm1 Cpu.new

/-- `str::eq_ignore_ascii_case` of core, character by character; `Char.toLower` changes ASCII letters
only. -/
def eqIgnoreAsciiCase (a b : String) : Bool := a.toList.map Char.toLower == b.toList.map Char.toLower

/-- `with_tag` (`/repo/src/z80/any.rs` 75-88). -/
def withTag (s : String) : Option Any :=
  if eqIgnoreAsciiCase s "NMOS" then some newNmos
  else if eqIgnoreAsciiCase s "CMOS" then some newCmos
  else if eqIgnoreAsciiCase s "BM1" then some newBm1
  else none

/-- `Default` (`/repo/src/z80/any.rs` 199-203). -/
def dflt : Any := .nmos Cpu.default

/-- `is_nmos` (`/repo/src/z80/any.rs` 106-111). -/
def isNmos : Any → Bool | .nmos _ => true | _ => false
/-- `is_cmos` (`/repo/src/z80/any.rs` 114-119). -/
def isCmos : Any → Bool | .cmos _ => true | _ => false
/-- `is_bm1` (`/repo/src/z80/any.rs` 122-127). -/
def isBm1 : Any → Bool | .bm1 _ => true | _ => false

/-- `into_nmos` (`/repo/src/z80/any.rs` 130-132). -/
def intoNmos : Any → Any
  | .nmos c => .nmos (c.intoFlavour id)
  | .cmos c => .nmos (c.intoFlavour NMOS.ofCMOS)
  | .bm1 c => .nmos (c.intoFlavour NMOS.ofBM1)
/-- `into_cmos` (`/repo/src/z80/any.rs` 135-137). -/
def intoCmos : Any → Any
  | .nmos c => .cmos (c.intoFlavour CMOS.ofNMOS)
  | .cmos c => .cmos (c.intoFlavour id)
  | .bm1 c => .cmos (c.intoFlavour CMOS.ofBM1)
/-- `into_bm1` (`/repo/src/z80/any.rs` 140-142). -/
def intoBm1 : Any → Any
  | .nmos c => .bm1 (c.intoFlavour BM1.ofNMOS)
  | .cmos c => .bm1 (c.intoFlavour BM1.ofCMOS)
  | .bm1 c => .bm1 (c.intoFlavour id)

/-! ### Methods with a result -/

/-- `get_memptr` (`/repo/src/z80/any.rs` 184-186). -/
def getMemptr (z : Any) : U16 :=
  match z with | .nmos c => c.getMemptr | .cmos c => c.getMemptr | .bm1 c => c.getMemptr
/-- `get_pc` (`/repo/src/z80/any.rs` 219-221). -/
def getPc (z : Any) : U16 :=
  match z with | .nmos c => c.getPc | .cmos c => c.getPc | .bm1 c => c.getPc
/-- `get_sp` (`/repo/src/z80/any.rs` 227-229). -/
def getSp (z : Any) : U16 :=
  match z with | .nmos c => c.getSp | .cmos c => c.getSp | .bm1 c => c.getSp
/-- `get_acc` (`/repo/src/z80/any.rs` 235-237). -/
def getAcc (z : Any) : U8 :=
  match z with | .nmos c => c.getAcc | .cmos c => c.getAcc | .bm1 c => c.getAcc
/-- `get_flags` (`/repo/src/z80/any.rs` 243-245). -/
def getFlags (z : Any) : U8 :=
  match z with | .nmos c => c.getFlags | .cmos c => c.getFlags | .bm1 c => c.getFlags
/-- `get_r` (`/repo/src/z80/any.rs` 259-261). -/
def getR (z : Any) : U8 :=
  match z with | .nmos c => c.getR | .cmos c => c.getR | .bm1 c => c.getR
/-- `get_i` (`/repo/src/z80/any.rs` 267-269). -/
def getI (z : Any) : U8 :=
  match z with | .nmos c => c.getI | .cmos c => c.getI | .bm1 c => c.getI
/-- `get_ir` (`/repo/src/z80/any.rs` 275-277). -/
def getIr (z : Any) : U16 :=
  match z with | .nmos c => c.getIr | .cmos c => c.getIr | .bm1 c => c.getIr
/-- `get_iffs` (`/repo/src/z80/any.rs` 279-281). -/
def getIffs (z : Any) : Bool × Bool :=
  match z with | .nmos c => c.getIffs | .cmos c => c.getIffs | .bm1 c => c.getIffs
/-- `is_halt` (`/repo/src/z80/any.rs` 291-293). -/
def isHalt (z : Any) : Bool :=
  match z with | .nmos c => c.isHalt | .cmos c => c.isHalt | .bm1 c => c.isHalt
/-- `get_im` (`/repo/src/z80/any.rs` 295-297). -/
def getIm (z : Any) : IntMode :=
  match z with | .nmos c => c.getIm | .cmos c => c.getIm | .bm1 c => c.getIm
/-- `get_reg` (`/repo/src/z80/any.rs` 311-313). -/
def getReg (z : Any) (reg : Reg8) (p : Option Prefix) : U8 :=
  match z with | .nmos c => c.getReg reg p | .cmos c => c.getReg reg p | .bm1 c => c.getReg reg p
/-- `get_reg2` (`/repo/src/z80/any.rs` 319-321). -/
def getReg2 (z : Any) (src : StkReg16) : U8 × U8 :=
  match z with | .nmos c => c.getReg2 src | .cmos c => c.getReg2 src | .bm1 c => c.getReg2 src
/-- `get_alt_reg2` (`/repo/src/z80/any.rs` 323-325). -/
def getAltReg2 (z : Any) (src : StkReg16) : U8 × U8 :=
  match z with | .nmos c => c.getAltReg2 src | .cmos c => c.getAltReg2 src | .bm1 c => c.getAltReg2 src
/-- `get_reg16` (`/repo/src/z80/any.rs` 327-329). -/
def getReg16 (z : Any) (src : StkReg16) : U16 :=
  match z with | .nmos c => c.getReg16 src | .cmos c => c.getReg16 src | .bm1 c => c.getReg16 src
/-- `get_alt_reg16` (`/repo/src/z80/any.rs` 331-333). -/
def getAltReg16 (z : Any) (src : StkReg16) : U16 :=
  match z with | .nmos c => c.getAltReg16 src | .cmos c => c.getAltReg16 src | .bm1 c => c.getAltReg16 src
/-- `get_index2` (`/repo/src/z80/any.rs` 343-345). -/
def getIndex2 (z : Any) (p : Prefix) : U8 × U8 :=
  match z with | .nmos c => c.getIndex2 p | .cmos c => c.getIndex2 p | .bm1 c => c.getIndex2 p
/-- `get_index16` (`/repo/src/z80/any.rs` 347-349). -/
def getIndex16 (z : Any) (p : Prefix) : U16 :=
  match z with | .nmos c => c.getIndex16 p | .cmos c => c.getIndex16 p | .bm1 c => c.getIndex16 p
/-- `is_irq_allowed` (`/repo/src/z80/any.rs` 359-361). -/
def isIrqAllowed (z : Any) : Bool :=
  match z with | .nmos c => c.isIrqAllowed | .cmos c => c.isIrqAllowed | .bm1 c => c.isIrqAllowed
/-- `is_nmi_allowed` (`/repo/src/z80/any.rs` 363-365). -/
def isNmiAllowed (z : Any) : Bool :=
  match z with | .nmos c => c.isNmiAllowed | .cmos c => c.isNmiAllowed | .bm1 c => c.isNmiAllowed
/-- `is_after_ei` (`/repo/src/z80/any.rs` 379-381). -/
def isAfterEi (z : Any) : Bool :=
  match z with | .nmos c => c.isAfterEi | .cmos c => c.isAfterEi | .bm1 c => c.isAfterEi
/-- `is_after_prefix` (`/repo/src/z80/any.rs` 383-385). -/
def isAfterPrefix (z : Any) : Bool :=
  match z with | .nmos c => c.isAfterPrefix | .cmos c => c.isAfterPrefix | .bm1 c => c.isAfterPrefix
/-- `get_prefix` (`/repo/src/z80/any.rs` 387-389). -/
def getPrefix (z : Any) : Option Prefix :=
  match z with | .nmos c => c.getPrefix | .cmos c => c.getPrefix | .bm1 c => c.getPrefix

/-! ### Methods that change the state -/

/-- `set_memptr` (`/repo/src/z80/any.rs` 189-191). -/
def setMemptr (z : Any) (v : U16) : Any :=
  match z with | .nmos c => .nmos (c.setMemptr v) | .cmos c => .cmos (c.setMemptr v) | .bm1 c => .bm1 (c.setMemptr v)
/-- `normalize_r` (`/repo/src/z80/any.rs` 196-198). -/
def normalizeR (z : Any) : Any :=
  match z with | .nmos c => .nmos c.normalizeR | .cmos c => .cmos c.normalizeR | .bm1 c => .bm1 c.normalizeR
/-- `reset` (`/repo/src/z80/any.rs` 215-217). -/
def reset (z : Any) : Any :=
  match z with | .nmos c => .nmos c.reset | .cmos c => .cmos c.reset | .bm1 c => .bm1 c.reset
/-- `set_pc` (`/repo/src/z80/any.rs` 223-225). -/
def setPc (z : Any) (v : U16) : Any :=
  match z with | .nmos c => .nmos (c.setPc v) | .cmos c => .cmos (c.setPc v) | .bm1 c => .bm1 (c.setPc v)
/-- `set_sp` (`/repo/src/z80/any.rs` 231-233). -/
def setSp (z : Any) (v : U16) : Any :=
  match z with | .nmos c => .nmos (c.setSp v) | .cmos c => .cmos (c.setSp v) | .bm1 c => .bm1 (c.setSp v)
/-- `set_acc` (`/repo/src/z80/any.rs` 239-241). -/
def setAcc (z : Any) (v : U8) : Any :=
  match z with | .nmos c => .nmos (c.setAcc v) | .cmos c => .cmos (c.setAcc v) | .bm1 c => .bm1 (c.setAcc v)
/-- `set_flags` (`/repo/src/z80/any.rs` 247-249). -/
def setFlags (z : Any) (f : U8) : Any :=
  match z with | .nmos c => .nmos (c.setFlags f) | .cmos c => .cmos (c.setFlags f) | .bm1 c => .bm1 (c.setFlags f)
/-- `inc_r` (`/repo/src/z80/any.rs` 251-253). -/
def incR (z : Any) : Any :=
  match z with | .nmos c => .nmos c.incR | .cmos c => .cmos c.incR | .bm1 c => .bm1 c.incR
/-- `add_r` (`/repo/src/z80/any.rs` 255-257). -/
def addR (z : Any) (delta : BitVec 32) : Any :=
  match z with | .nmos c => .nmos (c.addR delta) | .cmos c => .cmos (c.addR delta) | .bm1 c => .bm1 (c.addR delta)
/-- `set_r` (`/repo/src/z80/any.rs` 263-265). -/
def setR (z : Any) (v : U8) : Any :=
  match z with | .nmos c => .nmos (c.setR v) | .cmos c => .cmos (c.setR v) | .bm1 c => .bm1 (c.setR v)
/-- `set_i` (`/repo/src/z80/any.rs` 271-273). -/
def setI (z : Any) (v : U8) : Any :=
  match z with | .nmos c => .nmos (c.setI v) | .cmos c => .cmos (c.setI v) | .bm1 c => .bm1 (c.setI v)
/-- `set_iffs` (`/repo/src/z80/any.rs` 283-285). -/
def setIffs (z : Any) (a b : Bool) : Any :=
  match z with | .nmos c => .nmos (c.setIffs a b) | .cmos c => .cmos (c.setIffs a b) | .bm1 c => .bm1 (c.setIffs a b)
/-- `halt` (`/repo/src/z80/any.rs` 287-289). -/
def doHalt (z : Any) : Any :=
  match z with | .nmos c => .nmos c.doHalt | .cmos c => .cmos c.doHalt | .bm1 c => .bm1 c.doHalt
/-- `set_im` (`/repo/src/z80/any.rs` 299-301). -/
def setIm (z : Any) (m : IntMode) : Any :=
  match z with | .nmos c => .nmos (c.setIm m) | .cmos c => .cmos (c.setIm m) | .bm1 c => .bm1 (c.setIm m)
/-- `ex_af_af` (`/repo/src/z80/any.rs` 303-305). -/
def exAfAf (z : Any) : Any :=
  match z with | .nmos c => .nmos c.exAfAf | .cmos c => .cmos c.exAfAf | .bm1 c => .bm1 c.exAfAf
/-- `exx` (`/repo/src/z80/any.rs` 307-309). -/
def exx (z : Any) : Any :=
  match z with | .nmos c => .nmos c.exx | .cmos c => .cmos c.exx | .bm1 c => .bm1 c.exx
/-- `set_reg` (`/repo/src/z80/any.rs` 315-317). -/
def setReg (z : Any) (dst : Reg8) (p : Option Prefix) (v : U8) : Any :=
  match z with | .nmos c => .nmos (c.setReg dst p v) | .cmos c => .cmos (c.setReg dst p v) | .bm1 c => .bm1 (c.setReg dst p v)
/-- `set_reg2` (`/repo/src/z80/any.rs` 335-337). -/
def setReg2 (z : Any) (src : StkReg16) (hi lo : U8) : Any :=
  match z with | .nmos c => .nmos (c.setReg2 src hi lo) | .cmos c => .cmos (c.setReg2 src hi lo) | .bm1 c => .bm1 (c.setReg2 src hi lo)
/-- `set_reg16` (`/repo/src/z80/any.rs` 339-341). -/
def setReg16 (z : Any) (src : StkReg16) (v : U16) : Any :=
  match z with | .nmos c => .nmos (c.setReg16 src v) | .cmos c => .cmos (c.setReg16 src v) | .bm1 c => .bm1 (c.setReg16 src v)
/-- `set_index2` (`/repo/src/z80/any.rs` 351-353). -/
def setIndex2 (z : Any) (p : Prefix) (hi lo : U8) : Any :=
  match z with | .nmos c => .nmos (c.setIndex2 p hi lo) | .cmos c => .cmos (c.setIndex2 p hi lo) | .bm1 c => .bm1 (c.setIndex2 p hi lo)
/-- `set_index16` (`/repo/src/z80/any.rs` 355-357). -/
def setIndex16 (z : Any) (p : Prefix) (v : U16) : Any :=
  match z with | .nmos c => .nmos (c.setIndex16 p v) | .cmos c => .cmos (c.setIndex16 p v) | .bm1 c => .bm1 (c.setIndex16 p v)
/-- `restore_iff1` (`/repo/src/z80/any.rs` 367-369). -/
def restoreIff1 (z : Any) : Any :=
  match z with | .nmos c => .nmos c.restoreIff1 | .cmos c => .cmos c.restoreIff1 | .bm1 c => .bm1 c.restoreIff1
/-- `disable_interrupts` (`/repo/src/z80/any.rs` 371-373). -/
def disableInterrupts (z : Any) : Any :=
  match z with | .nmos c => .nmos c.disableInterrupts | .cmos c => .cmos c.disableInterrupts | .bm1 c => .bm1 c.disableInterrupts
/-- `enable_interrupts` (`/repo/src/z80/any.rs` 375-377). -/
def enableInterrupts (z : Any) : Any :=
  match z with | .nmos c => .nmos c.enableInterrupts | .cmos c => .cmos c.enableInterrupts | .bm1 c => .bm1 c.enableInterrupts

/-! ### Methods that call the host -/

/-- A result with the changed CPU put back into its variant. -/
def back {α Q : Type} (f : Cpu Q → Any) (p : Prog σ (α × Cpu Q)) : Prog σ (α × Any) :=
  p.map fun r => (r.1, f r.2)

/-- `irq` (`/repo/src/z80/any.rs` 391-397). -/
def irq (deb : Bool) (z : Any) : Prog σ (Option (Res σ) × Any) :=
  match z with
  | .nmos c => back .nmos (Z80.irq deb c)
  | .cmos c => back .cmos (Z80.irq deb c)
  | .bm1 c => back .bm1 (Z80.irq deb c)
/-- `nmi` (`/repo/src/z80/any.rs` 399-404). -/
def nmi (z : Any) : Prog σ (Bool × Any) :=
  match z with
  | .nmos c => back .nmos (Z80.nmi c)
  | .cmos c => back .cmos (Z80.nmi c)
  | .bm1 c => back .bm1 (Z80.nmi c)
/-- `execute_instruction` (`/repo/src/z80/any.rs` 406-412). -/
def executeInstruction (deb : Bool) (code : U8) (z : Any) : Prog σ (Res σ × Any) :=
  match z with
  | .nmos c => back .nmos (Z80.executeInstruction deb code c)
  | .cmos c => back .cmos (Z80.executeInstruction deb code c)
  | .bm1 c => back .bm1 (Z80.executeInstruction deb code c)
/-- `execute_next` (`/repo/src/z80/any.rs` 414-420). -/
def executeNext (deb : Bool) (z : Any) : Prog σ (Res σ × Any) :=
  match z with
  | .nmos c => back .nmos (Z80.executeNext deb c)
  | .cmos c => back .cmos (Z80.executeNext deb c)
  | .bm1 c => back .bm1 (Z80.executeNext deb c)
/-- `execute_with_limit` (`/repo/src/z80/any.rs` 422-427), with bounded loops as in
`Z80.executeWithLimit`. -/
def executeWithLimit (n : Nat) (l : σ.L) (z : Any) : Prog σ (Option (Res σ × Any)) :=
  match z with
  | .nmos c => (Z80.executeWithLimit n l c).map fun r => r.map fun r => (r.1, .nmos r.2)
  | .cmos c => (Z80.executeWithLimit n l c).map fun r => r.map fun r => (r.1, .cmos r.2)
  | .bm1 c => (Z80.executeWithLimit n l c).map fun r => r.map fun r => (r.1, .bm1 r.2)

end Any
end Z80
