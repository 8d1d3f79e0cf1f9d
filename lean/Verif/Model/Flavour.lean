import Verif.Model.Flags

/-!
# Flavours (`/repo/src/z80/flavours.rs`)
-/

namespace Z80
open F

/-- Trait `Flavour` (`/repo/src/z80/flavours.rs` 19-53). `cpu_into_any` and `unwrap_cpu_any`
are modelled with `Z80Any`. `reset` is an overridable method of the trait; its default body
resets to the default value and none of the three instances overrides it. -/
class Flavour (Q : Type) where
  /-- `Default::default()` -/
  dflt : Q
  /-- `CONSTANT_OUT_DATA` (line 21) -/
  constOut : U8
  /-- `ACCEPTING_INT_RESETS_IFF2_EARLY` (line 24) -/
  early : Bool
  /-- `tag` (line 26) -/
  tag : String
  /-- `memptr_mix` (line 31): MEMPTR high and low byte -/
  memptrMix : U8 → U8 → U8 × U8
  /-- `begin_instruction` (line 35) -/
  beginInstruction : Q → Q
  /-- `flags_modified` (line 37) -/
  flagsModified : Q → Q
  /-- `get_q` (line 39) -/
  getQ : Q → U8 → U8 → U8
  /-- `reset` (lines 49-52) -/
  reset : Q → Q := fun _ => dflt

/-- `struct NMOS` (`/repo/src/z80/flavours.rs` 59-64). -/
structure NMOS where
  flagsModified : Bool
  lastFlagsModified : Bool
deriving DecidableEq, Repr, Inhabited

/-- `struct CMOS` (`/repo/src/z80/flavours.rs` 70). -/
structure CMOS where
deriving DecidableEq, Repr, Inhabited

/-- `struct BM1` (`/repo/src/z80/flavours.rs` 80-85). -/
structure BM1 where
  flagsModified : Bool
  lastFlagsModified : Bool
deriving DecidableEq, Repr, Inhabited

/-- `impl Flavour for NMOS` (`/repo/src/z80/flavours.rs` 87-124). -/
instance : Flavour NMOS where
  dflt := ⟨false, false⟩
  constOut := 0#8
  early := true
  tag := "NMOS"
  memptrMix msb lsb := (msb, lsb + 1#8)
  beginInstruction q := { lastFlagsModified := q.flagsModified, flagsModified := false }
  flagsModified q := { q with flagsModified := true }
  getQ q acc flags := if q.lastFlagsModified then acc else acc ||| flags

/-- `impl Flavour for CMOS` (`/repo/src/z80/flavours.rs` 126-151). -/
instance : Flavour CMOS where
  dflt := ⟨⟩
  constOut := 0xFF#8
  early := false
  tag := "CMOS"
  memptrMix msb lsb := (msb, lsb + 1#8)
  beginInstruction q := q
  flagsModified q := q
  getQ _ acc _ := acc

/-- `impl Flavour for BM1` (`/repo/src/z80/flavours.rs` 153-190). -/
instance : Flavour BM1 where
  dflt := ⟨false, false⟩
  constOut := 0#8
  early := false
  tag := "BM1"
  memptrMix _ lsb := (0#8, lsb + 1#8)
  beginInstruction q := { lastFlagsModified := q.flagsModified, flagsModified := false }
  flagsModified q := { q with flagsModified := true }
  getQ q acc flags := if q.lastFlagsModified then acc else acc ||| flags

/-- `From<NMOS> for CMOS` (`/repo/src/z80/flavours.rs` 193-197). -/
def CMOS.ofNMOS (_ : NMOS) : CMOS := ⟨⟩
/-- `From<CMOS> for NMOS` (`/repo/src/z80/flavours.rs` 199-203). -/
def NMOS.ofCMOS (_ : CMOS) : NMOS := ⟨false, false⟩
/-- `From<BM1> for CMOS` (`/repo/src/z80/flavours.rs` 206-210). -/
def CMOS.ofBM1 (_ : BM1) : CMOS := ⟨⟩
/-- `From<CMOS> for BM1` (`/repo/src/z80/flavours.rs` 212-216). -/
def BM1.ofCMOS (_ : CMOS) : BM1 := ⟨false, false⟩
/-- `From<NMOS> for BM1` (`/repo/src/z80/flavours.rs` 218-222). -/
def BM1.ofNMOS (q : NMOS) : BM1 := ⟨q.flagsModified, q.lastFlagsModified⟩
/-- `From<BM1> for NMOS` (`/repo/src/z80/flavours.rs` 224-228). -/
def NMOS.ofBM1 (q : BM1) : NMOS := ⟨q.flagsModified, q.lastFlagsModified⟩

end Z80
