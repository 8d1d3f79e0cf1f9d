import Verif.Model.Flags

/-!
# Opcode fields (`/repo/src/cpu/parse.rs`) and interrupt modes

Each `from_code` is modelled by a function `fromCode?` whose `none` is the
`unreachable_unchecked` arm, together with a total function used by the rest of the model.
`Verif/Props/Decode.lean` proves that `fromCode?` is never `none`.
-/

namespace Z80
open F

/-- `Prefix` (`/repo/src/cpu/parse.rs` 19-24). -/
inductive Prefix | xdd | yfd
deriving DecidableEq, Repr, Inhabited

/-- `Prefix::to_code` (`/repo/src/cpu/parse.rs` 29-31). -/
def Prefix.toCode : Prefix → U8
  | .xdd => 0xDD#8
  | .yfd => 0xFD#8

/-- `TryFrom<u8> for Prefix` (`/repo/src/cpu/parse.rs` 42-52). -/
def Prefix.ofCode? (c : U8) : Option Prefix :=
  if c = 0xDD#8 then some .xdd else if c = 0xFD#8 then some .yfd else none

/-- `InterruptMode` (`/repo/src/cpu/registers.rs` 17-26). -/
inductive IntMode | mode0 | mode1 | mode2
deriving DecidableEq, Repr, Inhabited

/-- `InterruptMode::to_mode_number` (`/repo/src/cpu/registers.rs` 51-53). -/
def IntMode.toNum : IntMode → U8
  | .mode0 => 0#8
  | .mode1 => 1#8
  | .mode2 => 2#8

/-- `TryFrom<u8> for InterruptMode` (`/repo/src/cpu/registers.rs` 63-74). -/
def IntMode.ofNum? (n : U8) : Option IntMode :=
  if n = 0#8 then some .mode0 else if n = 1#8 then some .mode1
  else if n = 2#8 then some .mode2 else none

/-- `Reg8` (`/repo/src/cpu/parse.rs` 192-207). -/
inductive Reg8 | B | C | D | E | H | L | A
deriving DecidableEq, Repr, Inhabited

/-- `Reg8::to_code` (macro at `/repo/src/cpu/parse.rs` 77-80, values at 195-203). -/
def Reg8.toCode : Reg8 → U8
  | .B => 0 | .C => 1 | .D => 2 | .E => 3 | .H => 4 | .L => 5 | .A => 7

/-- Result of `Reg8::try_from`: `ok`, `Err(())` for `(HL)`, or the unreachable arm. -/
inductive Reg8Parse | ok (r : Reg8) | err | ub
deriving DecidableEq, Repr

/-- `TryFrom<u8> for Reg8` with its unreachable arm (`/repo/src/cpu/parse.rs` 91-103). -/
def Reg8.tryFrom? (v : U8) : Reg8Parse :=
  let m := v &&& 0b111#8
  if m = 0 then .ok .B else if m = 1 then .ok .C else if m = 2 then .ok .D
  else if m = 3 then .ok .E else if m = 4 then .ok .H else if m = 5 then .ok .L
  else if m = 7 then .ok .A else if m = 6 then .err else .ub

/-- `TryFrom<u8> for Reg8`: `none` is `Err(())` (`/repo/src/cpu/parse.rs` 91-103). -/
def Reg8.tryFrom (v : U8) : Option Reg8 :=
  match Reg8.tryFrom? v with
  | .ok r => some r
  | _ => none

/-- `Reg8::from_b5_3` (`/repo/src/cpu/parse.rs` 322-324). -/
def Reg8.fromB53 (code : U8) : Option Reg8 := Reg8.tryFrom (code >>> 3)
/-- `Reg8::from_b2_0` (`/repo/src/cpu/parse.rs` 328-330). -/
def Reg8.fromB20 (code : U8) : Option Reg8 := Reg8.tryFrom code

/-- `StkReg16` (`/repo/src/cpu/parse.rs` 209-218). -/
inductive StkReg16 | BC | DE | HL | AF
deriving DecidableEq, Repr, Inhabited

/-- `StkReg16::from_code` with its unreachable arm (macro at `/repo/src/cpu/parse.rs` 142-147). -/
def StkReg16.fromCode? (code : U8) : Option StkReg16 :=
  let m := code &&& 0x30#8
  if m = 0x00 then some .BC else if m = 0x10 then some .DE
  else if m = 0x20 then some .HL else if m = 0x30 then some .AF else none
/-- `StkReg16::from_code` (`/repo/src/cpu/parse.rs` 142-147). -/
def StkReg16.fromCode (code : U8) : StkReg16 := (StkReg16.fromCode? code).getD .BC
/-- `StkReg16::to_code` (`/repo/src/cpu/parse.rs` 150-152, values at 212-217). -/
def StkReg16.toCode : StkReg16 → U8
  | .BC => 0x00 | .DE => 0x10 | .HL => 0x20 | .AF => 0x30

/-- `Reg16` (`/repo/src/cpu/parse.rs` 220-228). -/
inductive Reg16 | BC | DE | HL | SP
deriving DecidableEq, Repr, Inhabited

/-- `Reg16::from_code` with its unreachable arm (macro at `/repo/src/cpu/parse.rs` 142-147). -/
def Reg16.fromCode? (code : U8) : Option Reg16 :=
  let m := code &&& 0x30#8
  if m = 0x00 then some .BC else if m = 0x10 then some .DE
  else if m = 0x20 then some .HL else if m = 0x30 then some .SP else none
/-- `Reg16::from_code` (`/repo/src/cpu/parse.rs` 142-147). -/
def Reg16.fromCode (code : U8) : Reg16 := (Reg16.fromCode? code).getD .BC
/-- `Reg16::to_code` (`/repo/src/cpu/parse.rs` 150-152, values at 223-226). -/
def Reg16.toCode : Reg16 → U8
  | .BC => 0x00 | .DE => 0x10 | .HL => 0x20 | .SP => 0x30

/-- `Ops8` (`/repo/src/cpu/parse.rs` 230-242). -/
inductive Ops8 | ADD | ADC | SUB | SBC | AND | XOR | OR | CP
deriving DecidableEq, Repr, Inhabited

/-- `Ops8::from_code` with its unreachable arm (macro at `/repo/src/cpu/parse.rs` 142-147). -/
def Ops8.fromCode? (code : U8) : Option Ops8 :=
  let m := code &&& 0x38#8
  if m = 0x00 then some .ADD else if m = 0x08 then some .ADC
  else if m = 0x10 then some .SUB else if m = 0x18 then some .SBC
  else if m = 0x20 then some .AND else if m = 0x28 then some .XOR
  else if m = 0x30 then some .OR else if m = 0x38 then some .CP else none
/-- `Ops8::from_code` (`/repo/src/cpu/parse.rs` 142-147). -/
def Ops8.fromCode (code : U8) : Ops8 := (Ops8.fromCode? code).getD .ADD

/-- `Rot` (`/repo/src/cpu/parse.rs` 244-256). -/
inductive Rot | RLC | RRC | RL | RR | SLA | SRA | SLL | SRL
deriving DecidableEq, Repr, Inhabited

/-- `Rot::from_code` with its unreachable arm (macro at `/repo/src/cpu/parse.rs` 142-147). -/
def Rot.fromCode? (code : U8) : Option Rot :=
  let m := code &&& 0x38#8
  if m = 0x00 then some .RLC else if m = 0x08 then some .RRC
  else if m = 0x10 then some .RL else if m = 0x18 then some .RR
  else if m = 0x20 then some .SLA else if m = 0x28 then some .SRA
  else if m = 0x30 then some .SLL else if m = 0x38 then some .SRL else none
/-- `Rot::from_code` (`/repo/src/cpu/parse.rs` 142-147). -/
def Rot.fromCode (code : U8) : Rot := (Rot.fromCode? code).getD .RLC

/-- `Condition` (`/repo/src/cpu/parse.rs` 258-271). -/
inductive Cond | NZ | Z | NC | C | PO | PE | P | M
deriving DecidableEq, Repr, Inhabited

/-- `Condition::from_code` with its unreachable arm (macro at `/repo/src/cpu/parse.rs` 142-147). -/
def Cond.fromCode? (code : U8) : Option Cond :=
  let m := code &&& 0x38#8
  if m = 0x00 then some .NZ else if m = 0x08 then some .Z
  else if m = 0x10 then some .NC else if m = 0x18 then some .C
  else if m = 0x20 then some .PO else if m = 0x28 then some .PE
  else if m = 0x30 then some .P else if m = 0x38 then some .M else none
/-- `Condition::from_code` (`/repo/src/cpu/parse.rs` 142-147). -/
def Cond.fromCode (code : U8) : Cond := (Cond.fromCode? code).getD .NZ
/-- `Condition::to_code` (`/repo/src/cpu/parse.rs` 150-152, values at 262-269). -/
def Cond.toCode : Cond → U8
  | .NZ => 0x00 | .Z => 0x08 | .NC => 0x10 | .C => 0x18
  | .PO => 0x20 | .PE => 0x28 | .P => 0x30 | .M => 0x38

/-- `Condition::from_jr_subset` (`/repo/src/cpu/parse.rs` 276-278). -/
def Cond.fromJrSubset (code : U8) : Cond := Cond.fromCode (code &&& 0x18#8)

/-- `Condition::is_satisfied` (`/repo/src/cpu/parse.rs` 281-292). -/
def Cond.isSatisfied (c : Cond) (flags : U8) : Bool :=
  match c with
  | .NZ => !contains flags F.Z
  | .Z => contains flags F.Z
  | .NC => !contains flags F.C
  | .C => contains flags F.C
  | .PO => !contains flags F.PV
  | .PE => contains flags F.PV
  | .P => !contains flags F.S
  | .M => contains flags F.S

/-- `FromStr for Condition` (`/repo/src/cpu/parse.rs` 295-311). -/
def Cond.ofString? (s : String) : Option Cond :=
  match s with
  | "NZ" => some .NZ | "Z" => some .Z | "NC" => some .NC | "C" => some .C
  | "PO" => some .PO | "PE" => some .PE | "P" => some .P | "M" => some .M
  | _ => none

/-- Display of `Condition` (macro at `/repo/src/cpu/parse.rs` 178-185). -/
def Cond.toStr : Cond → String
  | .NZ => "NZ" | .Z => "Z" | .NC => "NC" | .C => "C"
  | .PO => "PO" | .PE => "PE" | .P => "P" | .M => "M"

/-- `BitOps` (`/repo/src/cpu/parse.rs` 362-371); `Err(())` is `none`. -/
inductive BitOps
  | rot (r : Rot) (arg : Option Reg8)
  | bit (b : Nat) (arg : Option Reg8)
  | res (b : Nat) (arg : Option Reg8)
  | set (b : Nat) (arg : Option Reg8)
deriving DecidableEq, Repr

/-- `parse_code_bitnum` (`/repo/src/cpu/parse.rs` 374-376). -/
def parseBitnum (code : U8) : Nat := ((code >>> 3) &&& 7#8).toNat

/-- `From<u8> for BitOps` with its unreachable arm (`/repo/src/cpu/parse.rs` 379-391). -/
def BitOps.fromCode? (code : U8) : Option BitOps :=
  let arg := Reg8.fromB20 code
  let m := code &&& 0xC0#8
  if m = 0x00 then some (.rot (Rot.fromCode code) arg)
  else if m = 0x40 then some (.bit (parseBitnum code) arg)
  else if m = 0x80 then some (.res (parseBitnum code) arg)
  else if m = 0xC0 then some (.set (parseBitnum code) arg)
  else none
/-- `From<u8> for BitOps` (`/repo/src/cpu/parse.rs` 379-391). -/
def BitOps.fromCode (code : U8) : BitOps := (BitOps.fromCode? code).getD (.bit 0 none)

/-- `parse_restart_address` (`/repo/src/cpu/parse.rs` 395-397). -/
def parseRestartAddress (code : U8) : U16 := (code &&& 0x38#8).setWidth 16

end Z80
