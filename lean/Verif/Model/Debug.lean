import Verif.Model.Parse

/-!
# Debug records (`/repo/src/cpu/debug.rs`, `/repo/src/z80/debug.rs`)
-/

namespace Z80

/-- `CpuDebugAddr` (`/repo/src/cpu/debug.rs` 74-82). The displacement `i8` is kept as its byte. -/
inductive DbgAddr
  | immAddr (nn : U16)
  | regAddr (r : Reg16)
  | indexAddr (p : Prefix) (d : Option U8)
deriving DecidableEq, Repr

/-- `CpuDebugPort` (`/repo/src/cpu/debug.rs` 86-91). -/
inductive DbgPort
  | immPort (n : U8)
  | regPort
deriving DecidableEq, Repr

/-- `CpuDebugArg` (`/repo/src/cpu/debug.rs` 95-121). -/
inductive DbgArg
  | imm8 (n : U8)
  | bit (b : Nat)
  | intMode (m : IntMode)
  | reg8 (p : Option Prefix) (r : Reg8)
  | imm16 (nn : U16)
  | reg16 (p : Option Prefix) (r : Reg16)
  | stk16 (r : StkReg16)
  | addr (a : DbgAddr)
  | port (p : DbgPort)
  | cond (c : Cond)
  | regI
  | regR
deriving DecidableEq, Repr

/-- `CpuDebugArgs` (`/repo/src/cpu/debug.rs` 125-136). -/
inductive DbgArgs
  | none
  | single (a : DbgArg)
  | double (a b : DbgArg)
  | bitOpExt (b : Nat) (a : DbgArg) (r : Reg8)
deriving DecidableEq, Repr

/-- `CpuDebug` (`/repo/src/cpu/debug.rs` 59-70). The code buffer has a fixed capacity of 4
in Rust (line 12) and pushing a fifth byte panics; here it is a list, and the length bound
is a theorem. -/
structure CpuDebug where
  code : List U8
  mnemonic : String
  pc : U16
  pfx : Option Prefix
  args : DbgArgs
deriving DecidableEq, Repr

/-- `CpuDebug::debug_instruction` (`/repo/src/z80/debug.rs` 43-66). -/
def debugInstruction (mnemonic : String) (args : DbgArgs) (pfx : Option Prefix)
    (bytes : List U8) (pc : U16) : CpuDebug :=
  let code := (match pfx with | some p => [p.toCode] | Option.none => []) ++ bytes
  { code, mnemonic, pc := pc - BitVec.ofNat 16 code.length, pfx, args }

end Z80
