import Verif.Model.Any
import Verif.Model.Host

/-!
# The disassembler (`/repo/src/disasm.rs`)
-/

namespace Z80

/-- The default methods of the trait `Io` (`/repo/src/host.rs` 244-311) and of the trait `Memory`
(`/repo/src/host.rs` 332-369) over a given `read_debug`; `write_mem` does nothing. The debugger,
which is a separate argument, is `deb`. The clock is not part of these traits: `tsHost` never passes
the first eight requests on. -/
def defaultBus {w : Nat} {O R B : Type} (readDebug : U16 → U8) (deb : CpuDebug → B → B) :
    Bus (tsSig w O R) B
  | .isPastLimit _, b => (false, b)
  | .addIrq _, b => (0, b)
  | .addNoMreq _ _, b => ((), b)
  | .addM1 _, b => (0, b)
  | .addMreq _, b => (0, b)
  | .addIo _, b => (0, b)
  | .addWait _ _, b => ((), b)
  | .asTimestamp, b => (0, b)
  | .readIo _ _, b => ((0xFF, none), b)
  | .writeIo _ _ _, b => ((none, none), b)
  | .isIrq _, b => (false, b)
  | .irqData _ _, b => ((0xFF, none), b)
  | .reti _ _, b => (none, b)
  | .readMem a _, b => (readDebug a, b)
  | .readMem16 a _, b => (word (readDebug (a + 1#16)) (readDebug a), b)
  | .readOpcode pc _ _, b => (readDebug pc, b)
  | .writeMem _ _ _, b => ((), b)
  | .readDebug a, b => (readDebug a, b)
  | .debug d, b => ((), deb d b)

namespace Disasm

/-- `Mem::read_debug` (`/repo/src/disasm.rs` 14-15, 25-27): the bytes of the slice `l` from address
`base` on, 0xFF elsewhere. -/
def byteAt (base : U16) (l : List U8) (a : U16) : U8 := (l[(a - base).toNat]?).getD 0xFF

/-- The variables changed by the closure given to `execute_next` (`/repo/src/disasm.rs` 49-50). -/
structure Seen where
  cursor : Nat
  dbg : Option CpuDebug
deriving DecidableEq, Repr

/-- The closure (`/repo/src/disasm.rs` 56-62). -/
def onDebug (d : CpuDebug) (s : Seen) : Seen :=
  let cursor := s.cursor + d.code.length
  { cursor := if d.pfx.isSome then cursor - 1 else cursor, dbg := some d }

/-- The types of `Mem` as `Io` and of `TsClock` (`/repo/src/disasm.rs` 11, 17-24). -/
abbrev sig : Sig := tsSig 32 Unit Unit

/-- The host of one call of `execute_next` (`/repo/src/disasm.rs` 55). -/
def host (base : U16) (l : List U8) : Handler sig (BitVec 32 × Seen) :=
  tsHost (defaultBus (byteAt base l) onDebug)

/-- The methods of the trait `Cpu` (`/repo/src/cpu.rs`) called by the disassembler. -/
class Machine (C : Type) where
  default : C
  setPc : C → U16 → C
  executeNext : Bool → C → Prog sig (Res sig × C)
  isAfterPrefix : C → Bool
  reset : C → C

instance {Q : Type} [Flavour Q] : Machine (Cpu Q) where
  default := Cpu.default
  setPc := Cpu.setPc
  executeNext := Z80.executeNext
  isAfterPrefix := Cpu.isAfterPrefix
  reset c := c.reset

instance : Machine Any where
  default := Any.dflt
  setPc := Any.setPc
  executeNext := Any.executeNext
  isAfterPrefix := Any.isAfterPrefix
  reset := Any.reset

variable {C : Type} [Machine C] {E S : Type}

/-- The loop of `disasm_memory` (`/repo/src/disasm.rs` 52-77); `none` when `n` iterations do not
suffice. The callback `f` is an `FnMut`: it may change its captured state `S`. The result is the
error, if any, and that state. `dbg` is `None` at the start of each iteration, because of
`dbg.take()`. -/
def loop (pc : U16) (mem : List U8) (f : CpuDebug → S → Option E × S) :
    Nat → C → Nat → BitVec 32 → S → Option (Option E × S)
  | 0, _, _, _, _ => none
  | n + 1, c, cursor, t, s =>
    if cursor < mem.length then
      let pc' := pc + BitVec.ofNat 16 cursor
      let ((_, c), (t, v)) := (Machine.executeNext true (Machine.setPc c pc')).run
        (host pc' (mem.drop cursor)) (t, ⟨cursor, none⟩)
      if mem.length < v.cursor then some (none, s)
      else match v.dbg with
        | some d =>
          match f d s with
          | (some e, s) => some (some e, s)
          | (none, s) => loop pc mem f n c v.cursor t s
        | none =>
          if Machine.isAfterPrefix c then loop pc mem f n c (v.cursor + 1) t s
          else loop pc mem f n (Machine.reset c) v.cursor t s
    else some (none, s)

/-- `disasm_memory` (`/repo/src/disasm.rs` 42-79) with at most `n` iterations. -/
def disasmMemory (C : Type) [Machine C] (n : Nat) (pc : U16) (mem : List U8)
    (f : CpuDebug → S → Option E × S) (s : S) : Option (Option E × S) :=
  loop pc mem f n (Machine.default : C) 0 0 s

/-- `disasm_memory_once` (`/repo/src/disasm.rs` 87-97). -/
def disasmMemoryOnce (C : Type) [Machine C] (n : Nat) (pc : U16) (mem : List U8) :
    Option (Option CpuDebug) :=
  (disasmMemory C n pc mem (fun d _ => (some (), some d)) none).map (·.2)

end Disasm
end Z80
