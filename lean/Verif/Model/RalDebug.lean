import Verif.Model.RalMachine
import Verif.Model.OpConsts
import Verif.Model.Disasm

/-!
# The debugger of the example computer (`/repo/examples/ral1243/src/debug.rs`)

The methods of `FrameRunner` that run the processor one `execute_next` at a time. What the debug callback and the bus
wrapper `DBus` (`debug.rs` 159-184) have noted is taken from the calls made: `DBus` forwards every call and keeps the last
byte answered to `irq_data`. A panic of the runner and a loop that does not end within its bound are `none`.
-/

namespace Z80.Ral

/-- The last record given to the debug callback: `|deb| { dbg = Some(deb) }` (`debug.rs` 236, 289). -/
def lastRecord : List (Ev ralSig) → Option CpuDebug → Option CpuDebug
  | [], d => d
  | ⟨.debug d, _⟩ :: t, _ => lastRecord t (some d)
  | _ :: t, d => lastRecord t d

/-- The last byte read by `irq_data`: `DBus::irq_data` (`debug.rs` 174-178). -/
def lastData : List (Ev ralSig) → Option U8 → Option U8
  | [], d => d
  | ⟨.irqData _ _, v⟩ :: t, _ => lastData t (some v.1)
  | _ :: t, d => lastData t d

/-- `debug_preview` (`debug.rs` 196-217) with the memory `readDebug`; `n` bounds the loop of the disassembler. The buffer
has room for four bytes. -/
def debugPreview {Q : Type} [Flavour Q] (n : Nat) (readDebug : U16 → U8) (cpu : Cpu Q) : Option CpuDebug :=
  let pc := match cpu.getPrefix with
    | some _ => cpu.getPc - 1#16
    | none => cpu.getPc
  let code := match cpu.getPrefix with
    | some p => [p.toCode, readDebug (pc + 1#16), readDebug (pc + 2#16), readDebug (pc + 3#16)]
    | none => [readDebug (pc + 0#16), readDebug (pc + 1#16), readDebug (pc + 2#16), readDebug (pc + 3#16)]
  (Disasm.disasmMemoryOnce (Cpu Q) n pc code).map fun d =>
    d.getD { code, mnemonic := "", pc, pfx := cpu.getPrefix, args := .none }

/-- `prefix_debug` (`debug.rs` 430-441). -/
def prefixDebug (p : Prefix) (pc : U16) : CpuDebug :=
  { code := [p.toCode], mnemonic := "NOP*", pc, pfx := some p, args := .single (.reg16 (some p) .HL) }

/-- `irq_debug_update` (`debug.rs` 444-454); `remove(0)` panics if there is no code. -/
def irqDebugUpdate {Q : Type} (data : U8) (pc : U16) (cpu : Cpu Q) (dbg : Option CpuDebug) : Option (Option CpuDebug) :=
  match cpu.getIm, dbg with
  | .mode2, some deb =>
    match deb.code with
    | [] => none
    | _ :: code => some (some { deb with pc, mnemonic := "IRQ#", code, args := .single (.imm16 (word cpu.getI data)) })
  | _, dbg => some dbg

/-- The closure of `debug_runto_ret` (`debug.rs` 331-339): whether it keeps the record; `none` if an index panics. -/
def keepsRet (deb : CpuDebug) : Option Bool :=
  match deb.code[0]? with
  | none => none
  | some op =>
    if op = Op.RET_OPCODE then some true
    else if op = Op.ED_PREFIX then
      match deb.code[1]? with
      | none => none
      | some b =>
        some (decide (b &&& Op.RETN_OP2_MASK = Op.RETN_OP2_BASE ∨ op &&& Op.RET_CC_OPMASK = Op.RET_CC_OPBASE))
    else some (decide (op &&& Op.RET_CC_OPMASK = Op.RET_CC_OPBASE))

/-- The records of a run through the closure of `debug_runto_ret`. -/
def keepRet : List (Ev ralSig) → Option CpuDebug → Option (Option CpuDebug)
  | [], d => some d
  | ⟨.debug x, _⟩ :: t, d => (keepsRet x).bind fun b => keepRet t (if b then some x else d)
  | _ :: t, d => keepRet t d

namespace Machine
variable {Q D : Type} [Flavour Q] (dev : Device D)

/-- `cpu.execute_next` in the methods below, with the calls made. An error other than `Halt` panics. -/
def executed (deb : Bool) (m : Machine Q D) : Option (List (Ev ralSig) × Machine Q D) :=
  let t := (executeNext deb m.cpu).trace (tClock (Boards.host dev)) (m.cur, m.bus)
  match (executeNext deb m.cpu).run (tClock (Boards.host dev)) (m.cur, m.bus) with
  | ((.ok, cpu), cur, bus) => some (t, { m with cpu, cur, bus })
  | ((.halt, cpu), cur, bus) => some (t, { m with cpu, cur, bus })
  | _ => none

/-- `self.clock.is_past_limit(limit)` (`clock.rs` 60-62). -/
def pastLimit (limit : Nat) (m : Machine Q D) : Bool := decide (limit ≤ m.cur.toNat)

/-- `self.limit = limit; bus.frame_end(…)` (for example `debug.rs` 399-401). -/
def endFrame (limit : Nat) (m : Machine Q D) : Machine Q D :=
  { m with limit, bus := Boards.onDevice (dev.frameEnd m.cur.toNat) m.bus }

/-- The result of `slice::binary_search`: `Ok(i)` or `Err(i)`. -/
inductive Found
  | ok (i : Nat)
  | err (i : Nat)
deriving DecidableEq, Repr

/-- The loops of `run_until_brkpt` (`debug.rs` 386-415) from the head of the inner loop; `search` is `binary_search` and
the first argument bounds the number of instructions. -/
def brkLoop (search : List U16 → U16 → Found) (brkpts : List U16) (limit : Nat) :
    Nat → U16 → U16 → Machine Q D → Option (Option Nat × Machine Q D)
  | 0, _, _, _ => none
  | n + 1, pc, nextBkpt, m => do
    let (_, m) ← m.executed dev false
    let nextPc := m.cpu.getPc
    let again (m : Machine Q D) : Option (Option Nat × Machine Q D) :=
      match search brkpts nextPc with
      | .ok i => some (some i, m)
      | .err i => brkLoop search brkpts limit n nextPc (brkpts[i]?.getD 0xFFFF) m
    if m.pastLimit limit then
      let m := m.endFrame dev limit
      if nextPc = nextBkpt then again m else some (none, m)
    else if nextPc ≥ nextBkpt ∨ nextPc < pc then again m
    else brkLoop search brkpts limit n nextPc nextBkpt m

/-- `run_until_brkpt` (`debug.rs` 371-416): the index of the break point reached and the duration. -/
def runUntilBrkpt (search : List U16 → U16 → Found) (n : Nat) (brkpts : List U16) (m : Machine Q D) :
    Option (Option Nat × Nat × Machine Q D) := do
  let m ← m.wrapSecond dev
  let limit ← add32 m.limit m.frame
  let start := m.cur
  let first : Option (Option Nat × Machine Q D) := match search brkpts m.cpu.getPc with
    | .ok i => some (some i, m)
    | .err i => brkLoop dev search brkpts limit n m.cpu.getPc (brkpts[i]?.getD 0xFFFF) m
  let (r, m) ← first
  some (r, m.cur.toNat - start.toNat, m)

/-- The loop of `debug_step` (`debug.rs` 234-261): the record, the byte of an acknowledged interrupt. -/
def stepLoop (pc : U16) : Nat → Nat → Option Prefix → Option U8 → Machine Q D →
    Option (Option CpuDebug × Option U8 × Machine Q D)
  | 0, _, _, _, _ => none
  | n + 1, limit, pfx, data, m => do
    let (t, m) ← m.executed dev true
    let dbg := lastRecord t none
    let data := lastData t data
    let frame : Option (Nat × Machine Q D) :=
      if m.pastLimit limit then (add32 limit m.frame).map fun l => (l, m.endFrame dev limit) else some (limit, m)
    let (limit, m) ← frame
    if dbg.isSome ∨ m.cpu.halt then some (dbg, data, m)
    else if m.cpu.pfx.isNone then none
    else match pfx with
      | some p => some (some (prefixDebug p pc), data, m)
      | none => stepLoop pc n limit m.cpu.pfx data m

/-- `debug_step` (`debug.rs` 222-266). -/
def debugStep (n : Nat) (m : Machine Q D) : Option (Option CpuDebug × Nat × Machine Q D) := do
  let m ← m.wrapSecond dev
  let limit ← add32 m.limit m.frame
  let start := m.cur
  let pc := m.cpu.getPc
  let (dbg, data, m) ← stepLoop dev pc n limit m.cpu.pfx none m
  let shown : Option (Option CpuDebug) := match data with
    | some v => irqDebugUpdate v pc m.cpu dbg
    | none => some dbg
  let dbg ← shown
  some (dbg, m.cur.toNat - start.toNat, m)

/-- The loop of `debug_runto_int` (`debug.rs` 287-307). -/
def intLoop (limit : Nat) : Nat → U16 → Option CpuDebug → Machine Q D → Option (Option CpuDebug × Machine Q D)
  | 0, _, _, _ => none
  | n + 1, pc, dbg, m => do
    let (t, m) ← m.executed dev true
    let dbg := lastRecord t dbg
    let past := m.pastLimit limit
    let m := if past then m.endFrame dev limit else m
    match lastData t none with
    | none => if past then some (none, m) else intLoop limit n m.cpu.getPc dbg m
    | some v => (irqDebugUpdate v pc m.cpu dbg).map fun dbg => (dbg, m)

/-- `debug_runto_int` (`debug.rs` 272-309). -/
def debugRuntoInt (n : Nat) (m : Machine Q D) : Option (Option CpuDebug × Nat × Machine Q D) := do
  let m ← m.wrapSecond dev
  let limit ← add32 m.limit m.frame
  let start := m.cur
  let (dbg, m) ← intLoop dev limit n m.cpu.getPc none m
  some (dbg, m.cur.toNat - start.toNat, m)

/-- The loop of `debug_runto_ret` (`debug.rs` 330-362). -/
def retLoop (limit : Nat) : Nat → Machine Q D → Option (Option CpuDebug × Machine Q D)
  | 0, _ => none
  | n + 1, m => do
    let (t, m) ← m.executed dev true
    let dbg ← keepRet t none
    let past := m.pastLimit limit
    let m := if past then m.endFrame dev limit else m
    match dbg with
    | none => if past then some (none, m) else retLoop limit n m
    | some deb => do
      let op ← deb.code[0]?
      if op &&& Op.RET_CC_OPMASK = Op.RET_CC_OPBASE ∧ (Cond.fromCode op).isSatisfied m.cpu.getFlags = false then
        if past then some (none, m) else retLoop limit n m
      else some (some deb, m)

/-- `debug_runto_ret` (`debug.rs` 315-364). -/
def debugRuntoRet (n : Nat) (m : Machine Q D) : Option (Option CpuDebug × Nat × Machine Q D) := do
  let m ← m.wrapSecond dev
  let limit ← add32 m.limit m.frame
  let start := m.cur
  let (dbg, m) ← retLoop dev limit n m
  some (dbg, m.cur.toNat - start.toNat, m)

end Machine
end Z80.Ral
