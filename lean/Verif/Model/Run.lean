import Verif.Model.Instr

/-!
# Executing instructions and interrupts (`/repo/src/z80.rs`, `/repo/src/z80/internal.rs`)
-/

namespace Z80
open Ex

variable {σ : Sig} {Q : Type} [Flavour Q]

instance : Monad (Prog σ) where
  pure := .ret
  bind := .bind

/-- `Result<(), BreakCause<WrIoBreak, RetiBreak>>` (`/repo/src/host.rs` 392-399). `ub` marks
code declared unreachable. -/
inductive Res (σ : Sig)
  | ok
  | halt
  | writeIo (o : σ.O)
  | reti (r : σ.R)
  | ub

/-- The final `match reason` of `execute_instruction` (`/repo/src/z80.rs` 456-461). -/
def Exit.toRes : Exit σ → Res σ
  | .cont => .ok
  | .enableInt => .ok
  | .halt => .halt
  | .writeIo o => .writeIo o
  | .reti r => .reti r
  | .ub => .ub

/-- The local variables `prefix`, `pc`, `flags` loaded from `self`
(`/repo/src/z80.rs` 444-446, 581-583). -/
def Cpu.load (c : Cpu Q) (deb : Bool) : St Q :=
  { cpu := c, flags := c.getFlags, pc := c.getPc, pfx := c.pfx, deb }

/-- The local variables written back (`/repo/src/z80.rs` 453-455, 604-606). -/
def St.store (s : St Q) : Cpu Q :=
  { (s.cpu.setFlags s.flags).setPc s.pc with pfx := s.pfx }

/-- `execute_instruction` (`/repo/src/z80.rs` 437-462). -/
def executeInstruction (deb : Bool) (code : U8) (c : Cpu Q) : Prog σ (Res σ × Cpu Q) := do
  let r ← executeCode code (Cpu.load { c with lastEi := false, halt := false } deb)
  pure (r.1.toRes, r.2.store)

/-- `push16` called from interrupt code (`/repo/src/z80/internal.rs` 164, 190), where there are
no local `flags`, `pc` and `prefix`. -/
def pushCpu (v : U16) (c : Cpu Q) : Prog σ (Cpu Q) := do
  let r ← push16 v (c.load false)
  pure r.2.cpu

/-- One host call outside of an instruction. -/
def ask (r : Req σ) : Prog σ r.Ans := .call r .ret

/-- `if let Some(ws) = wait_states { tsc.add_wait_states(pc, ws) }`
(`/repo/src/z80/internal.rs` 151-153). -/
def askWait (bus : U16) : Option U16 → Prog σ Unit
  | some w => ask (.addWait bus w)
  | none => pure ()

/-- Leaving the halted state on an interrupt (`/repo/src/z80/internal.rs` 144-148). -/
def Cpu.wake (c : Cpu Q) : Cpu Q :=
  if c.halt then { c with halt := false, pc := c.pc + 1#16 } else c

/-- `irq_no_check` (`/repo/src/z80/internal.rs` 136-171). -/
def irqNoCheck (deb : Bool) (c : Cpu Q) : Prog σ (Res σ × Cpu Q) := do
  let c := c.disableInterrupts.incR.wake
  let ts ← ask (.addIrq c.pc)
  let v ← ask (.irqData c.pc ts)
  askWait c.pc v.2
  match c.im with
  | .mode0 => executeInstruction deb v.1 c
  | .mode1 => executeInstruction deb 0xFF#8 c
  | .mode2 => do
    ask (.addNoMreq c.getIr X1)
    let c' ← pushCpu c.pc c
    executeInstruction deb 0xC3#8
      (c'.setPc ((c.getIr &&& 0xFF00#16) ||| v.1.setWidth 16))

/-- `nmi_no_check` (`/repo/src/z80/internal.rs` 175-193). `pc` is not stored before the push. -/
def nmiNoCheck (c : Cpu Q) : Prog σ (Cpu Q) := do
  let c := { c with lastEi := false, iff1 := false }.incR
  let pc := if c.halt then c.pc + 1#16 else c.pc
  let c := { c with halt := false }
  let _ ← ask (.addM1 pc)
  ask (.addNoMreq c.getIr X1)
  let c ← pushCpu pc c
  pure { c with flavour := Flavour.beginInstruction c.flavour, pc := 0x66#16 }

/-- `irq` (`/repo/src/z80.rs` 409-420). -/
def irq (deb : Bool) (c : Cpu Q) : Prog σ (Option (Res σ) × Cpu Q) :=
  if c.isIrqAllowed then do
    let r ← irqNoCheck deb c
    pure (some r.1, r.2)
  else pure (none, c)

/-- `nmi` (`/repo/src/z80.rs` 422-433). -/
def nmi (c : Cpu Q) : Prog σ (Bool × Cpu Q) :=
  if isIntAllowed c.pfx c.lastEi then do
    let c ← nmiNoCheck c
    pure (true, c)
  else pure (false, c)

/-- `cond && control.is_irq(tsc.as_timestamp())`. -/
def askIrq (cond : Bool) : Prog σ Bool :=
  if cond then do
    let ts ← ask .asTimestamp
    ask (.isIrq ts)
  else pure false

/-- A step in the halted state (`/repo/src/z80.rs` 473-475, 507-508). -/
def haltStep (c : Cpu Q) : Prog σ (Cpu Q) := do
  let _ ← ask (.addM1 c.pc)
  pure c.incR

/-- `fetch_next_opcode` and the instruction, the `else` branch of `execute_next`
(`/repo/src/z80.rs` 479-481). -/
def fetchExecute (deb : Bool) (c : Cpu Q) : Prog σ (Res σ × Cpu Q) := do
  let r ← fetchOpcode (c.load deb)
  executeInstruction deb r.1 (r.2.cpu.setPc r.2.pc)

/-- `execute_next` (`/repo/src/z80.rs` 465-484). -/
def executeNext (deb : Bool) (c : Cpu Q) : Prog σ (Res σ × Cpu Q) := do
  let i ← askIrq c.isIrqAllowed
  if i then irqNoCheck deb c
  else if c.halt then do
    let c ← haltStep c
    pure (.ok, c)
  else fetchExecute deb c

/-- `LoopExitReason` (`/repo/src/z80.rs` 40-47). -/
inductive Reason (σ : Sig)
  | limitReached
  | writeIo (o : σ.O)
  | reti (r : σ.R)
  | halt
  | enableInt
  | irq
  | ub

/-- `execute_next_instruction!` (`/repo/src/z80/opcodes.rs` 193-200). -/
def nextInstruction : Ex σ Q (Exit σ) := do
  let code ← fetchOpcode
  executeCode code

/-- `execute_with_limit_loop` (`/repo/src/z80.rs` 574-611). The Rust loop may run for ever, so
the function takes the number of instructions to allow; `none` when they are used up. Both the
inner loop and `continue` of the outer loop start with the next instruction. -/
def limitLoop : Nat → σ.L → St Q → Prog σ (Option (Reason σ × Cpu Q))
  | 0, _, _ => .ret none
  | n + 1, l, s => do
    let r ← nextInstruction s
    let s := r.2
    match r.1 with
    | .cont => do
      let past ← ask (.isPastLimit l)
      if past then pure (some (.limitReached, s.store))
      else do
        let i ← askIrq (isIntAllowed s.pfx false && s.cpu.iff1)
        if i then pure (some (.irq, s.store))
        else limitLoop n l s
    | .enableInt => do
      let past ← ask (.isPastLimit l)
      if past then pure (some (.enableInt, s.store))
      else limitLoop n l { s with cpu := { s.cpu with lastEi := false } }
    | .halt => pure (some (.halt, s.store))
    | .writeIo o => pure (some (.writeIo o, s.store))
    | .reti r => pure (some (.reti r, s.store))
    | .ub => pure (some (.ub, s.store))

/-- The last loop of `execute_with_limit` (`/repo/src/z80.rs` 528-567); `k` bounds the number
of interrupts accepted, `n` the instructions between them. -/
def limitOuter (n : Nat) (l : σ.L) : Nat → Cpu Q → Prog σ (Option (Res σ × Cpu Q))
  | 0, _ => .ret none
  | k + 1, c => do
    let r ← limitLoop n l (c.load false)
    match r with
    | none => pure none
    | some (.enableInt, c) => pure (some (.ok, c))
    | some (.limitReached, c) => pure (some (.ok, c))
    | some (.halt, c) => pure (some (.halt, c))
    | some (.writeIo o, c) => pure (some (.writeIo o, c))
    | some (.reti x, c) => pure (some (.reti x, c))
    | some (.ub, c) => pure (some (.ub, c))
    | some (.irq, c) => do
      let r ← irqNoCheck false c
      match r.1 with
      | .ok => do
        let past ← ask (.isPastLimit l)
        if past then pure (some (.ok, r.2))
        else limitOuter n l k r.2
      | e => pure (some (e, r.2))

/-- The part of `execute_with_limit` after the halted loop (`/repo/src/z80.rs` 515-567). -/
def limitStart (n : Nat) (l : σ.L) (c : Cpu Q) : Prog σ (Option (Res σ × Cpu Q)) :=
  if c.lastEi then limitOuter n l n { c with lastEi := false }
  else do
    let i ← askIrq (isIntAllowed c.pfx false && c.iff1)
    if i then do
      let r ← irqNoCheck false c
      match r.1 with
      | .ok => do
        let past ← ask (.isPastLimit l)
        if past then pure (some (.ok, r.2))
        else limitOuter n l n r.2
      | e => pure (some (e, r.2))
    else limitOuter n l n c

/-- The loop in the halted state (`/repo/src/z80.rs` 498-509) and what follows; `m` bounds the
iterations, `n` the later loops. -/
def limitHalted (n : Nat) (l : σ.L) : Nat → Cpu Q → Prog σ (Option (Res σ × Cpu Q))
  | 0, _ => .ret none
  | m + 1, c => do
    let past ← ask (.isPastLimit l)
    if past then pure (some (.ok, c))
    else do
      let i ← askIrq c.iff1
      if i then limitStart n l c
      else do
        let c ← haltStep c
        limitHalted n l m c

/-- `execute_with_limit` (`/repo/src/z80.rs` 487-569) with all loops bounded by `n`; `none`
means that the bound was reached. The two `debug_assert!` (495-496) are not part of the
result; they are the subject of a theorem. -/
def executeWithLimit (n : Nat) (l : σ.L) (c : Cpu Q) : Prog σ (Option (Res σ × Cpu Q)) :=
  if c.halt then limitHalted n l n c
  else do
    let past ← ask (.isPastLimit l)
    if past then pure (some (.ok, c))
    else limitStart n l c

end Z80
