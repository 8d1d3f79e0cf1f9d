import Verif.Model.Debug

/-!
# Hosts and host-call trees

The CPU code calls methods of three host traits (`/repo/src/host.rs`): `Clock` 174-219,
`Io` 227-313 and `Memory` 319-387, and the debug callback. `Prog` is the tree of the calls
made: a node is one call with its arguments, its children are indexed by the possible
return values. No assumption is made on the host: methods taking `&self` may still have
interior mutability.
-/

namespace Z80

/-- The associated types of a host: `Timestamp`, `WrIoBreak`, `RetiBreak`, `Limit`. -/
structure Sig where
  Ts : Type
  O : Type
  R : Type
  L : Type

/-- One call of a host method. Wait-state counts (`NonZeroU16`) and extra T-states
(`NonZeroU8`) are plain words and bytes here, which only enlarges the set of hosts. -/
inductive Req (σ : Sig)
  /-- `Clock::is_past_limit` -/
  | isPastLimit (limit : σ.L)
  /-- `Clock::add_irq` -/
  | addIrq (pc : U16)
  /-- `Clock::add_no_mreq` -/
  | addNoMreq (addr : U16) (n : U8)
  /-- `Clock::add_m1` -/
  | addM1 (addr : U16)
  /-- `Clock::add_mreq` -/
  | addMreq (addr : U16)
  /-- `Clock::add_io` -/
  | addIo (port : U16)
  /-- `Clock::add_wait_states` -/
  | addWait (bus : U16) (ws : U16)
  /-- `Clock::as_timestamp` -/
  | asTimestamp
  /-- `Io::read_io` -/
  | readIo (port : U16) (ts : σ.Ts)
  /-- `Io::write_io` -/
  | writeIo (port : U16) (data : U8) (ts : σ.Ts)
  /-- `Io::is_irq` -/
  | isIrq (ts : σ.Ts)
  /-- `Io::irq_data` -/
  | irqData (pc : U16) (ts : σ.Ts)
  /-- `Io::reti` -/
  | reti (addr : U16) (ts : σ.Ts)
  /-- `Memory::read_mem` -/
  | readMem (addr : U16) (ts : σ.Ts)
  /-- `Memory::read_mem16` -/
  | readMem16 (addr : U16) (ts : σ.Ts)
  /-- `Memory::read_opcode` -/
  | readOpcode (pc ir : U16) (ts : σ.Ts)
  /-- `Memory::write_mem` -/
  | writeMem (addr : U16) (val : U8) (ts : σ.Ts)
  /-- `Memory::read_debug` -/
  | readDebug (addr : U16)
  /-- the user's debug callback -/
  | debug (d : CpuDebug)

/-- Return types of the host methods. -/
abbrev Req.Ans {σ : Sig} : Req σ → Type
  | .isPastLimit _ => Bool
  | .addIrq _ => σ.Ts
  | .addNoMreq _ _ => Unit
  | .addM1 _ => σ.Ts
  | .addMreq _ => σ.Ts
  | .addIo _ => σ.Ts
  | .addWait _ _ => Unit
  | .asTimestamp => σ.Ts
  | .readIo _ _ => U8 × Option U16
  | .writeIo _ _ _ => Option σ.O × Option U16
  | .isIrq _ => Bool
  | .irqData _ _ => U8 × Option U16
  | .reti _ _ => Option σ.R
  | .readMem _ _ => U8
  | .readMem16 _ _ => U16
  | .readOpcode _ _ _ => U8
  | .writeMem _ _ _ => Unit
  | .readDebug _ => U8
  | .debug _ => Unit

/-- A tree of host calls ending in a value. -/
inductive Prog (σ : Sig) (α : Type)
  | ret (a : α)
  | call (r : Req σ) (k : r.Ans → Prog σ α)

namespace Prog
variable {σ : Sig} {α β : Type}

/-- Sequencing. -/
def bind : Prog σ α → (α → Prog σ β) → Prog σ β
  | .ret a, f => f a
  | .call r k, f => .call r (fun x => (k x).bind f)

/-- Apply a function to the final value. -/
def map (f : α → β) (p : Prog σ α) : Prog σ β := p.bind (fun a => .ret (f a))

end Prog

/-- One call together with its answer. -/
structure Ev (σ : Sig) where
  req : Req σ
  ans : req.Ans

/-- A deterministic host over a state space `S` (clock and bus together). -/
abbrev Handler (σ : Sig) (S : Type) := (r : Req σ) → S → r.Ans × S

namespace Prog
variable {σ : Sig} {α β S : Type}

/-- Run against a host: final value and host state. -/
def run (H : Handler σ S) : Prog σ α → S → α × S
  | .ret a, h => (a, h)
  | .call r k, h => run H (k (H r h).1) (H r h).2

/-- The sequence of calls and answers of a run. -/
def trace (H : Handler σ S) : Prog σ α → S → List (Ev σ)
  | .ret _, _ => []
  | .call r k, h => ⟨r, (H r h).1⟩ :: trace H (k (H r h).1) (H r h).2

/-- `p.wp Q`: whatever the host answers, the calls-and-answers list and the final value
satisfy `Q`. -/
def wp : Prog σ α → (List (Ev σ) → α → Prop) → Prop
  | .ret a, Q => Q [] a
  | .call r k, Q => ∀ x : r.Ans, wp (k x) (fun t a => Q (⟨r, x⟩ :: t) a)

end Prog
end Z80
