import Verif.Model.Prog
import Verif.Model.Cpu
import Verif.Model.Ops

/-!
# The monad of CPU code

`St` is the state of an executing instruction: the structure behind `&mut self`, the local
variables `flags`, `pc`, `prefix` of `execute_instruction`
(`/repo/src/z80.rs` 445-447) and whether a debugger was given.
-/

namespace Z80

/-- Execution state: `self`, local `flags`, local `pc`, local `prefix`, `debug.is_some()`. -/
structure St (Q : Type) where
  cpu : Cpu Q
  flags : U8
  pc : U16
  pfx : Option Prefix
  deb : Bool

/-- CPU code: from a state, a tree of host calls ending in a value and a new state. -/
def Ex (σ : Sig) (Q α : Type) := St Q → Prog σ (α × St Q)

namespace Ex
variable {σ : Sig} {Q α β : Type}

instance : Monad (Ex σ Q) where
  pure a := fun s => .ret (a, s)
  bind x f := fun s => (x s).bind (fun p => f p.1 p.2)

/-- Call a host method. -/
def call (r : Req σ) : Ex σ Q r.Ans := fun s => .call r (fun a => .ret (a, s))
/-- Read the state. -/
def getS : Ex σ Q (St Q) := fun s => .ret (s, s)
/-- Change the state. -/
def modS (f : St Q → St Q) : Ex σ Q Unit := fun s => .ret ((), f s)
/-- Read the CPU structure. -/
def getC : Ex σ Q (Cpu Q) := fun s => .ret (s.cpu, s)
/-- Change the CPU structure. -/
def modC (f : Cpu Q → Cpu Q) : Ex σ Q Unit := fun s => .ret ((), { s with cpu := f s.cpu })
/-- Read the local `flags`. -/
def getF : Ex σ Q U8 := fun s => .ret (s.flags, s)
/-- Assign the local `flags`. -/
def setF (f : U8) : Ex σ Q Unit := fun s => .ret ((), { s with flags := f })
/-- Read the local `pc`. -/
def getPc : Ex σ Q U16 := fun s => .ret (s.pc, s)
/-- Assign the local `pc`. -/
def setPc (v : U16) : Ex σ Q Unit := fun s => .ret ((), { s with pc := v })
/-- Assign the local `prefix`. -/
def setPfx (p : Option Prefix) : Ex σ Q Unit := fun s => .ret ((), { s with pfx := p })
/-- `if c { .. }` without `else`. -/
def when (c : Bool) (x : Ex σ Q Unit) : Ex σ Q Unit :=
  fun s => if c then x s else .ret ((), s)
/-- `if c { .. } else { .. }`. -/
def ifElse (c : Bool) (x y : Ex σ Q α) : Ex σ Q α := fun s => if c then x s else y s

end Ex

/-- `LoopExitReason` (`/repo/src/z80.rs` 40-47), as far as instruction bodies produce it:
`cont` is falling through without `break`. `ub` marks an arm declared unreachable. -/
inductive Exit (σ : Sig)
  | cont
  | enableInt
  | halt
  | writeIo (o : σ.O)
  | reti (r : σ.R)
  | ub

end Z80
