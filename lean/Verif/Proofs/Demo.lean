import Verif.Proofs.Runs

/-!
# A concrete machine for the examples

64K of memory holding a given program, devices that answer given values.
-/

namespace Z80

/-- Devices: `irq` tells whether an interrupt is requested, `v` is the byte put on the bus then, `o`
and `r` are the breaks requested on output and `RETI`; every input reads 0. -/
def demoIo (irq : Bool) (v : U8) (o r : Option Unit) : Handler (tsSig 16 Unit Unit) Unit
  | .isPastLimit _, s => (false, s)
  | .addIrq _, s => (0, s)
  | .addNoMreq _ _, s => ((), s)
  | .addM1 _, s => (0, s)
  | .addMreq _, s => (0, s)
  | .addIo _, s => (0, s)
  | .addWait _ _, s => ((), s)
  | .asTimestamp, s => (0, s)
  | .readIo _ _, s => ((0, none), s)
  | .writeIo _ _ _, s => ((o, none), s)
  | .isIrq _, s => (irq, s)
  | .irqData _ _, s => ((v, none), s)
  | .reti _ _, s => (r, s)
  | .readMem _ _, s => (0, s)
  | .readMem16 _ _, s => (0, s)
  | .readOpcode _ _ _, s => (0, s)
  | .writeMem _ _ _, s => ((), s)
  | .readDebug _, s => (0, s)
  | .debug _, s => ((), s)

/-- Memory with the given bytes from address 0 on. -/
def program (l : List U8) : Mem := fun a => l.getD a.toNat 0

/-- The machine with the given program and devices without requests. -/
abbrev demo := ramHost (demoIo false 0 none none)

/-- A run on a concrete host whose result is known. -/
theorem runs_demo {σ : Sig} {S α β : Type} (H : Handler σ S) (p : Prog σ (α × β)) (h : S) {a : α}
    (ha : (p.run H h).1.1 = a) : p.Runs (p.trace H h) (a, (p.run H h).1.2) := by
  subst ha
  exact Prog.runs_run H p h

end Z80
