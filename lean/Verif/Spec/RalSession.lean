import Verif.Model.RalDebug

/-!
# A session with the example computer and its debugger
-/

namespace Z80.Spec.Ral
open Z80.Ral

/-- What a user of the computer does. -/
inductive Cmd
  /-- runs a frame -/
  | frame
  | reset
  | nmi
  /-- executes an instruction with the debugger -/
  | step
  /-- runs to an interrupt -/
  | toInt
  /-- runs to a return -/
  | toRet
  /-- runs to one of the addresses -/
  | toBrk (l : List U16)
deriving DecidableEq, Repr

/-- The number of non-maskable interrupts since something else was certainly executed, if there were `c` before. At a
break point nothing is. -/
def pending : Nat → List Cmd → Nat
  | c, [] => c
  | c, .nmi :: l => pending (c + 1) l
  | c, .reset :: l => pending c l
  | c, .toBrk _ :: l => pending c l
  | _, _ :: l => pending 0 l

/-- Never more than `most` of them; break points are sorted and 0xFFFF is one of them. -/
def Session (most : Nat) : Nat → List Cmd → Prop
  | c, [] => c ≤ most
  | c, .nmi :: l => c ≤ most ∧ Session most (c + 1) l
  | c, .reset :: l => c ≤ most ∧ Session most c l
  | c, .toBrk b :: l => c ≤ most ∧ b.Pairwise (· ≤ ·) ∧ 0xFFFF#16 ∈ b ∧ Session most c l
  | c, _ :: l => c ≤ most ∧ Session most 0 l

/-- A device that keeps count of the frames that have ended. -/
structure Counting {D : Type} (dev : Device D) (count : D → Nat) : Prop where
  reset : ∀ {t d d'}, dev.reset t d = some d' → count d' = count d
  frameEnd : ∀ {t d d'}, dev.frameEnd t d = some d' → count d' = count d + 1
  m1 : ∀ {t d d'}, dev.m1 t d = some d' → count d' = count d
  nextSecond : ∀ {t d d'}, dev.nextSecond t d = some d' → count d' = count d
  readIo : ∀ {p t d x d'}, dev.readIo p t d = some (x, d') → count d' = count d
  writeIo : ∀ {p v t d x d'}, dev.writeIo p v t d = some (x, d') → count d' = count d
  isIrq : ∀ {t d x d'}, dev.isIrq t d = some (x, d') → count d' = count d
  irqData : ∀ {pc t d x d'}, dev.irqData pc t d = some (x, d') → count d' = count d
  reti : ∀ {a t d d'}, dev.reti a t d = some d' → count d' = count d

/-- Any device can be given such a count. -/
def withCount {D : Type} (dev : Device D) : Device (D × Nat) where
  reset t d := (dev.reset t d.1).map fun x => (x, d.2)
  frameEnd t d := (dev.frameEnd t d.1).map fun x => (x, d.2 + 1)
  m1 t d := (dev.m1 t d.1).map fun x => (x, d.2)
  nextSecond t d := (dev.nextSecond t d.1).map fun x => (x, d.2)
  readIo p t d := (dev.readIo p t d.1).map fun x => (x.1, x.2, d.2)
  writeIo p v t d := (dev.writeIo p v t d.1).map fun x => (x.1, x.2, d.2)
  isIrq t d := (dev.isIrq t d.1).map fun x => (x.1, x.2, d.2)
  irqData pc t d := (dev.irqData pc t d.1).map fun x => (x.1, x.2, d.2)
  reti a t d := (dev.reti a t d.1).map fun x => (x, d.2)

section
variable {Q D : Type} [Flavour Q] (dev : Device D) (search : List U16 → U16 → Machine.Found) (n k : Nat)

/-- What is done: the T-states reported. `n` and `k` bound the loops. -/
def obey : Cmd → Machine Q D → Option (Nat × Machine Q D)
  | .frame, m => m.step dev n k
  | .reset, m => some (0, m.reset dev)
  | .nmi, m => some ((m.nmi dev).1.getD 0, (m.nmi dev).2)
  | .step, m => (m.debugStep dev n).map fun x => (x.2.1, x.2.2)
  | .toInt, m => (m.debugRuntoInt dev n).map fun x => (x.2.1, x.2.2)
  | .toRet, m => (m.debugRuntoRet dev n).map fun x => (x.2.1, x.2.2)
  | .toBrk b, m => (m.runUntilBrkpt dev search n b).map fun x => (x.2.1, x.2.2)

/-- One after another: all T-states reported. -/
def obeyAll : List Cmd → Machine Q D → Option (Nat × Machine Q D)
  | [], m => some (0, m)
  | a :: l, m => (obey dev search n k a m).bind fun x => (obeyAll l x.2).map fun y => (x.1 + y.1, y.2)

end
end Z80.Spec.Ral
