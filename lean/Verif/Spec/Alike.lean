import Verif.Model.Host

/-!
# Specification: hosts that behave alike

Two hosts, possibly with different clocks, whose states and timestamps correspond.
-/

namespace Z80.Spec
variable {Ts Ts' O R L L' S S' α : Type}

/-- The same answer, and states that correspond. -/
def Agrees (A : S → S' → Prop) (x : α × S) (y : α × S') : Prop := x.1 = y.1 ∧ A x.2 y.2

/-- Timestamps and states that correspond. -/
def Clocked (E : Ts → Ts' → Prop) (A : S → S' → Prop) (x : Ts × S) (y : Ts' × S') : Prop :=
  E x.1 y.1 ∧ A x.2 y.2

/-- Whatever happens in states that correspond, timestamps that correspond are returned by the clocks, and
memory and devices, when given such timestamps, return the same. States that correspond remain. Nothing is
said of `is_past_limit` and of the debugger. -/
structure HostsAlike (H : Handler ⟨Ts, O, R, L⟩ S) (H' : Handler ⟨Ts', O, R, L'⟩ S')
    (E : Ts → Ts' → Prop) (A : S → S' → Prop) : Prop where
  addIrq : ∀ pc s s', A s s' → Clocked E A (H (.addIrq pc) s) (H' (.addIrq pc) s')
  addNoMreq : ∀ a n s s', A s s' → A (H (.addNoMreq a n) s).2 (H' (.addNoMreq a n) s').2
  addM1 : ∀ a s s', A s s' → Clocked E A (H (.addM1 a) s) (H' (.addM1 a) s')
  addMreq : ∀ a s s', A s s' → Clocked E A (H (.addMreq a) s) (H' (.addMreq a) s')
  addIo : ∀ p s s', A s s' → Clocked E A (H (.addIo p) s) (H' (.addIo p) s')
  addWait : ∀ a n s s', A s s' → A (H (.addWait a n) s).2 (H' (.addWait a n) s').2
  asTimestamp : ∀ s s', A s s' → Clocked E A (H .asTimestamp s) (H' .asTimestamp s')
  readIo : ∀ p t t' s s', E t t' → A s s' → Agrees A (H (.readIo p t) s) (H' (.readIo p t') s')
  writeIo : ∀ p v t t' s s', E t t' → A s s' → Agrees A (H (.writeIo p v t) s) (H' (.writeIo p v t') s')
  isIrq : ∀ t t' s s', E t t' → A s s' → Agrees A (H (.isIrq t) s) (H' (.isIrq t') s')
  irqData : ∀ pc t t' s s', E t t' → A s s' → Agrees A (H (.irqData pc t) s) (H' (.irqData pc t') s')
  reti : ∀ a t t' s s', E t t' → A s s' → Agrees A (H (.reti a t) s) (H' (.reti a t') s')
  readMem : ∀ a t t' s s', E t t' → A s s' → Agrees A (H (.readMem a t) s) (H' (.readMem a t') s')
  readMem16 : ∀ a t t' s s', E t t' → A s s' → Agrees A (H (.readMem16 a t) s) (H' (.readMem16 a t') s')
  readOpcode : ∀ pc ir t t' s s', E t t' → A s s' →
    Agrees A (H (.readOpcode pc ir t) s) (H' (.readOpcode pc ir t') s')
  writeMem : ∀ a v t t' s s', E t t' → A s s' → A (H (.writeMem a v t) s).2 (H' (.writeMem a v t') s').2
  readDebug : ∀ a s s', A s s' → A (H (.readDebug a) s).2 (H' (.readDebug a) s').2

/-- Devices that do not look at the time. -/
structure Devices (O R I : Type) where
  readIo : U16 → I → (U8 × Option U16) × I
  writeIo : U16 → U8 → I → (Option O × Option U16) × I
  isIrq : I → Bool × I
  irqData : U16 → I → (U8 × Option U16) × I
  reti : U16 → I → Option R × I

/-- They work with any clock. -/
def Devices.on {I : Type} (d : Devices O R I) (w : Nat) : Handler (tsSig w O R) I
  | .readIo p _, i => d.readIo p i
  | .writeIo p v _, i => d.writeIo p v i
  | .isIrq _, i => d.isIrq i
  | .irqData pc _, i => d.irqData pc i
  | .reti a _, i => d.reti a i
  | .isPastLimit _, i => (false, i)
  | .addIrq _, i | .addM1 _, i | .addMreq _, i | .addIo _, i | .asTimestamp, i => (0, i)
  | .addNoMreq _ _, i | .addWait _ _, i | .writeMem _ _ _, i | .debug _, i => ((), i)
  | .readMem _ _, i | .readOpcode _ _ _, i | .readDebug _, i => (0, i)
  | .readMem16 _ _, i => (0, i)

end Z80.Spec
