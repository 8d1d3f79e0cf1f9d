import Verif.Spec.Alike

/-!
# Specification: clocks of any kind

A clock adds T-states to the time and compares the time with a limit. The host next to it has 64 KiB of memory and devices
that do not look at the time.
-/

namespace Z80.Spec
variable {O R L L' C C' I : Type}

/-- A way to keep time. -/
structure Clockwork (C L : Type) where
  add : Nat → C → C
  past : L → C → Bool

/-- A host with this clock; the cycles are those of `TsCounter` (`/repo/src/host.rs` 443-513). -/
def Clockwork.host (k : Clockwork C L) (d : Devices O R I) : Handler ⟨C, O, R, L⟩ (C × Mem × I)
  | .isPastLimit l, s => (k.past l s.1, s)
  | .addIrq _, s => (k.add 2 s.1, k.add 6 s.1, s.2)
  | .addNoMreq _ n, s => ((), k.add n.toNat s.1, s.2)
  | .addM1 _, s => (k.add 4 s.1, k.add 4 s.1, s.2)
  | .addMreq _, s => (k.add 3 s.1, k.add 3 s.1, s.2)
  | .addIo _, s => (k.add 1 s.1, k.add 4 s.1, s.2)
  | .addWait _ n, s => ((), k.add n.toNat s.1, s.2)
  | .asTimestamp, s => (s.1, s)
  | .readIo p _, (t, m, i) => let r := d.readIo p i; (r.1, t, m, r.2)
  | .writeIo p v _, (t, m, i) => let r := d.writeIo p v i; (r.1, t, m, r.2)
  | .isIrq _, (t, m, i) => let r := d.isIrq i; (r.1, t, m, r.2)
  | .irqData pc _, (t, m, i) => let r := d.irqData pc i; (r.1, t, m, r.2)
  | .reti a _, (t, m, i) => let r := d.reti a i; (r.1, t, m, r.2)
  | .readMem a _, s => (s.2.1 a, s)
  | .readMem16 a _, s => (s.2.1.get16 a, s)
  | .readOpcode pc _ _, s => (s.2.1 pc, s)
  | .writeMem a v _, (t, m, i) => ((), t, m.set a v, i)
  | .readDebug a, s => (s.2.1 a, s)
  | .debug _, s => ((), s)

/-- Counting on for ever. -/
def linear : Clockwork Nat Nat where
  add n t := t + n
  past l t := decide (l ≤ t)

/-- Frames of `n` T-states, and T-states from the beginning of the frame. -/
def framed (n : Nat) : Clockwork (Nat × Nat) (Nat × Nat) where
  add k t := (t.1 + (t.2 + k) / n, (t.2 + k) % n)
  past l t := decide (l.1 < t.1 ∨ l.1 = t.1 ∧ l.2 ≤ t.2)

/-- The limits are reached at the same time. -/
def LimitsAlike {Ts Ts' S S' : Type} (H : Handler ⟨Ts, O, R, L⟩ S) (H' : Handler ⟨Ts', O, R, L'⟩ S') (A : S → S' → Prop)
    (l : L) (l' : L') : Prop := ∀ s s', A s s' → Agrees A (H (.isPastLimit l) s) (H' (.isPastLimit l') s')

end Z80.Spec
