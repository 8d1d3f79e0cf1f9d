import Verif.Spec.Alike
import Verif.Props.Mirror

/-!
# Hosts that behave alike: lemmas
-/

namespace Z80
open Spec
variable {Ts Ts' O R L L' S S' : Type} {H : Handler ⟨Ts, O, R, L⟩ S} {H' : Handler ⟨Ts', O, R, L'⟩ S'}
  {E : Ts → Ts' → Prop} {A : S → S' → Prop}

theorem alike_waiting (h : HostsAlike H H' E A) {α : Type} (p : U16) (w : Option U16)
    {k : Prog ⟨Ts, O, R, L⟩ α} {k' : Prog ⟨Ts', O, R, L'⟩ α}
    (hk : ∀ s s', A s s' → Agrees A (k.run H s) (k'.run H' s')) {s : S} {s' : S'} (hs : A s s') :
    Agrees A ((waiting p w k).run H s) ((waiting p w k').run H' s') := by
  cases w with
  | none => exact hk _ _ hs
  | some n => exact hk _ _ (h.addWait p n s s' hs)

/-- The same tree of cycles on both hosts. -/
theorem alike_tree (h : HostsAlike H H' E A) {α : Type} (b : Tree O R α) : ∀ (s : S) (s' : S'), A s s' →
    Agrees A ((Tree.calls (σ := ⟨Ts, O, R, L⟩) b).run H s) ((Tree.calls (σ := ⟨Ts', O, R, L'⟩) b).run H' s') := by
  induction b with
  | done a => exact fun s s' hs => ⟨rfl, hs⟩
  | m1 a ir k ih =>
    intro s s' hs
    have h1 := h.addM1 a s s' hs
    have h2 := h.readOpcode a ir _ _ _ _ h1.1 h1.2
    have := ih ((H (.readOpcode a ir (H (.addM1 a) s).1) (H (.addM1 a) s).2).1) _ _ h2.2
    show Agrees A (Prog.run H (k _).calls _) (Prog.run H' (k _).calls _)
    rw [← h2.1]
    exact this
  | idleM1 a k ih => exact fun s s' hs => ih _ _ (h.addM1 a s s' hs).2
  | rd a k ih =>
    intro s s' hs
    have h1 := h.addMreq a s s' hs
    have h2 := h.readMem a _ _ _ _ h1.1 h1.2
    have := ih ((H (.readMem a (H (.addMreq a) s).1) (H (.addMreq a) s).2).1) _ _ h2.2
    show Agrees A (Prog.run H (k _).calls _) (Prog.run H' (k _).calls _)
    rw [← h2.1]
    exact this
  | rd16 a k ih =>
    intro s s' hs
    have h1 := h.addMreq a s s' hs
    have h2 := h.readMem16 a _ _ _ _ h1.1 h1.2
    have := ih ((H (.readMem16 a (H (.addMreq a) s).1) (H (.addMreq a) s).2).1) _ _
      (h.addMreq (a + 1#16) _ _ h2.2).2
    show Agrees A (Prog.run H (k _).calls _) (Prog.run H' (k _).calls _)
    rw [← h2.1]
    exact this
  | skip a k ih => exact fun s s' hs => ih _ _ (h.readDebug a _ _ (h.addMreq a s s' hs).2)
  | wr a v k ih =>
    intro s s' hs
    have h1 := h.addMreq a s s' hs
    exact ih _ _ (h.writeMem a v _ _ _ _ h1.1 h1.2)
  | idle a n k ih => exact fun s s' hs => ih _ _ (h.addNoMreq a _ s s' hs)
  | inp p k ih =>
    intro s s' hs
    have h1 := h.addIo p s s' hs
    have h2 := h.readIo p _ _ _ _ h1.1 h1.2
    have := alike_waiting h p ((H (.readIo p (H (.addIo p) s).1) (H (.addIo p) s).2).1).2
      (ih ((H (.readIo p (H (.addIo p) s).1) (H (.addIo p) s).2).1).1) h2.2
    show Agrees A (Prog.run H (waiting p _ (k _).calls) _) (Prog.run H' (waiting p _ (k _).calls) _)
    rw [← h2.1]
    exact this
  | out p v k ih =>
    intro s s' hs
    have h1 := h.addIo p s s' hs
    have h2 := h.writeIo p v _ _ _ _ h1.1 h1.2
    have := alike_waiting h p ((H (.writeIo p v (H (.addIo p) s).1) (H (.addIo p) s).2).1).2
      (ih ((H (.writeIo p v (H (.addIo p) s).1) (H (.addIo p) s).2).1).1) h2.2
    show Agrees A (Prog.run H (waiting p _ (k _).calls) _) (Prog.run H' (waiting p _ (k _).calls) _)
    rw [← h2.1]
    exact this
  | reti pc k ih =>
    intro s s' hs
    have h1 := h.asTimestamp s s' hs
    have h2 := h.reti pc _ _ _ _ h1.1 h1.2
    have := ih ((H (.reti pc (H .asTimestamp s).1) (H .asTimestamp s).2).1) _ _ h2.2
    show Agrees A (Prog.run H (k _).calls _) (Prog.run H' (k _).calls _)
    rw [← h2.1]
    exact this
  | irq k ih =>
    intro s s' hs
    have h1 := h.asTimestamp s s' hs
    have h2 := h.isIrq _ _ _ _ h1.1 h1.2
    have := ih ((H (.isIrq (H .asTimestamp s).1) (H .asTimestamp s).2).1) _ _ h2.2
    show Agrees A (Prog.run H (k _).calls _) (Prog.run H' (k _).calls _)
    rw [← h2.1]
    exact this
  | ack pc k ih =>
    intro s s' hs
    have h1 := h.addIrq pc s s' hs
    have h2 := h.irqData pc _ _ _ _ h1.1 h1.2
    have := alike_waiting h pc ((H (.irqData pc (H (.addIrq pc) s).1) (H (.addIrq pc) s).2).1).2
      (ih ((H (.irqData pc (H (.addIrq pc) s).1) (H (.addIrq pc) s).2).1).1) h2.2
    show Agrees A (Prog.run H (waiting pc _ (k _).calls) _) (Prog.run H' (waiting pc _ (k _).calls) _)
    rw [← h2.1]
    exact this

end Z80
