import Verif.Spec.Calls

/-!
# Specification: sequences of bus cycles

The cycles along one path through a tree, and the calls and answers of one cycle as a host sees
them, with the T-states they take.
-/

namespace Z80.Spec

/-- One bus cycle that took place, with the byte read or written and the wait states asked for
by the device. -/
inductive Cyc
  | m1 (a ir : U16) (v : U8)
  | idleM1 (a : U16)
  | rd (a : U16) (v : U8)
  | rd16 (a : U16) (v : U16)
  | skip (a : U16)
  | wr (a : U16) (v : U8)
  | idle (a : U16) (n : U8)
  | inp (p : U16) (v : U8) (w : Option U16)
  | out (p : U16) (v : U8) (w : Option U16)
  | reti (pc : U16)
  | irq (b : Bool)
  | ack (pc : U16) (v : U8) (w : Option U16)
deriving DecidableEq

variable {O R α : Type} {σ : Sig}

/-- The cycles along a path to an end of a tree. -/
inductive Tree.Path : Tree O R α → List Cyc → α → Prop
  | done (a) : Path (.done a) [] a
  | m1 {a ir k v l e} : Path (k v) l e → Path (.m1 a ir k) (.m1 a ir v :: l) e
  | idleM1 {a k l e} : Path k l e → Path (.idleM1 a k) (.idleM1 a :: l) e
  | rd {a k v l e} : Path (k v) l e → Path (.rd a k) (.rd a v :: l) e
  | rd16 {a k v l e} : Path (k v) l e → Path (.rd16 a k) (.rd16 a v :: l) e
  | skip {a k l e} : Path k l e → Path (.skip a k) (.skip a :: l) e
  | wr {a v k l e} : Path k l e → Path (.wr a v k) (.wr a v :: l) e
  | idle {a n k l e} : Path k l e → Path (.idle a n k) (.idle a (BitVec.ofNat 8 n) :: l) e
  | inp {p k v w l e} : Path (k v) l e → Path (.inp p k) (.inp p v w :: l) e
  | out {p v k x w l e} : Path (k x) l e → Path (.out p v k) (.out p v w :: l) e
  | reti {pc k x l e} : Path (k x) l e → Path (.reti pc k) (.reti pc :: l) e
  | irq {k b l e} : Path (k b) l e → Path (.irq k) (.irq b :: l) e
  | ack {pc k v w l e} : Path (k v) l e → Path (.ack pc k) (.ack pc v w :: l) e

/-- The clock being told of wait states. -/
def waitCalls (p : U16) : Option U16 → List (Ev σ)
  | none => []
  | some n => [⟨.addWait p n, ()⟩]

/-- The host calls of a cycle: the clock is told first, and the bus is accessed with the
timestamp the clock gave. -/
inductive Cyc.Calls : Cyc → List (Ev σ) → Prop
  | m1 {a ir v} (ts) : Calls (.m1 a ir v) [⟨.addM1 a, ts⟩, ⟨.readOpcode a ir ts, v⟩]
  | idleM1 {a} (ts) : Calls (.idleM1 a) [⟨.addM1 a, ts⟩]
  | rd {a v} (ts) : Calls (.rd a v) [⟨.addMreq a, ts⟩, ⟨.readMem a ts, v⟩]
  | rd16 {a v} (ts ts') : Calls (.rd16 a v)
      [⟨.addMreq a, ts⟩, ⟨.readMem16 a ts, v⟩, ⟨.addMreq (a + 1#16), ts'⟩]
  | skip {a} (ts v) : Calls (.skip a) [⟨.addMreq a, ts⟩, ⟨.readDebug a, v⟩]
  | wr {a v} (ts) : Calls (.wr a v) [⟨.addMreq a, ts⟩, ⟨.writeMem a v ts, ()⟩]
  | idle {a n} : Calls (.idle a n) [⟨.addNoMreq a n, ()⟩]
  | inp {p v w} (ts) : Calls (.inp p v w)
      (⟨.addIo p, ts⟩ :: ⟨.readIo p ts, (v, w)⟩ :: waitCalls p w)
  | out {p v w} (ts x) : Calls (.out p v w)
      (⟨.addIo p, ts⟩ :: ⟨.writeIo p v ts, (x, w)⟩ :: waitCalls p w)
  | reti {pc} (ts x) : Calls (.reti pc) [⟨.asTimestamp, ts⟩, ⟨.reti pc ts, x⟩]
  | irq {b} (ts) : Calls (.irq b) [⟨.asTimestamp, ts⟩, ⟨.isIrq ts, b⟩]
  | ack {pc v w} (ts) : Calls (.ack pc v w)
      (⟨.addIrq pc, ts⟩ :: ⟨.irqData pc ts, (v, w)⟩ :: waitCalls pc w)

/-- The host calls of a sequence of cycles. -/
inductive Performs : List Cyc → List (Ev σ) → Prop
  | nil : Performs [] []
  | cons {c l t u} : c.Calls t → Performs l u → Performs (c :: l) (t ++ u)

/-! ### T-states -/

/-- T-states of a cycle without wait states. -/
def Cyc.base : Cyc → Nat
  | .m1 _ _ _ | .idleM1 _ => 4
  | .rd _ _ | .skip _ | .wr _ _ => 3
  | .rd16 _ _ => 6
  | .idle _ n => n.toNat
  | .inp _ _ _ | .out _ _ _ => 4
  | .reti _ | .irq _ => 0
  | .ack _ _ _ => 6

/-- T-states of a sequence of cycles without wait states. -/
def base (l : List Cyc) : Nat := (l.map Cyc.base).sum

/-- T-states a call of the host announces to the clock, wait states apart. -/
def _root_.Z80.Ev.base (e : Ev σ) : Nat :=
  match e.req with
  | .addM1 _ => 4
  | .addMreq _ => 3
  | .addIo _ => 4
  | .addIrq _ => 6
  | .addNoMreq _ n => n.toNat
  | _ => 0

/-- Wait states announced to the clock. -/
def _root_.Z80.Ev.waited (e : Ev σ) : Nat :=
  match e.req with
  | .addWait _ n => n.toNat
  | _ => 0

/-- Number of wait states. -/
def waits : Option U16 → Nat
  | none => 0
  | some n => n.toNat

/-- Wait states the host asked for in an answer. -/
def _root_.Z80.Ev.asked : Ev σ → Nat
  | ⟨.readIo _ _, x⟩ => waits x.2
  | ⟨.writeIo _ _ _, x⟩ => waits x.2
  | ⟨.irqData _ _, x⟩ => waits x.2
  | _ => 0

/-- T-states in a sequence of calls, wait states apart. -/
def clocked (t : List (Ev σ)) : Nat := (t.map Ev.base).sum
/-- Wait states in a sequence of calls. -/
def waited (t : List (Ev σ)) : Nat := (t.map Ev.waited).sum
/-- Wait states asked for in a sequence of answers. -/
def asked (t : List (Ev σ)) : Nat := (t.map Ev.asked).sum

end Z80.Spec
