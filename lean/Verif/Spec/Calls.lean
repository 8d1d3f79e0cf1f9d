import Verif.Spec.Bus
import Verif.Model.Prog

/-!
# Specification: the host calls of a bus cycle

How a bus cycle appears to an implementation of the host traits: the clock is told of the cycle
first, and the bus is then accessed with the timestamp the clock returned.
-/

namespace Z80.Spec

variable {σ : Sig} {α : Type}

/-- Wait states, if any, are passed on to the clock. -/
def waiting (p : U16) (w : Option U16) (k : Prog σ α) : Prog σ α :=
  match w with
  | none => k
  | some n => .call (.addWait p n) fun _ => k

/-- The host calls of a tree of bus cycles. -/
def Tree.calls : Tree σ.O σ.R α → Prog σ α
  | .done a => .ret a
  | .m1 a ir k => .call (.addM1 a) fun ts => .call (.readOpcode a ir ts) fun v => (k v).calls
  | .idleM1 a k => .call (.addM1 a) fun _ => k.calls
  | .rd a k => .call (.addMreq a) fun ts => .call (.readMem a ts) fun v => (k v).calls
  | .rd16 a k => .call (.addMreq a) fun ts => .call (.readMem16 a ts) fun v =>
      .call (.addMreq (a + 1#16)) fun _ => (k v).calls
  | .skip a k => .call (.addMreq a) fun _ => .call (.readDebug a) fun _ => k.calls
  | .wr a v k => .call (.addMreq a) fun ts => .call (.writeMem a v ts) fun _ => k.calls
  | .idle a n k => .call (.addNoMreq a (BitVec.ofNat 8 n)) fun _ => k.calls
  | .inp p k => .call (.addIo p) fun ts => .call (.readIo p ts) fun v =>
      waiting p v.2 (k v.1).calls
  | .out p v k => .call (.addIo p) fun ts => .call (.writeIo p v ts) fun x =>
      waiting p x.2 (k x.1).calls
  | .reti pc k => .call .asTimestamp fun ts => .call (.reti pc ts) fun x => (k x).calls
  | .irq k => .call .asTimestamp fun ts => .call (.isIrq ts) fun b => (k b).calls
  | .ack pc k => .call (.addIrq pc) fun ts => .call (.irqData pc ts) fun v =>
      waiting pc v.2 (k v.1).calls

end Z80.Spec
