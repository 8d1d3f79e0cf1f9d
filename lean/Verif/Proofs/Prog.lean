import Verif.Proofs.AttrProg
import Verif.Proofs.Sim
import Verif.Proofs.Quiet
import Verif.Spec.Calls

/-!
# Instruction bodies as trees of host calls
-/

namespace Z80
open Spec

variable {σ : Sig} {Q α β : Type}

/-! Host calls with plain types, so that arguments can be rewritten. -/
@[inherit_doc Req] def Prog.addMreq (a : U16) (k : σ.Ts → Prog σ α) : Prog σ α := .call (.addMreq a) k
@[prog_simps] theorem Prog.map_addMreq (f : α → β) (a : U16) (k : σ.Ts → Prog σ α) :
    (Prog.addMreq a k).map f = Prog.addMreq a fun x => (k x).map f := rfl
@[inherit_doc Req] def Prog.addM1 (a : U16) (k : σ.Ts → Prog σ α) : Prog σ α := .call (.addM1 a) k
@[prog_simps] theorem Prog.map_addM1 (f : α → β) (a : U16) (k : σ.Ts → Prog σ α) :
    (Prog.addM1 a k).map f = Prog.addM1 a fun x => (k x).map f := rfl
@[inherit_doc Req] def Prog.addIo (a : U16) (k : σ.Ts → Prog σ α) : Prog σ α := .call (.addIo a) k
@[prog_simps] theorem Prog.map_addIo (f : α → β) (a : U16) (k : σ.Ts → Prog σ α) :
    (Prog.addIo a k).map f = Prog.addIo a fun x => (k x).map f := rfl
@[inherit_doc Req] def Prog.addNoMreq (a : U16) (n : U8) (k : Unit → Prog σ α) : Prog σ α := .call (.addNoMreq a n) k
@[prog_simps] theorem Prog.map_addNoMreq (f : α → β) (a : U16) (n : U8) (k : Unit → Prog σ α) :
    (Prog.addNoMreq a n k).map f = Prog.addNoMreq a n fun x => (k x).map f := rfl
@[inherit_doc Req] def Prog.asTimestamp  (k : σ.Ts → Prog σ α) : Prog σ α := .call (.asTimestamp) k
@[prog_simps] theorem Prog.map_asTimestamp (f : α → β)  (k : σ.Ts → Prog σ α) :
    (Prog.asTimestamp  k).map f = Prog.asTimestamp  fun x => (k x).map f := rfl
@[inherit_doc Req] def Prog.readMem (a : U16) (ts : σ.Ts) (k : U8 → Prog σ α) : Prog σ α := .call (.readMem a ts) k
@[prog_simps] theorem Prog.map_readMem (f : α → β) (a : U16) (ts : σ.Ts) (k : U8 → Prog σ α) :
    (Prog.readMem a ts k).map f = Prog.readMem a ts fun x => (k x).map f := rfl
@[inherit_doc Req] def Prog.readMem16 (a : U16) (ts : σ.Ts) (k : U16 → Prog σ α) : Prog σ α := .call (.readMem16 a ts) k
@[prog_simps] theorem Prog.map_readMem16 (f : α → β) (a : U16) (ts : σ.Ts) (k : U16 → Prog σ α) :
    (Prog.readMem16 a ts k).map f = Prog.readMem16 a ts fun x => (k x).map f := rfl
@[inherit_doc Req] def Prog.readOpcode (a ir : U16) (ts : σ.Ts) (k : U8 → Prog σ α) : Prog σ α := .call (.readOpcode a ir ts) k
@[prog_simps] theorem Prog.map_readOpcode (f : α → β) (a ir : U16) (ts : σ.Ts) (k : U8 → Prog σ α) :
    (Prog.readOpcode a ir ts k).map f = Prog.readOpcode a ir ts fun x => (k x).map f := rfl
@[inherit_doc Req] def Prog.writeMem (a : U16) (v : U8) (ts : σ.Ts) (k : Unit → Prog σ α) : Prog σ α := .call (.writeMem a v ts) k
@[prog_simps] theorem Prog.map_writeMem (f : α → β) (a : U16) (v : U8) (ts : σ.Ts) (k : Unit → Prog σ α) :
    (Prog.writeMem a v ts k).map f = Prog.writeMem a v ts fun x => (k x).map f := rfl
@[inherit_doc Req] def Prog.readDebug (a : U16) (k : U8 → Prog σ α) : Prog σ α := .call (.readDebug a) k
@[prog_simps] theorem Prog.map_readDebug (f : α → β) (a : U16) (k : U8 → Prog σ α) :
    (Prog.readDebug a k).map f = Prog.readDebug a fun x => (k x).map f := rfl
@[inherit_doc Req] def Prog.readIo (p : U16) (ts : σ.Ts) (k : U8 × Option U16 → Prog σ α) : Prog σ α := .call (.readIo p ts) k
@[prog_simps] theorem Prog.map_readIo (f : α → β) (p : U16) (ts : σ.Ts) (k : U8 × Option U16 → Prog σ α) :
    (Prog.readIo p ts k).map f = Prog.readIo p ts fun x => (k x).map f := rfl
@[inherit_doc Req] def Prog.writeIo (p : U16) (v : U8) (ts : σ.Ts) (k : Option σ.O × Option U16 → Prog σ α) : Prog σ α := .call (.writeIo p v ts) k
@[prog_simps] theorem Prog.map_writeIo (f : α → β) (p : U16) (v : U8) (ts : σ.Ts) (k : Option σ.O × Option U16 → Prog σ α) :
    (Prog.writeIo p v ts k).map f = Prog.writeIo p v ts fun x => (k x).map f := rfl
@[inherit_doc Req] def Prog.isIrq (ts : σ.Ts) (k : Bool → Prog σ α) : Prog σ α := .call (.isIrq ts) k
@[prog_simps] theorem Prog.map_isIrq (f : α → β) (ts : σ.Ts) (k : Bool → Prog σ α) :
    (Prog.isIrq ts k).map f = Prog.isIrq ts fun x => (k x).map f := rfl
@[inherit_doc Req] def Prog.reti (p : U16) (ts : σ.Ts) (k : Option σ.R → Prog σ α) : Prog σ α := .call (.reti p ts) k
@[prog_simps] theorem Prog.map_reti (f : α → β) (p : U16) (ts : σ.Ts) (k : Option σ.R → Prog σ α) :
    (Prog.reti p ts k).map f = Prog.reti p ts fun x => (k x).map f := rfl
@[inherit_doc Req] def Prog.addIrq (a : U16) (k : σ.Ts → Prog σ α) : Prog σ α := .call (.addIrq a) k
@[prog_simps] theorem Prog.map_addIrq (f : α → β) (a : U16) (k : σ.Ts → Prog σ α) :
    (Prog.addIrq a k).map f = Prog.addIrq a fun x => (k x).map f := rfl
@[inherit_doc Req] def Prog.irqData (p : U16) (ts : σ.Ts) (k : U8 × Option U16 → Prog σ α) : Prog σ α := .call (.irqData p ts) k
@[prog_simps] theorem Prog.map_irqData (f : α → β) (p : U16) (ts : σ.Ts) (k : U8 × Option U16 → Prog σ α) :
    (Prog.irqData p ts k).map f = Prog.irqData p ts fun x => (k x).map f := rfl

/-- The host calls of CPU code, without those of the debugger. -/
def progE (x : Ex σ Q α) (s : St Q) : Prog σ (α × St Q) := (x s).erase

theorem progE_bind (x : Ex σ Q α) (f : α → Ex σ Q β) (s : St Q) :
    progE (x >>= f) s = (progE x s).bind fun p => progE (f p.1) p.2 := Prog.erase_bind _ _

section
variable (s : St Q)

@[prog_simps] theorem progE_pure (a : α) : progE (σ := σ) (pure a) s = .ret (a, s) := rfl
@[prog_simps] theorem progE_addMreq (a : U16) (f : σ.Ts → Ex σ Q β) :
    progE (addMreq a >>= f) s = Prog.addMreq a fun x => progE (f x) s := rfl
@[prog_simps] theorem progE_addMreq' (a : U16) :
    progE (addMreq (σ := σ) a) s = Prog.addMreq a fun x => .ret (x, s) := rfl
@[prog_simps] theorem progE_addM1 (a : U16) (f : σ.Ts → Ex σ Q β) :
    progE (addM1 a >>= f) s = Prog.addM1 a fun x => progE (f x) s := rfl
@[prog_simps] theorem progE_addM1' (a : U16) :
    progE (addM1 (σ := σ) a) s = Prog.addM1 a fun x => .ret (x, s) := rfl
@[prog_simps] theorem progE_addIo (a : U16) (f : σ.Ts → Ex σ Q β) :
    progE (addIo a >>= f) s = Prog.addIo a fun x => progE (f x) s := rfl
@[prog_simps] theorem progE_addIo' (a : U16) :
    progE (addIo (σ := σ) a) s = Prog.addIo a fun x => .ret (x, s) := rfl
@[prog_simps] theorem progE_addNoMreq (a : U16) (n : U8) (f : Unit → Ex σ Q β) :
    progE (addNoMreq a n >>= f) s = Prog.addNoMreq a n fun x => progE (f x) s := rfl
@[prog_simps] theorem progE_addNoMreq' (a : U16) (n : U8) :
    progE (addNoMreq (σ := σ) a n) s = Prog.addNoMreq a n fun x => .ret (x, s) := rfl
@[prog_simps] theorem progE_asTimestamp  (f : σ.Ts → Ex σ Q β) :
    progE (asTimestamp  >>= f) s = Prog.asTimestamp fun x => progE (f x) s := rfl
@[prog_simps] theorem progE_asTimestamp'  :
    progE (asTimestamp (σ := σ)) s = Prog.asTimestamp fun x => .ret (x, s) := rfl
@[prog_simps] theorem progE_readMem (a : U16) (ts : σ.Ts) (f : U8 → Ex σ Q β) :
    progE (readMem a ts >>= f) s = Prog.readMem a ts fun x => progE (f x) s := rfl
@[prog_simps] theorem progE_readMem' (a : U16) (ts : σ.Ts) :
    progE (readMem (σ := σ) a ts) s = Prog.readMem a ts fun x => .ret (x, s) := rfl
@[prog_simps] theorem progE_readMem16 (a : U16) (ts : σ.Ts) (f : U16 → Ex σ Q β) :
    progE (readMem16 a ts >>= f) s = Prog.readMem16 a ts fun x => progE (f x) s := rfl
@[prog_simps] theorem progE_readMem16' (a : U16) (ts : σ.Ts) :
    progE (readMem16 (σ := σ) a ts) s = Prog.readMem16 a ts fun x => .ret (x, s) := rfl
@[prog_simps] theorem progE_readOpcode (a ir : U16) (ts : σ.Ts) (f : U8 → Ex σ Q β) :
    progE (readOpcode a ir ts >>= f) s = Prog.readOpcode a ir ts fun x => progE (f x) s := rfl
@[prog_simps] theorem progE_readOpcode' (a ir : U16) (ts : σ.Ts) :
    progE (readOpcode (σ := σ) a ir ts) s = Prog.readOpcode a ir ts fun x => .ret (x, s) := rfl
@[prog_simps] theorem progE_writeMem (a : U16) (v : U8) (ts : σ.Ts) (f : Unit → Ex σ Q β) :
    progE (writeMem a v ts >>= f) s = Prog.writeMem a v ts fun x => progE (f x) s := rfl
@[prog_simps] theorem progE_writeMem' (a : U16) (v : U8) (ts : σ.Ts) :
    progE (writeMem (σ := σ) a v ts) s = Prog.writeMem a v ts fun x => .ret (x, s) := rfl
@[prog_simps] theorem progE_readDebug (a : U16) (f : U8 → Ex σ Q β) :
    progE (readDebug a >>= f) s = Prog.readDebug a fun x => progE (f x) s := rfl
@[prog_simps] theorem progE_readDebug' (a : U16) :
    progE (readDebug (σ := σ) a) s = Prog.readDebug a fun x => .ret (x, s) := rfl
@[prog_simps] theorem progE_readIo (p : U16) (ts : σ.Ts) (f : U8 × Option U16 → Ex σ Q β) :
    progE (readIo p ts >>= f) s = Prog.readIo p ts fun x => progE (f x) s := rfl
@[prog_simps] theorem progE_readIo' (p : U16) (ts : σ.Ts) :
    progE (readIo (σ := σ) p ts) s = Prog.readIo p ts fun x => .ret (x, s) := rfl
@[prog_simps] theorem progE_writeIo (p : U16) (v : U8) (ts : σ.Ts) (f : Option σ.O × Option U16 → Ex σ Q β) :
    progE (writeIo p v ts >>= f) s = Prog.writeIo p v ts fun x => progE (f x) s := rfl
@[prog_simps] theorem progE_writeIo' (p : U16) (v : U8) (ts : σ.Ts) :
    progE (writeIo (σ := σ) p v ts) s = Prog.writeIo p v ts fun x => .ret (x, s) := rfl
@[prog_simps] theorem progE_isIrq (ts : σ.Ts) (f : Bool → Ex σ Q β) :
    progE (isIrq ts >>= f) s = Prog.isIrq ts fun x => progE (f x) s := rfl
@[prog_simps] theorem progE_isIrq' (ts : σ.Ts) :
    progE (isIrq (σ := σ) ts) s = Prog.isIrq ts fun x => .ret (x, s) := rfl
@[prog_simps] theorem progE_retiCall (p : U16) (ts : σ.Ts) (f : Option σ.R → Ex σ Q β) :
    progE (retiCall p ts >>= f) s = Prog.reti p ts fun x => progE (f x) s := rfl
@[prog_simps] theorem progE_retiCall' (p : U16) (ts : σ.Ts) :
    progE (retiCall (σ := σ) p ts) s = Prog.reti p ts fun x => .ret (x, s) := rfl
@[prog_simps] theorem progE_getS (f : St Q → Ex σ Q β) :
    progE (Ex.getS >>= f) s = progE (f s) s := rfl
@[prog_simps] theorem progE_getS' : progE (σ := σ) (Ex.getS) s = .ret (s, s) := rfl
@[prog_simps] theorem progE_getC (f : Cpu Q → Ex σ Q β) :
    progE (Ex.getC >>= f) s = progE (f s.cpu) s := rfl
@[prog_simps] theorem progE_getC' : progE (σ := σ) (Ex.getC) s = .ret (s.cpu, s) := rfl
@[prog_simps] theorem progE_getF (f : U8 → Ex σ Q β) :
    progE (Ex.getF >>= f) s = progE (f s.flags) s := rfl
@[prog_simps] theorem progE_getF' : progE (σ := σ) (Ex.getF) s = .ret (s.flags, s) := rfl
@[prog_simps] theorem progE_getPc (f : U16 → Ex σ Q β) :
    progE (Ex.getPc >>= f) s = progE (f s.pc) s := rfl
@[prog_simps] theorem progE_getPc' : progE (σ := σ) (Ex.getPc) s = .ret (s.pc, s) := rfl
@[prog_simps] theorem progE_modS (g : St Q → St Q) (f : Unit → Ex σ Q β) :
    progE (Ex.modS g >>= f) s = progE (f ()) (g s) := rfl
@[prog_simps] theorem progE_modS' (g : St Q → St Q) :
    progE (σ := σ) (Ex.modS g) s = .ret ((), g s) := rfl
@[prog_simps] theorem progE_modC (g : Cpu Q → Cpu Q) (f : Unit → Ex σ Q β) :
    progE (Ex.modC g >>= f) s = progE (f ()) { s with cpu := g s.cpu } := rfl
@[prog_simps] theorem progE_modC' (g : Cpu Q → Cpu Q) :
    progE (σ := σ) (Ex.modC g) s = .ret ((), { s with cpu := g s.cpu }) := rfl
@[prog_simps] theorem progE_setF (v : U8) (f : Unit → Ex σ Q β) :
    progE (Ex.setF v >>= f) s = progE (f ()) { s with flags := v } := rfl
@[prog_simps] theorem progE_setF' (v : U8) :
    progE (σ := σ) (Ex.setF v) s = .ret ((), { s with flags := v }) := rfl
@[prog_simps] theorem progE_setPc (v : U16) (f : Unit → Ex σ Q β) :
    progE (Ex.setPc v >>= f) s = progE (f ()) { s with pc := v } := rfl
@[prog_simps] theorem progE_setPc' (v : U16) :
    progE (σ := σ) (Ex.setPc v) s = .ret ((), { s with pc := v }) := rfl
@[prog_simps] theorem progE_setPfx (v : Option Prefix) (f : Unit → Ex σ Q β) :
    progE (Ex.setPfx v >>= f) s = progE (f ()) { s with pfx := v } := rfl
@[prog_simps] theorem progE_setPfx' (v : Option Prefix) :
    progE (σ := σ) (Ex.setPfx v) s = .ret ((), { s with pfx := v }) := rfl
@[prog_simps] theorem progE_when (c : Bool) (x : Ex σ Q Unit) (f : Unit → Ex σ Q β) :
    progE (Ex.when c x >>= f) s = if c then progE (x >>= f) s else progE (f ()) s := by
  cases c <;> rfl
@[prog_simps] theorem progE_when' (c : Bool) (x : Ex σ Q Unit) :
    progE (Ex.when c x) s = if c then progE x s else .ret ((), s) := by
  cases c <;> rfl
@[prog_simps] theorem progE_ite (c : Bool) (x y : Ex σ Q α) (f : α → Ex σ Q β) :
    progE (Ex.ifElse c x y >>= f) s = if c then progE (x >>= f) s else progE (y >>= f) s := by
  cases c <;> rfl
@[prog_simps] theorem progE_ite' (c : Bool) (x y : Ex σ Q α) :
    progE (Ex.ifElse c x y) s = if c then progE x s else progE y s := by
  cases c <;> rfl
@[prog_simps] theorem progE_dbg (l : List U8) (n : String) (a : DbgArgs)
    (f : Unit → Ex σ Q β) : progE (dbg l n a >>= f) s = progE (f ()) s := by
  obtain ⟨c, fl, pc, p, d⟩ := s
  cases d <;> rfl
@[prog_simps] theorem progE_dbg' (l : List U8) (n : String) (a : DbgArgs) :
    progE (dbg (σ := σ) l n a) s = .ret ((), s) := by
  obtain ⟨c, fl, pc, p, d⟩ := s
  cases d <;> rfl
@[prog_simps] theorem progE_addWaitOpt (a : U16) (n : Option U16) (f : Unit → Ex σ Q β) :
    progE (addWaitOpt a n >>= f) s = waiting a n (progE (f ()) s) := by
  cases n <;> rfl
@[prog_simps] theorem progE_addWaitOpt' (a : U16) (n : Option U16) :
    progE (addWaitOpt (σ := σ) a n) s = waiting a n (.ret ((), s)) := by
  cases n <;> rfl

end

@[prog_simps] theorem map_ret (f : α → β) (a : α) : (Prog.ret a : Prog σ α).map f = .ret (f a) := rfl
@[prog_simps] theorem map_call (f : α → β) (r : Req σ) (k : r.Ans → Prog σ α) :
    (Prog.call r k).map f = .call r fun x => (k x).map f := rfl
@[prog_simps] theorem map_waiting (f : α → β) (p : U16) (w : Option U16) (k : Prog σ α) :
    (waiting p w k).map f = waiting p w (k.map f) := by
  cases w <;> rfl
@[prog_simps] theorem map_ite (f : α → β) (c : Prop) [Decidable c] (p q : Prog σ α) :
    (if c then p else q).map f = if c then p.map f else q.map f := by
  split <;> rfl
@[prog_simps] theorem calls_ite (c : Prop) [Decidable c] (p q : Tree σ.O σ.R α) :
    (if c then p else q).calls = if c then p.calls else q.calls := by
  split <;> rfl
@[prog_simps] theorem bind_ite {O R : Type} (f : α → Tree O R β) (c : Prop) [Decidable c] (p q : Tree O R α) :
    (if c then p else q).bind f = if c then p.bind f else q.bind f := by
  split <;> rfl

section
variable (a ir p pc : U16) (v : U8) (n : Nat) (x : α) (k : Tree σ.O σ.R α)
@[prog_simps] theorem calls_done : (Tree.done x : Tree σ.O σ.R α).calls = (.ret x : Prog σ α) := rfl
@[prog_simps] theorem calls_m1 (k : U8 → Tree σ.O σ.R α) : (Tree.m1 a ir k).calls =
    (Prog.addM1 a fun ts => Prog.readOpcode a ir ts fun v => (k v).calls : Prog σ α) := rfl
@[prog_simps] theorem calls_idleM1 : (Tree.idleM1 a k).calls =
    (Prog.addM1 a fun _ => k.calls : Prog σ α) := rfl
@[prog_simps] theorem calls_rd (k : U8 → Tree σ.O σ.R α) : (Tree.rd a k).calls =
    (Prog.addMreq a fun ts => Prog.readMem a ts fun v => (k v).calls : Prog σ α) := rfl
@[prog_simps] theorem calls_rd16 (k : U16 → Tree σ.O σ.R α) : (Tree.rd16 a k).calls =
    (Prog.addMreq a fun ts => Prog.readMem16 a ts fun v => Prog.addMreq (a + 1#16) fun _ =>
      (k v).calls : Prog σ α) := rfl
@[prog_simps] theorem calls_skip : (Tree.skip a k).calls =
    (Prog.addMreq a fun _ => Prog.readDebug a fun _ => k.calls : Prog σ α) := rfl
@[prog_simps] theorem calls_wr : (Tree.wr a v k).calls =
    (Prog.addMreq a fun ts => Prog.writeMem a v ts fun _ => k.calls : Prog σ α) := rfl
@[prog_simps] theorem calls_idle : (Tree.idle a n k).calls =
    (Prog.addNoMreq a (BitVec.ofNat 8 n) fun _ => k.calls : Prog σ α) := rfl
@[prog_simps] theorem calls_inp (k : U8 → Tree σ.O σ.R α) : (Tree.inp p k).calls =
    (Prog.addIo p fun ts => Prog.readIo p ts fun v => waiting p v.2 (k v.1).calls : Prog σ α) := rfl
@[prog_simps] theorem calls_out (k : Option σ.O → Tree σ.O σ.R α) : (Tree.out p v k).calls =
    (Prog.addIo p fun ts => Prog.writeIo p v ts fun x => waiting p x.2 (k x.1).calls : Prog σ α) :=
  rfl
@[prog_simps] theorem calls_reti (k : Option σ.R → Tree σ.O σ.R α) : (Tree.reti pc k).calls =
    (Prog.asTimestamp fun ts => Prog.reti pc ts fun x => (k x).calls : Prog σ α) := rfl
@[prog_simps] theorem calls_irq (k : Bool → Tree σ.O σ.R α) : (Tree.irq k).calls =
    (Prog.asTimestamp fun ts => Prog.isIrq ts fun b => (k b).calls : Prog σ α) := rfl
@[prog_simps] theorem calls_ack (k : U8 → Tree σ.O σ.R α) : (Tree.ack pc k).calls =
    (Prog.addIrq pc fun ts => Prog.irqData pc ts fun v => waiting pc v.2 (k v.1).calls :
      Prog σ α) := rfl
end

/-- Reported result of an instruction body. -/
def outX : Exit σ → Option (Out σ.O σ.R)
  | .cont => some .ok
  | .enableInt => some .ok
  | .halt => some .halt
  | .writeIo o => some (.writeIo o)
  | .reti r => some (.reti r)
  | .ub => none

@[prog_simps] theorem outX_cont : outX (.cont : Exit σ) = some .ok := rfl
@[prog_simps] theorem outX_enableInt : outX (.enableInt : Exit σ) = some .ok := rfl
@[prog_simps] theorem outX_halt : outX (.halt : Exit σ) = some .halt := rfl
@[prog_simps] theorem some_outOf (o : Option σ.O) :
    (some (outOf o) : Option (Out σ.O σ.R)) = outX (breakIo o) := by
  cases o <;> rfl
@[prog_simps] theorem some_retOf (o : Option σ.R) :
    (some (retOf o) : Option (Out σ.O σ.R)) = outX (breakReti o) := by
  cases o <;> rfl

attribute [prog_simps] operand relCycles pushCycles popCycles modifyCycles fin endCycles Tree.bind
  Regs.ir Regs.skip Regs.setAF Regs.goto Regs.wzStore

variable [FlavourSpec Q]

/-- What the programmer sees at the end of an instruction body. -/
def seen (r : Exit σ × St Q) : Regs × Option (Out σ.O σ.R) := (absS FlavourSpec.cur r.2, outX r.1)
/-- What is specified. -/
def wanted {O R : Type} (r : Res' O R) : Regs × Option (Out O R) := (r.1, some r.2.2)

/-- Code `x` run from `s` makes the calls of the specified cycles, with the specified results. -/
def Drives (x : Ex σ Q (Exit σ)) (s : St Q) (b : Cycles σ.O σ.R) : Prop :=
  (progE x s).map seen = b.calls.map wanted

attribute [prog_simps] seen wanted Drives

end Z80
