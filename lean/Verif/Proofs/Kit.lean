import Verif.Model.Run
import Verif.Model.Host
import Verif.Proofs.Attr

/-!
# Helper lemmas: running programs
-/

namespace Z80

variable {σ : Sig} {Q α β S : Type}

namespace Prog

@[simp] theorem bind_ret (a : α) (f : α → Prog σ β) : (Prog.ret a).bind f = f a := rfl
@[simp] theorem bind_call (r : Req σ) (k : r.Ans → Prog σ α) (f : α → Prog σ β) :
    (Prog.call r k).bind f = .call r fun x => (k x).bind f := rfl

theorem bind_assoc {γ : Type} (p : Prog σ α) (f : α → Prog σ β) (g : β → Prog σ γ) :
    (p.bind f).bind g = p.bind fun a => (f a).bind g := by
  induction p with
  | ret a => rfl
  | call r k ih => simp only [bind_call]; congr; funext x; exact ih x

theorem bind_pure (p : Prog σ α) : p.bind .ret = p := by
  induction p with
  | ret a => rfl
  | call r k ih => simp only [bind_call]; congr; funext x; exact ih x

theorem run_bind (H : Handler σ S) (p : Prog σ α) (f : α → Prog σ β) (h : S) :
    (p.bind f).run H h = (f (p.run H h).1).run H (p.run H h).2 := by
  induction p generalizing h with
  | ret a => rfl
  | call r k ih => simp only [bind_call, run]; exact ih _ _

theorem trace_bind (H : Handler σ S) (p : Prog σ α) (f : α → Prog σ β) (h : S) :
    (p.bind f).trace H h = p.trace H h ++ (f (p.run H h).1).trace H (p.run H h).2 := by
  induction p generalizing h with
  | ret a => rfl
  | call r k ih => simp only [bind_call, trace, run, List.cons_append, ih]

theorem wp_bind (p : Prog σ α) (f : α → Prog σ β) (P : List (Ev σ) → β → Prop) :
    (p.bind f).wp P ↔ p.wp fun t a => (f a).wp fun t' b => P (t ++ t') b := by
  induction p generalizing P with
  | ret a => rfl
  | call r k ih =>
    simp only [bind_call, wp]
    exact forall_congr' fun x => ih x _

theorem wp_mono {p : Prog σ α} {P P' : List (Ev σ) → α → Prop} (h : ∀ t a, P t a → P' t a)
    (hp : p.wp P) : p.wp P' := by
  induction p generalizing P P' with
  | ret a => exact h _ _ hp
  | call r k ih => exact fun x => ih x (fun t a => h _ _) (hp x)

/-- `wp` speaks of every run. -/
theorem wp_run {p : Prog σ α} {P : List (Ev σ) → α → Prop} (hp : p.wp P) (H : Handler σ S) (h : S) :
    P (p.trace H h) (p.run H h).1 := by
  induction p generalizing P h with
  | ret a => exact hp
  | call r k ih => exact ih _ (hp _) _

end Prog

/-- Run CPU code. -/
def runE (H : Handler σ S) (x : Ex σ Q α) (s : St Q) (h : S) : (α × St Q) × S := (x s).run H h

@[run_simps] theorem Ex.bind_assoc {γ : Type} (x : Ex σ Q α) (f : α → Ex σ Q β) (g : β → Ex σ Q γ) :
    (x >>= f) >>= g = x >>= fun a => f a >>= g := by
  funext s; exact Prog.bind_assoc _ _ _
@[run_simps] theorem Ex.pure_bind (a : α) (f : α → Ex σ Q β) : pure a >>= f = f a := rfl

theorem runE_bind (H : Handler σ S) (s : St Q) (h : S) (x : Ex σ Q α) (f : α → Ex σ Q β) :
    runE H (x >>= f) s h = runE H (f (runE H x s h).1.1) (runE H x s h).1.2 (runE H x s h).2 :=
  Prog.run_bind H (x s) _ h

section
variable (H : Handler σ S) (s : St Q) (h : S)

@[run_simps] theorem runE_pure (a : α) : runE H (pure a) s h = ((a, s), h) := rfl
@[run_simps] theorem runE_getS  (f : St Q → Ex σ Q β) :
    runE H (Ex.getS >>= f) s h = runE H (f s) s h := rfl
@[run_simps] theorem runE_getS'  : runE H (Ex.getS) s h = ((s, s), h) := rfl
@[run_simps] theorem runE_modS (g : St Q → St Q) (f : Unit → Ex σ Q β) :
    runE H (Ex.modS g >>= f) s h = runE H (f ()) (g s) h := rfl
@[run_simps] theorem runE_modS' (g : St Q → St Q) : runE H (Ex.modS g) s h = (((), (g s)), h) := rfl
@[run_simps] theorem runE_getC  (f : Cpu Q → Ex σ Q β) :
    runE H (Ex.getC >>= f) s h = runE H (f s.cpu) s h := rfl
@[run_simps] theorem runE_getC'  : runE H (Ex.getC) s h = ((s.cpu, s), h) := rfl
@[run_simps] theorem runE_modC (g : Cpu Q → Cpu Q) (f : Unit → Ex σ Q β) :
    runE H (Ex.modC g >>= f) s h = runE H (f ()) { s with cpu := g s.cpu } h := rfl
@[run_simps] theorem runE_modC' (g : Cpu Q → Cpu Q) : runE H (Ex.modC g) s h = (((), { s with cpu := g s.cpu }), h) := rfl
@[run_simps] theorem runE_getF  (f : U8 → Ex σ Q β) :
    runE H (Ex.getF >>= f) s h = runE H (f s.flags) s h := rfl
@[run_simps] theorem runE_getF'  : runE H (Ex.getF) s h = ((s.flags, s), h) := rfl
@[run_simps] theorem runE_setF (v : U8) (f : Unit → Ex σ Q β) :
    runE H (Ex.setF v >>= f) s h = runE H (f ()) { s with flags := v } h := rfl
@[run_simps] theorem runE_setF' (v : U8) : runE H (Ex.setF v) s h = (((), { s with flags := v }), h) := rfl
@[run_simps] theorem runE_getPc  (f : U16 → Ex σ Q β) :
    runE H (Ex.getPc >>= f) s h = runE H (f s.pc) s h := rfl
@[run_simps] theorem runE_getPc'  : runE H (Ex.getPc) s h = ((s.pc, s), h) := rfl
@[run_simps] theorem runE_setPc (v : U16) (f : Unit → Ex σ Q β) :
    runE H (Ex.setPc v >>= f) s h = runE H (f ()) { s with pc := v } h := rfl
@[run_simps] theorem runE_setPc' (v : U16) : runE H (Ex.setPc v) s h = (((), { s with pc := v }), h) := rfl
@[run_simps] theorem runE_setPfx (v : Option Prefix) (f : Unit → Ex σ Q β) :
    runE H (Ex.setPfx v >>= f) s h = runE H (f ()) { s with pfx := v } h := rfl
@[run_simps] theorem runE_setPfx' (v : Option Prefix) : runE H (Ex.setPfx v) s h = (((), { s with pfx := v }), h) := rfl
@[run_simps] theorem runE_addMreq (a : U16) (f : σ.Ts → Ex σ Q β) :
    runE H (addMreq a >>= f) s h = runE H (f (H (.addMreq a) h).1) s (H (.addMreq a) h).2 := rfl
@[run_simps] theorem runE_addMreq' (a : U16) :
    runE H (addMreq a) s h = (((H (.addMreq a) h).1, s), (H (.addMreq a) h).2) := rfl
@[run_simps] theorem runE_addM1 (a : U16) (f : σ.Ts → Ex σ Q β) :
    runE H (addM1 a >>= f) s h = runE H (f (H (.addM1 a) h).1) s (H (.addM1 a) h).2 := rfl
@[run_simps] theorem runE_addM1' (a : U16) :
    runE H (addM1 a) s h = (((H (.addM1 a) h).1, s), (H (.addM1 a) h).2) := rfl
@[run_simps] theorem runE_addIo (a : U16) (f : σ.Ts → Ex σ Q β) :
    runE H (addIo a >>= f) s h = runE H (f (H (.addIo a) h).1) s (H (.addIo a) h).2 := rfl
@[run_simps] theorem runE_addIo' (a : U16) :
    runE H (addIo a) s h = (((H (.addIo a) h).1, s), (H (.addIo a) h).2) := rfl
@[run_simps] theorem runE_addNoMreq (a : U16) (n : U8) (f : Unit → Ex σ Q β) :
    runE H (addNoMreq a n >>= f) s h = runE H (f (H (.addNoMreq a n) h).1) s (H (.addNoMreq a n) h).2 := rfl
@[run_simps] theorem runE_addNoMreq' (a : U16) (n : U8) :
    runE H (addNoMreq a n) s h = (((H (.addNoMreq a n) h).1, s), (H (.addNoMreq a n) h).2) := rfl
@[run_simps] theorem runE_asTimestamp  (f : σ.Ts → Ex σ Q β) :
    runE H (asTimestamp >>= f) s h = runE H (f (H (.asTimestamp) h).1) s (H (.asTimestamp) h).2 := rfl
@[run_simps] theorem runE_asTimestamp'  :
    runE H (asTimestamp) s h = (((H (.asTimestamp) h).1, s), (H (.asTimestamp) h).2) := rfl
@[run_simps] theorem runE_readMem (a : U16) (ts : σ.Ts) (f : U8 → Ex σ Q β) :
    runE H (readMem a ts >>= f) s h = runE H (f (H (.readMem a ts) h).1) s (H (.readMem a ts) h).2 := rfl
@[run_simps] theorem runE_readMem' (a : U16) (ts : σ.Ts) :
    runE H (readMem a ts) s h = (((H (.readMem a ts) h).1, s), (H (.readMem a ts) h).2) := rfl
@[run_simps] theorem runE_readMem16 (a : U16) (ts : σ.Ts) (f : U16 → Ex σ Q β) :
    runE H (readMem16 a ts >>= f) s h = runE H (f (H (.readMem16 a ts) h).1) s (H (.readMem16 a ts) h).2 := rfl
@[run_simps] theorem runE_readMem16' (a : U16) (ts : σ.Ts) :
    runE H (readMem16 a ts) s h = (((H (.readMem16 a ts) h).1, s), (H (.readMem16 a ts) h).2) := rfl
@[run_simps] theorem runE_readOpcode (a ir : U16) (ts : σ.Ts) (f : U8 → Ex σ Q β) :
    runE H (readOpcode a ir ts >>= f) s h = runE H (f (H (.readOpcode a ir ts) h).1) s (H (.readOpcode a ir ts) h).2 := rfl
@[run_simps] theorem runE_readOpcode' (a ir : U16) (ts : σ.Ts) :
    runE H (readOpcode a ir ts) s h = (((H (.readOpcode a ir ts) h).1, s), (H (.readOpcode a ir ts) h).2) := rfl
@[run_simps] theorem runE_writeMem (a : U16) (v : U8) (ts : σ.Ts) (f : Unit → Ex σ Q β) :
    runE H (writeMem a v ts >>= f) s h = runE H (f (H (.writeMem a v ts) h).1) s (H (.writeMem a v ts) h).2 := rfl
@[run_simps] theorem runE_writeMem' (a : U16) (v : U8) (ts : σ.Ts) :
    runE H (writeMem a v ts) s h = (((H (.writeMem a v ts) h).1, s), (H (.writeMem a v ts) h).2) := rfl
@[run_simps] theorem runE_readDebug (a : U16) (f : U8 → Ex σ Q β) :
    runE H (readDebug a >>= f) s h = runE H (f (H (.readDebug a) h).1) s (H (.readDebug a) h).2 := rfl
@[run_simps] theorem runE_readDebug' (a : U16) :
    runE H (readDebug a) s h = (((H (.readDebug a) h).1, s), (H (.readDebug a) h).2) := rfl
@[run_simps] theorem runE_readIo (p : U16) (ts : σ.Ts) (f : U8 × Option U16 → Ex σ Q β) :
    runE H (readIo p ts >>= f) s h = runE H (f (H (.readIo p ts) h).1) s (H (.readIo p ts) h).2 := rfl
@[run_simps] theorem runE_readIo' (p : U16) (ts : σ.Ts) :
    runE H (readIo p ts) s h = (((H (.readIo p ts) h).1, s), (H (.readIo p ts) h).2) := rfl
@[run_simps] theorem runE_writeIo (p : U16) (v : U8) (ts : σ.Ts) (f : Option σ.O × Option U16 → Ex σ Q β) :
    runE H (writeIo p v ts >>= f) s h = runE H (f (H (.writeIo p v ts) h).1) s (H (.writeIo p v ts) h).2 := rfl
@[run_simps] theorem runE_writeIo' (p : U16) (v : U8) (ts : σ.Ts) :
    runE H (writeIo p v ts) s h = (((H (.writeIo p v ts) h).1, s), (H (.writeIo p v ts) h).2) := rfl
@[run_simps] theorem runE_isIrq (ts : σ.Ts) (f : Bool → Ex σ Q β) :
    runE H (isIrq ts >>= f) s h = runE H (f (H (.isIrq ts) h).1) s (H (.isIrq ts) h).2 := rfl
@[run_simps] theorem runE_isIrq' (ts : σ.Ts) :
    runE H (isIrq ts) s h = (((H (.isIrq ts) h).1, s), (H (.isIrq ts) h).2) := rfl
@[run_simps] theorem runE_retiCall (p : U16) (ts : σ.Ts) (f : Option σ.R → Ex σ Q β) :
    runE H (retiCall p ts >>= f) s h = runE H (f (H (.reti p ts) h).1) s (H (.reti p ts) h).2 := rfl
@[run_simps] theorem runE_retiCall' (p : U16) (ts : σ.Ts) :
    runE H (retiCall p ts) s h = (((H (.reti p ts) h).1, s), (H (.reti p ts) h).2) := rfl
@[run_simps] theorem runE_when (c : Bool) (x : Ex σ Q Unit) (f : Unit → Ex σ Q β) :
    runE H (Ex.when c x >>= f) s h =
      if c then runE H (x >>= f) s h else runE H (f ()) s h := by
  cases c <;> rfl
@[run_simps] theorem runE_when' (c : Bool) (x : Ex σ Q Unit) :
    runE H (Ex.when c x) s h = if c then runE H x s h else (((), s), h) := by
  cases c <;> rfl
@[run_simps] theorem runE_ite (c : Bool) (x y : Ex σ Q α) (f : α → Ex σ Q β) :
    runE H (Ex.ifElse c x y >>= f) s h =
      if c then runE H (x >>= f) s h else runE H (y >>= f) s h := by
  cases c <;> rfl
@[run_simps] theorem runE_ite' (c : Bool) (x y : Ex σ Q α) :
    runE H (Ex.ifElse c x y) s h =
      if c then runE H x s h else runE H y s h := by
  cases c <;> rfl

end

section
variable {w : Nat} {O R I : Type}

/-- The host with a `TsCounter` clock, 64K of memory and arbitrary devices. -/
def ramHost (io : Handler (tsSig w O R) I) : Handler (tsSig w O R) (BitVec w × Mem × I) :=
  tsHost (ramBus io)

/-- The devices' `read_io`. -/
def devIn (io : Handler (tsSig w O R) I) (p : U16) (t : BitVec w) (i : I) :
    (U8 × Option U16) × I := io (.readIo p t) i
/-- The devices' `write_io`. -/
def devOut (io : Handler (tsSig w O R) I) (p : U16) (v : U8) (t : BitVec w) (i : I) :
    (Option O × Option U16) × I := io (.writeIo p v t) i
/-- The devices' `is_irq`. -/
def devIrq (io : Handler (tsSig w O R) I) (t : BitVec w) (i : I) : Bool × I := io (.isIrq t) i
/-- The devices' `irq_data`. -/
def devAck (io : Handler (tsSig w O R) I) (p : U16) (t : BitVec w) (i : I) :
    (U8 × Option U16) × I := io (.irqData p t) i
/-- The devices' `reti`. -/
def devReti (io : Handler (tsSig w O R) I) (p : U16) (t : BitVec w) (i : I) :
    Option R × I := io (.reti p t) i

variable (io : Handler (tsSig w O R) I) (s : St Q) (t : BitVec w) (m : Mem) (i : I)

@[run_simps] theorem host_isPastLimit (l : BitVec w) :
    ramHost io (.isPastLimit l) (t, m, i) = (decide (l ≤ t), t, m, i) := rfl
@[run_simps] theorem host_addIrq (a : U16) :
    ramHost io (.addIrq a) (t, m, i) = (t + BitVec.ofNat w 2, t + BitVec.ofNat w 6, m, i) := rfl
@[run_simps] theorem host_addMreq (a : U16) :
    ramHost io (.addMreq a) (t, m, i) = (t + BitVec.ofNat w 3, t + BitVec.ofNat w 3, m, i) := rfl
@[run_simps] theorem host_addM1 (a : U16) :
    ramHost io (.addM1 a) (t, m, i) = (t + BitVec.ofNat w 4, t + BitVec.ofNat w 4, m, i) := rfl
@[run_simps] theorem host_addIo (a : U16) :
    ramHost io (.addIo a) (t, m, i) = (t + BitVec.ofNat w 1, t + BitVec.ofNat w 4, m, i) := rfl
@[run_simps] theorem host_addNoMreq (a : U16) (n : U8) :
    ramHost io (.addNoMreq a n) (t, m, i) = ((), t + BitVec.ofNat w n.toNat, m, i) := by
  rw [BitVec.ofNat_toNat]; rfl
@[run_simps] theorem host_addWait (a n : U16) :
    ramHost io (.addWait a n) (t, m, i) = ((), t + BitVec.ofNat w n.toNat, m, i) := by
  rw [BitVec.ofNat_toNat]; rfl
@[run_simps] theorem host_asTimestamp  :
    ramHost io (.asTimestamp) (t, m, i) = (t, t, m, i) := rfl
@[run_simps] theorem host_readMem (a : U16) (ts : BitVec w) :
    ramHost io (.readMem a ts) (t, m, i) = (m a, t, m, i) := rfl
@[run_simps] theorem host_readMem16 (a : U16) (ts : BitVec w) :
    ramHost io (.readMem16 a ts) (t, m, i) = (word (m (a + 1#16)) (m a), t, m, i) := rfl
@[run_simps] theorem host_readOpcode (a ir : U16) (ts : BitVec w) :
    ramHost io (.readOpcode a ir ts) (t, m, i) = (m a, t, m, i) := rfl
@[run_simps] theorem host_writeMem (a : U16) (v : U8) (ts : BitVec w) :
    ramHost io (.writeMem a v ts) (t, m, i) = ((), t, fun x => if x = a then v else m x, i) := rfl
@[run_simps] theorem host_readDebug (a : U16) :
    ramHost io (.readDebug a) (t, m, i) = (m a, t, m, i) := rfl
@[run_simps] theorem host_debug (d : CpuDebug) :
    ramHost io (.debug d) (t, m, i) = ((), t, m, i) := rfl
@[run_simps] theorem host_readIo (p : U16) (ts : BitVec w) :
    ramHost io (.readIo p ts) (t, m, i) = ((devIn io p ts i).1, t, m, (devIn io p ts i).2) := rfl
@[run_simps] theorem host_writeIo (p : U16) (v : U8) (ts : BitVec w) :
    ramHost io (.writeIo p v ts) (t, m, i) = ((devOut io p v ts i).1, t, m, (devOut io p v ts i).2) := rfl
@[run_simps] theorem host_isIrq (ts : BitVec w) :
    ramHost io (.isIrq ts) (t, m, i) = ((devIrq io ts i).1, t, m, (devIrq io ts i).2) := rfl
@[run_simps] theorem host_irqData (p : U16) (ts : BitVec w) :
    ramHost io (.irqData p ts) (t, m, i) = ((devAck io p ts i).1, t, m, (devAck io p ts i).2) := rfl
@[run_simps] theorem host_reti (p : U16) (ts : BitVec w) :
    ramHost io (.reti p ts) (t, m, i) = ((devReti io p ts i).1, t, m, (devReti io p ts i).2) := rfl
@[run_simps] theorem runT_addMreq {S : Type} (H : Handler (tsSig w O R) S) (h : S) (a : U16)
    (f : BitVec w → Ex (tsSig w O R) Q β) :
    runE H (bind (m := Ex (tsSig w O R) Q) (α := BitVec w) (addMreq a) f) s h =
      runE H (f (H (.addMreq a) h).1) s (H (.addMreq a) h).2 := rfl
@[run_simps] theorem runT_addM1 {S : Type} (H : Handler (tsSig w O R) S) (h : S) (a : U16)
    (f : BitVec w → Ex (tsSig w O R) Q β) :
    runE H (bind (m := Ex (tsSig w O R) Q) (α := BitVec w) (addM1 a) f) s h =
      runE H (f (H (.addM1 a) h).1) s (H (.addM1 a) h).2 := rfl
@[run_simps] theorem runT_addIo {S : Type} (H : Handler (tsSig w O R) S) (h : S) (a : U16)
    (f : BitVec w → Ex (tsSig w O R) Q β) :
    runE H (bind (m := Ex (tsSig w O R) Q) (α := BitVec w) (addIo a) f) s h =
      runE H (f (H (.addIo a) h).1) s (H (.addIo a) h).2 := rfl
@[run_simps] theorem runT_asTimestamp {S : Type} (H : Handler (tsSig w O R) S) (h : S) 
    (f : BitVec w → Ex (tsSig w O R) Q β) :
    runE H (bind (m := Ex (tsSig w O R) Q) (α := BitVec w) (asTimestamp) f) s h =
      runE H (f (H (.asTimestamp) h).1) s (H (.asTimestamp) h).2 := rfl
@[run_simps] theorem runT_writeIo {S : Type} (H : Handler (tsSig w O R) S) (h : S) (p : U16) (v : U8) (ts : BitVec w)
    (f : Option O × Option U16 → Ex (tsSig w O R) Q β) :
    runE H (bind (m := Ex (tsSig w O R) Q) (α := Option O × Option U16) (writeIo p v ts) f) s h =
      runE H (f (H (.writeIo p v ts) h).1) s (H (.writeIo p v ts) h).2 := rfl
@[run_simps] theorem runT_retiCall {S : Type} (H : Handler (tsSig w O R) S) (h : S) (p : U16) (ts : BitVec w)
    (f : Option R → Ex (tsSig w O R) Q β) :
    runE H (bind (m := Ex (tsSig w O R) Q) (α := Option R) (retiCall p ts) f) s h =
      runE H (f (H (.reti p ts) h).1) s (H (.reti p ts) h).2 := rfl
@[run_simps] theorem runE_dbg (l : List U8) (n : String) (a : DbgArgs)
    (f : Unit → Ex (tsSig w O R) Q β) :
    runE (ramHost io) (dbg l n a >>= f) s (t, m, i) = runE (ramHost io) (f ()) s (t, m, i) := by
  obtain ⟨c, fl, pc, p, d⟩ := s
  cases d <;> rfl
@[run_simps] theorem runE_dbg' (l : List U8) (n : String) (a : DbgArgs) :
    runE (ramHost io) (dbg (σ := tsSig w O R) l n a) s (t, m, i) = (((), s), (t, m, i)) := by
  obtain ⟨c, fl, pc, p, d⟩ := s
  cases d <;> rfl
@[run_simps] theorem runE_addWaitOpt (a : U16) (n : Option U16)
    (f : Unit → Ex (tsSig w O R) Q β) :
    runE (ramHost io) (addWaitOpt a n >>= f) s (t, m, i) = runE (ramHost io) (f ()) s
      ((match n with | none => t | some k => t + BitVec.ofNat w k.toNat), m, i) := by
  cases n with
  | none => rfl
  | some k =>
    have : BitVec.ofNat w k.toNat = k.setWidth w := by rw [BitVec.ofNat_toNat]
    simp only [this]; rfl

end

end Z80
