import Verif.Model.Prog

/-!
# Concrete hosts: `TsCounter` and plain memory (`/repo/src/host.rs`)
-/

namespace Z80

/-- `M1_CYCLE_TS` .. `IRQ_ACK_CYCLE_TS` (`/repo/src/host.rs` 147-159). -/
def M1_CYCLE_TS : Nat := 4
@[inherit_doc M1_CYCLE_TS] def MEMRW_CYCLE_TS : Nat := 3
@[inherit_doc M1_CYCLE_TS] def IO_IORQ_LOW_TS : Nat := 1
@[inherit_doc M1_CYCLE_TS] def IO_CYCLE_TS : Nat := 4
@[inherit_doc M1_CYCLE_TS] def INT_IORQ_LOW_TS : Nat := 2
@[inherit_doc M1_CYCLE_TS] def IRQ_ACK_CYCLE_TS : Nat := 6

/-- A host whose clock is `TsCounter<T>` with `T` an unsigned integer of `w` bits: `Timestamp`
and `Limit` are `T`. -/
abbrev tsSig (w : Nat) (O R : Type) : Sig := ⟨BitVec w, O, R, BitVec w⟩

/-- The devices and memory of a host: everything but the clock. -/
abbrev Bus (σ : Sig) (B : Type) := Handler σ B

variable {w : Nat} {O R B : Type}

/-- `TsCounter<T>` (`/repo/src/host.rs` 443-501) next to a bus. `Wrapping` addition is
addition of bit vectors; the bytes and words added are converted by `From`. -/
def tsHost (bus : Bus (tsSig w O R) B) : Handler (tsSig w O R) (BitVec w × B)
  | .isPastLimit l, (t, b) => (decide (l ≤ t), (t, b))
  | .addIrq _, (t, b) =>
    (t + BitVec.ofNat w INT_IORQ_LOW_TS, (t + BitVec.ofNat w IRQ_ACK_CYCLE_TS, b))
  | .addNoMreq _ n, (t, b) => ((), (t + n.setWidth w, b))
  | .addM1 _, (t, b) =>
    (t + BitVec.ofNat w M1_CYCLE_TS, (t + BitVec.ofNat w M1_CYCLE_TS, b))
  | .addMreq _, (t, b) =>
    (t + BitVec.ofNat w MEMRW_CYCLE_TS, (t + BitVec.ofNat w MEMRW_CYCLE_TS, b))
  | .addIo _, (t, b) =>
    (t + BitVec.ofNat w IO_IORQ_LOW_TS, (t + BitVec.ofNat w IO_CYCLE_TS, b))
  | .addWait _ ws, (t, b) => ((), (t + ws.setWidth w, b))
  | .asTimestamp, (t, b) => (t, (t, b))
  | .readIo p ts, (t, b) => let r := bus (.readIo p ts) b; (r.1, (t, r.2))
  | .writeIo p v ts, (t, b) => let r := bus (.writeIo p v ts) b; (r.1, (t, r.2))
  | .isIrq ts, (t, b) => let r := bus (.isIrq ts) b; (r.1, (t, r.2))
  | .irqData pc ts, (t, b) => let r := bus (.irqData pc ts) b; (r.1, (t, r.2))
  | .reti a ts, (t, b) => let r := bus (.reti a ts) b; (r.1, (t, r.2))
  | .readMem a ts, (t, b) => let r := bus (.readMem a ts) b; (r.1, (t, r.2))
  | .readMem16 a ts, (t, b) => let r := bus (.readMem16 a ts) b; (r.1, (t, r.2))
  | .readOpcode pc ir ts, (t, b) => let r := bus (.readOpcode pc ir ts) b; (r.1, (t, r.2))
  | .writeMem a v ts, (t, b) => let r := bus (.writeMem a v ts) b; (r.1, (t, r.2))
  | .readDebug a, (t, b) => let r := bus (.readDebug a) b; (r.1, (t, r.2))
  | .debug d, (t, b) => let r := bus (.debug d) b; (r.1, (t, r.2))

/-- A 64 kilobyte memory. -/
abbrev Mem := U16 → U8

/-- Store a byte. -/
def Mem.set (m : Mem) (a : U16) (v : U8) : Mem := fun x => if x = a then v else m x
/-- Load a word, low byte first, address wrapping around. -/
def Mem.get16 (m : Mem) (a : U16) : U16 := word (m (a + 1#16)) (m a)

/-- A host with 64K of memory in which the methods of `Io` are arbitrary (`io`), without
access to memory. Memory reads are the default methods of the trait over `read_debug`
(`/repo/src/host.rs` 332-386); `write_mem` stores the byte, as in the example of the crate
documentation. Clock requests are answered by `io` too, but `tsHost` never forwards them. -/
def ramBus {σ : Sig} {I : Type} (io : Handler σ I) : Handler σ (Mem × I)
  | .readMem a _, (m, i) => (m a, (m, i))
  | .readMem16 a _, (m, i) => (m.get16 a, (m, i))
  | .readOpcode pc _ _, (m, i) => (m pc, (m, i))
  | .writeMem a v _, (m, i) => ((), (m.set a v, i))
  | .readDebug a, (m, i) => (m a, (m, i))
  | .debug _, (m, i) => ((), (m, i))
  | .isPastLimit l, (m, i) => let r := io (.isPastLimit l) i; (r.1, (m, r.2))
  | .addIrq a, (m, i) => let r := io (.addIrq a) i; (r.1, (m, r.2))
  | .addNoMreq a n, (m, i) => let r := io (.addNoMreq a n) i; (r.1, (m, r.2))
  | .addM1 a, (m, i) => let r := io (.addM1 a) i; (r.1, (m, r.2))
  | .addMreq a, (m, i) => let r := io (.addMreq a) i; (r.1, (m, r.2))
  | .addIo a, (m, i) => let r := io (.addIo a) i; (r.1, (m, r.2))
  | .addWait a n, (m, i) => let r := io (.addWait a n) i; (r.1, (m, r.2))
  | .asTimestamp, (m, i) => let r := io .asTimestamp i; (r.1, (m, r.2))
  | .readIo p ts, (m, i) => let r := io (.readIo p ts) i; (r.1, (m, r.2))
  | .writeIo p v ts, (m, i) => let r := io (.writeIo p v ts) i; (r.1, (m, r.2))
  | .isIrq ts, (m, i) => let r := io (.isIrq ts) i; (r.1, (m, r.2))
  | .irqData pc ts, (m, i) => let r := io (.irqData pc ts) i; (r.1, (m, r.2))
  | .reti a ts, (m, i) => let r := io (.reti a ts) i; (r.1, (m, r.2))

end Z80
