import Verif.Spec.Path

/-!
# Specification: data traffic seen by a host

The memory and port traffic of an instruction, opcode fetches apart, in order.
-/

namespace Z80.Spec

/-- An access to memory or to a port with its address and data. -/
inductive Access
  | read (a : U16) (v : U8)
  | read16 (a v : U16)
  | write (a : U16) (v : U8)
  | input (p : U16) (v : U8)
  | output (p : U16) (v : U8)
deriving DecidableEq

/-- The access in a call of the host, with its answer. -/
def _root_.Z80.Ev.access? {σ : Sig} : Ev σ → Option Access
  | ⟨.readMem a _, v⟩ => some (.read a v)
  | ⟨.readMem16 a _, v⟩ => some (.read16 a v)
  | ⟨.writeMem a v _, _⟩ => some (.write a v)
  | ⟨.readIo p _, x⟩ => some (.input p x.1)
  | ⟨.writeIo p v _, _⟩ => some (.output p v)
  | _ => none

/-- The accesses in a sequence of calls. -/
def traffic {σ : Sig} (t : List (Ev σ)) : List Access := t.filterMap Ev.access?

/-- The access in a bus cycle. -/
def Cyc.access? : Cyc → Option Access
  | .rd a v => some (.read a v)
  | .rd16 a v => some (.read16 a v)
  | .wr a v => some (.write a v)
  | .inp p v _ => some (.input p v)
  | .out p v _ => some (.output p v)
  | _ => none

end Z80.Spec
