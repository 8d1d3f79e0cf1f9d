import Verif.Spec.Machine
import Verif.Model.Prog
import Verif.Model.Cpu

/-!
# Specification: IX and IY exchanged
-/

namespace Z80.Spec

/-- The prefix of IX is DD and that of IY is FD; every other byte is the same. -/
def otherPrefix (x : U8) : U8 := if x = 0xDD then 0xFD else if x = 0xFD then 0xDD else x

/-- A host that shows the CPU the other prefix when the next opcode is read (`true` in its state), and is otherwise the
given host. The byte a device puts on the bus when an interrupt is acknowledged is an opcode in interrupt mode 0. -/
def exchanging {σ : Sig} {S : Type} (mode0 : Bool) (H : Handler σ S) : Handler σ (S × Bool)
  | .readOpcode pc ir ts, (s, first) =>
    let (x, s') := H (.readOpcode pc ir ts) s
    (if first then otherPrefix x else x, s', false)
  | .irqData pc ts, (s, first) =>
    let (x, s') := H (.irqData pc ts) s
    (if first && mode0 then (otherPrefix x.1, x.2) else x, s', false)
  | r, (s, first) =>
    let (x, s') := H r s
    (x, s', first)

end Z80.Spec

namespace Z80

/-- The CPU with IX and IY exchanged, also if it is between a prefix and its instruction. -/
def Cpu.mirror {Q : Type} (c : Cpu Q) : Cpu Q :=
  { c with
    ix := c.iy
    iy := c.ix
    pfx := match c.pfx with
      | none => none
      | some .xdd => some .yfd
      | some .yfd => some .xdd }

end Z80
