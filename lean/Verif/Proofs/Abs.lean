import Verif.Proofs.Kit
import Verif.Proofs.Alu
import Verif.Spec.Machine

/-!
# Abstraction from the model to the programmer's view
-/

namespace Z80
open Spec

/-- What the specification needs to know of a flavour: the options of the variant, and whether
the last (`cur`) and the one before the current (`last`) instruction changed the flags. -/
class FlavourSpec (Q : Type) extends Flavour Q where
  opt : Opt
  cur : Q → Option Bool
  last : Q → Option Bool
  cur_begin : ∀ q, cur (Flavour.beginInstruction q) = (cur q).map fun _ => false
  last_begin : ∀ q, last (Flavour.beginInstruction q) = cur q
  cur_mod : ∀ q, cur (Flavour.flagsModified q) = (cur q).map fun _ => true
  getQ_eq : ∀ q a f, Flavour.getQ q a f =
    match last q with | some false => a ||| f | _ => a
  out_eq : Flavour.constOut Q = opt.outC0
  early_eq : Flavour.early Q = opt.early
  mix_eq : ∀ a l, Flavour.memptrMix Q a l = (if opt.wzHi0 then 0#8 else a, l + 1#8)

instance : FlavourSpec NMOS where
  opt := ⟨0x00, true, false⟩
  cur q := some q.flagsModified
  last q := some q.lastFlagsModified
  cur_begin _ := rfl
  last_begin _ := rfl
  cur_mod _ := rfl
  getQ_eq q a f := by obtain ⟨x, y⟩ := q; cases y <;> rfl
  out_eq := rfl
  early_eq := rfl
  mix_eq _ _ := rfl

instance : FlavourSpec CMOS where
  opt := ⟨0xFF, false, false⟩
  cur _ := none
  last _ := none
  cur_begin _ := rfl
  last_begin _ := rfl
  cur_mod _ := rfl
  getQ_eq _ _ _ := rfl
  out_eq := rfl
  early_eq := rfl
  mix_eq _ _ := rfl

instance : FlavourSpec BM1 where
  opt := ⟨0x00, false, true⟩
  cur q := some q.flagsModified
  last q := some q.lastFlagsModified
  cur_begin _ := rfl
  last_begin _ := rfl
  cur_mod _ := rfl
  getQ_eq q a f := by obtain ⟨x, y⟩ := q; cases y <;> rfl
  out_eq := rfl
  early_eq := rfl
  mix_eq _ _ := rfl

variable {Q : Type} {w : Nat} {O R I : Type}

/-- The pending prefix as an index register. -/
def ixOf : Option Prefix → Ix
  | none => .hl
  | some .xdd => .ix
  | some .yfd => .iy

/-- Interrupt mode as a number. -/
def imOf : IntMode → Nat
  | .mode0 => 0
  | .mode1 => 1
  | .mode2 => 2

/-- Programmer's view of an executing instruction: flags, PC and prefix are the local ones. -/
def absS (g : Q → Option Bool) (s : St Q) : Regs where
  a := s.cpu.af.hi
  f := Fl.of s.flags
  b := s.cpu.bc.hi
  c := s.cpu.bc.lo
  d := s.cpu.de.hi
  e := s.cpu.de.lo
  h := s.cpu.hl.hi
  l := s.cpu.hl.lo
  a' := s.cpu.afAlt.hi
  f' := Fl.of s.cpu.afAlt.lo
  b' := s.cpu.bcAlt.hi
  c' := s.cpu.bcAlt.lo
  d' := s.cpu.deAlt.hi
  e' := s.cpu.deAlt.lo
  h' := s.cpu.hlAlt.hi
  l' := s.cpu.hlAlt.lo
  ixh := s.cpu.ix.hi
  ixl := s.cpu.ix.lo
  iyh := s.cpu.iy.hi
  iyl := s.cpu.iy.lo
  sp := s.cpu.sp
  pc := s.pc
  wz := s.cpu.memptr
  i := s.cpu.ir.hi
  r := s.cpu.getR
  iff1 := s.cpu.iff1
  iff2 := s.cpu.iff2
  im := imOf s.cpu.im
  halted := s.cpu.halt
  ei := s.cpu.lastEi
  idx := ixOf s.pfx
  q := g s.cpu.flavour

/-- Programmer's view of the CPU. -/
def abs [FlavourSpec Q] (c : Cpu Q) : Regs := absS FlavourSpec.cur (c.load false)

theorem abs_load [FlavourSpec Q] (c : Cpu Q) (d : Bool) :
    absS FlavourSpec.cur (c.load d) = abs c := rfl
theorem abs_store [FlavourSpec Q] (s : St Q) : abs s.store = absS FlavourSpec.cur s := rfl

/-- The machine seen in a CPU state and a host state. -/
def absM (r : Regs) (h : BitVec w × Mem × I) : Mach w I := ⟨r, h.2.1, h.2.2, h.1⟩

/-- Reported result of an instruction; `none` for undefined behaviour. -/
def outE : Exit (tsSig w O R) → Option (Out O R)
  | .cont => some .ok
  | .enableInt => some .ok
  | .halt => some .halt
  | .writeIo o => some (.writeIo o)
  | .reti r => some (.reti r)
  | .ub => none
/-- Reported result of a step. -/
def outR : Res (tsSig w O R) → Option (Out O R)
  | .ok => some .ok
  | .halt => some .halt
  | .writeIo o => some (.writeIo o)
  | .reti r => some (.reti r)
  | .ub => none

/-- The devices of a host. -/
def envOf (io : Handler (tsSig w O R) I) : Env w O R I where
  inp := devIn io
  out := devOut io
  irq := devIrq io
  ack := devAck io
  reti := devReti io

end Z80
