import Verif.Model.Basic

/-!
# Memory of the example computer (`/repo/examples/ral1243/src/memory.rs`)

The code keeps a raw pointer to the block of 8 kilobytes that is mapped to bank 1 and reads through it in `unsafe`
blocks, and reads words with unchecked pointer arithmetic. Here a pointer names the allocation it points into, reading
through a pointer to an allocation that is not there, or past the end of a block, gives `none`, as do panics.
-/

namespace Z80.Ral

/-- A block of `ROMSIZE` = `0x2000` bytes, `[u8; ROMSIZE]` (`memory.rs` 26-29). -/
abbrev Block := BitVec 13 → U8

/-- Allocations that `bank1` may point into: `ram0`, or the box of an `EX-ROM`, named by a number. Pushing to or taking
the vector moves boxes but not what they point to. -/
inductive Ptr
  | ram0
  | exrom (box : Nat)
deriving DecidableEq, Repr

/-- `Memory` (`memory.rs` 32-40). An `EX-ROM` is a box with its name. -/
structure Memory where
  rom : Block
  bank1 : Option Ptr
  ram0 : Block
  ram1 : List U8
  exroms : List (Nat × Block)
  exromSelect : U8
  bank1IsRam : Bool

/-- `BANK_MASK` (`memory.rs` 21): the offset in a bank. -/
abbrev offset (addr : U16) : BitVec 13 := addr.setWidth 13
/-- `BANK_SELECT` (`memory.rs` 22): the number of the bank, the upper three bits. -/
abbrev bank (addr : U16) : Nat := addr.toNat / 0x2000

/-- `make_rom` (`memory.rs` 73-78): filled up with `0xFF`. Panics if the binary is too long. -/
def makeRom (rom : List U8) : Option Block :=
  if rom.length ≤ 0x2000 then some fun i => rom.getD i.toNat 0xFF#8 else none

/-- `Memory::new` (`memory.rs` 56-64). -/
def Memory.new (rom : List U8) (kilos : Nat) : Option Memory :=
  match makeRom rom with
  | none => none
  | some rom =>
    if kilos * 1024 ≤ 0x10000 - 0x4000 then
      some { rom, bank1 := none, ram0 := fun _ => 0, ram1 := List.replicate (kilos * 1024) 0, exroms := [],
             exromSelect := 0, bank1IsRam := false }
    else none

namespace Memory
variable (m : Memory)

/-- The block a pointer points to; `none` if it is no longer owned by the memory. -/
def deref : Ptr → Option Block
  | .ram0 => some m.ram0
  | .exrom b => (m.exroms.find? fun x => x.1 == b).map Prod.snd

/-- `exrom_to_bank1` (`memory.rs` 135-145). -/
def exromToBank1 : Memory :=
  { m with
    bank1IsRam := false
    bank1 := (m.exroms[m.exromSelect.toNat]?).map fun x => .exrom x.1 }

/-- `eject_exroms` (`memory.rs` 66-71): the boxes now belong to the caller. -/
def ejectExroms : List (Nat × Block) × Memory :=
  (m.exroms, { m with bank1 := if m.bank1IsRam then m.bank1 else none, exroms := [] })

/-- `free_exrom_slots` (`memory.rs` 80-82); the subtraction panics if there are more. -/
def freeExromSlots : Option Nat :=
  if m.exroms.length ≤ 256 then some (256 - m.exroms.length) else none

/-- `attach_exrom` (`memory.rs` 99-108): panics without a free slot. -/
def attachExrom (exrom : Nat × Block) : Option (Nat × Memory) :=
  match m.freeExromSlots with
  | none | some 0 => none
  | some _ =>
    let m := { m with exroms := m.exroms ++ [exrom] }
    let m := if m.bank1IsRam then m else m.exromToBank1
    some (m.exroms.length, m)

/-- `attach_exroms` (`memory.rs` 85-95): as many as there are free slots. -/
def attachExroms (exroms : List (Nat × Block)) : Option (Nat × Memory) :=
  match m.freeExromSlots with
  | none => none
  | some free =>
    let n := min exroms.length free
    let rec go : List (Nat × Block) → Memory → Option Memory
      | [], m => some m
      | x :: l, m => match m.attachExrom x with
        | none => none
        | some (_, m) => go l m
    (go (exroms.take n) m).map fun m => (n, m)

/-- `read_rom` (`memory.rs` 110-113). -/
def readRom (addr : U16) : U8 := m.rom (offset addr)

/-- `read_bank1` (`memory.rs` 115-124). -/
def readBank1 (addr : U16) : Option U8 :=
  match m.bank1 with
  | some p => (m.deref p).map fun b => b (offset addr)
  | none => some 0xFF#8

/-- `read_ram1` (`memory.rs` 126-132). -/
def readRam1 (addr : U16) : U8 := (m.ram1[(addr - 0x4000#16).toNat]?).getD 0xFF#8

/-- `MemoryControl::read_ctrl` (`memory.rs` 149-152). -/
def readCtrl : U8 := m.exromSelect

/-- `MemoryControl::write_ctrl` (`memory.rs` 154-163). -/
def writeCtrl (no : U8) : Memory :=
  if m.exromSelect ≠ no then
    let m := { m with exromSelect := no }
    if m.bank1IsRam then m else m.exromToBank1
  else m

/-- `Memory::read_debug` (`memory.rs` 258-265). -/
def readDebug (addr : U16) : Option U8 :=
  match bank addr with
  | 0 => some (m.readRom addr)
  | 1 => m.readBank1 addr
  | _ => some (m.readRam1 addr)

/-- `Memory::read_mem` (`memory.rs` 198-201). -/
def readMem (addr : U16) : Option U8 := m.readDebug addr

/-- `Memory::read_opcode` (`memory.rs` 173-196): fetching from bank 0 maps RAM to bank 1, fetching from elsewhere an
`EX-ROM`. -/
def readOpcode (pc : U16) : Option (U8 × Memory) :=
  if bank pc = 0 then
    let m := if m.bank1IsRam then m else { m with bank1IsRam := true, bank1 := some .ram0 }
    some (m.readRom pc, m)
  else
    let m := if m.bank1IsRam then m.exromToBank1 else m
    if bank pc = 1 then (m.readBank1 pc).map fun v => (v, m)
    else some (m.readRam1 pc, m)

/-- `read_unaligned16` (`memory.rs` 42-45) at an offset of a block: two bytes, low byte first. Both must be inside. -/
def unaligned16 (b : Block) (i : Nat) : Option U16 :=
  if i + 1 < 0x2000 then some (b (BitVec.ofNat 13 (i + 1)) ++ b (BitVec.ofNat 13 i)) else none

/-- The same at an offset of a slice. -/
def unalignedSlice16 (l : List U8) (i : Nat) : Option U16 :=
  match l[i]?, l[i + 1]? with
  | some lo, some hi => some (hi ++ lo)
  | _, _ => none

/-- `Memory::read_mem16` (`memory.rs` 203-243). -/
def readMem16 (addr : U16) : Option U16 :=
  match bank addr with
  | 0 =>
    if addr ≠ 0x1FFF#16 then unaligned16 m.rom addr.toNat
    else (m.readBank1 0x2000#16).map fun hi => hi ++ m.readRom 0x1FFF#16
  | 1 =>
    if addr ≠ 0x3FFF#16 then
      match m.bank1 with
      | some p => match m.deref p with
        | some b => unaligned16 b (offset addr).toNat
        | none => none
      | none => some 0xFFFF#16
    else (m.readBank1 0x3FFF#16).map fun lo => m.readRam1 0x4000#16 ++ lo
  | _ =>
    let offs := addr.toNat - 0x4000
    if offs + 1 < m.ram1.length then unalignedSlice16 m.ram1 offs
    else some ((if addr = 0xFFFF#16 then m.readRom 0#16 else 0xFF#8) ++ m.readRam1 addr)

/-- `Memory::write_mem` (`memory.rs` 245-256). -/
def writeMem (addr : U16) (v : U8) : Memory :=
  match bank addr with
  | 0 => m
  | 1 => if m.bank1IsRam then { m with ram0 := fun i => if i = offset addr then v else m.ram0 i } else m
  | _ => { m with ram1 := m.ram1.set (addr.toNat - 0x4000) v }

end Memory
end Z80.Ral
