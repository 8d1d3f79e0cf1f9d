import Verif.Model.Basic

/-!
# Specification: the memory map of the example computer

| addresses | contents |
|-----------|----------|
| 0000-1FFF | ROM, filled up with FF |
| 2000-3FFF | 8 kilobytes of RAM if the last opcode was fetched from the ROM, otherwise the selected EX-ROM, FF without one |
| 4000-     | RAM of the given size, FF above it |
-/

namespace Z80.Spec.Ral

/-- What is on the boards. EX-ROMs have names, to tell which of them are given back. -/
structure Banks where
  rom : Nat → U8
  ram0 : Nat → U8
  ram1 : Nat → U8
  size : Nat
  exroms : List (Nat × (Nat → U8))
  sel : U8
  /-- The last opcode was fetched from the ROM. -/
  low : Bool

/-- One use of the memory, by the processor or by the owner of the computer. -/
inductive Op
  | fetch (pc : U16)
  | read (a : U16)
  | read16 (a : U16)
  | peek (a : U16)
  | write (a : U16) (v : U8)
  | ctrlRead
  | ctrlWrite (n : U8)
  | attach (box : Nat) (data : BitVec 13 → U8)
  | eject

/-- What is answered. -/
inductive Ans
  | none
  | byte (v : U8)
  | word (v : U16)
  | count (n : Nat)
  | boxes (l : List Nat)
deriving DecidableEq, Repr

namespace Banks

/-- With `kilos` kilobytes of RAM, without EX-ROMs. -/
def new (rom : List U8) (kilos : Nat) : Banks where
  rom := fun i => rom.getD i 0xFF#8
  ram0 := fun _ => 0
  ram1 := fun _ => 0
  size := kilos * 1024
  exroms := []
  sel := 0
  low := false

/-- The byte at an address. -/
def peek (s : Banks) (a : U16) : U8 :=
  let n := a.toNat
  if n < 0x2000 then s.rom n
  else if n < 0x4000 then
    if s.low then s.ram0 (n - 0x2000)
    else match s.exroms[s.sel.toNat]? with
      | some e => e.2 (n - 0x2000)
      | none => 0xFF#8
  else if n - 0x4000 < s.size then s.ram1 (n - 0x4000)
  else 0xFF#8

/-- One use; `none` when there is no slot left for an EX-ROM. -/
def step (s : Banks) : Op → Option (Ans × Banks)
  | .fetch pc =>
    let s := { s with low := decide (pc.toNat < 0x2000) }
    some (.byte (s.peek pc), s)
  | .read a | .peek a => some (.byte (s.peek a), s)
  | .read16 a => some (.word (s.peek (a + 1) ++ s.peek a), s)
  | .write a v =>
    let n := a.toNat
    some (.none,
      if n < 0x2000 then s
      else if n < 0x4000 then
        if s.low then { s with ram0 := fun i => if i = n - 0x2000 then v else s.ram0 i } else s
      else { s with ram1 := fun i => if i = n - 0x4000 then v else s.ram1 i })
  | .ctrlRead => some (.byte s.sel, s)
  | .ctrlWrite n => some (.none, { s with sel := n })
  | .attach b d =>
    if s.exroms.length < 256 then
      some (.count (s.exroms.length + 1), { s with exroms := s.exroms ++ [(b, fun i => d (BitVec.ofNat 13 i))] })
    else none
  | .eject => some (.boxes (s.exroms.map Prod.fst), { s with exroms := [] })

/-- A sequence of uses. -/
def run : List Op → Banks → Option (List Ans × Banks)
  | [], s => some ([], s)
  | o :: l, s => match s.step o with
    | none => none
    | some (x, s) => (run l s).map fun (xs, s) => (x :: xs, s)

end Banks

/-- Nobody can hand over a box that was not given back; `held` are those inside. -/
def Owned : List Nat → List Op → Prop
  | _, [] => True
  | held, .attach b _ :: l => b ∉ held ∧ Owned (b :: held) l
  | _, .eject :: l => Owned [] l
  | held, _ :: l => Owned held l

end Z80.Spec.Ral
