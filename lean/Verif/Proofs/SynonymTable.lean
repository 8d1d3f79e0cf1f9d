import Verif.Proofs.SynonymText

/-!
# Opcodes are told by mnemonics and patterns of operands
-/

set_option linter.constructorNameAsVariable false

namespace Z80.Synonym
open Spec

/-- An instruction without the operands: index register, opcode and the second opcode byte. -/
structure Entry where
  x : Ix
  op : U8
  b : U8
deriving DecidableEq, Repr

/-- Mnemonic and operands, with zero for each number that is not in the opcode. -/
def Entry.asm (e : Entry) : String × List Opd :=
  match decode e.op with
  | .cb => (decodeCb e.b).asm e.x 0
  | .ed => (decodeEd e.b).asm 0
  | k => k.asm e.x 0 fun _ => 0

/-- Numbers that are part of the opcode. -/
def nums (m : String) (l : List Opd) : List Nat :=
  l.filterMap fun
    | .num n => some n
    | .byte b => if m = "RST" then some b.toNat else none
    | _ => none

/-- What is the same for all operands. -/
def view (l : String × List Opd) : String × List Pat × List Nat × List Nat :=
  (l.1, l.2.map pat, l.2.map kind, nums l.1 l.2)

/-- All entries. -/
def bytes8 : List U8 := (List.range 256).map (BitVec.ofNat 8)

def entries : List Entry :=
  [Ix.hl, .ix, .iy].flatMap fun x => bytes8.flatMap fun op =>
    if isPrefix op || (x != .hl && !indexed op) then []
    else if op = 0xCB ∨ op = 0xED then bytes8.map fun b => ⟨x, op, b⟩
    else [⟨x, op, 0⟩]

/-- The documented entry. -/
def Entry.canon (e : Entry) : Entry :=
  if e.op = 0xED then
    if e.b = 0x63 then ⟨.hl, 0x22, 0⟩ else if e.b = 0x6B then ⟨.hl, 0x2A, 0⟩ else ⟨.hl, 0xED, canonEd e.b⟩
  else if e.op = 0xCB ∧ e.x ≠ .hl then ⟨e.x, e.op, canonXCb e.b⟩
  else e

def hashS (s : String) (n : Nat) : Nat := s.toList.foldl (fun n c => (n * 131 + c.toNat) % 0x10000000000) n

def hashP : Pat → Nat → Nat
  | .name t, n => hashS t (n * 7 + 1)
  | .number, n => n * 7 + 2
  | .ind t, n => hashS t (n * 7 + 3)
  | .mem, n => n * 7 + 4
  | .idx t, n => hashS t (n * 7 + 5)

def hash (m : String) (l : List Pat) : Nat := l.foldl (fun n p => hashP p n) (hashS m 0)

def Entry.hash (e : Entry) : Nat := Synonym.hash e.asm.1 (e.asm.2.map pat)

/-- The same with the numbers in the opcode. -/
def Entry.hash2 (e : Entry) : Nat :=
  (nums e.asm.1 e.asm.2).foldl (fun n k => n * 67 + k + 1) e.hash

/-- Is `f` determined by `h` on the list? -/
def determined {β : Type} [BEq β] (h : Entry → Nat) (f : Entry → β) (l : List Entry) : Bool :=
  l.all fun e => match l.find? fun e' => h e' == h e with
    | some e' => f e == f e'
    | none => false

theorem determined_sound {β : Type} [BEq β] [LawfulBEq β] {h : Entry → Nat} {f : Entry → β}
    {l : List Entry} (hd : determined h f l = true) {e e' : Entry} (he : e ∈ l) (he' : e' ∈ l)
    (hh : h e = h e') : f e = f e' := by
  have h1 := List.all_eq_true.1 hd e he
  have h2 := List.all_eq_true.1 hd e' he'
  rw [hh] at h1
  revert h1 h2
  cases l.find? fun x => h x == h e' with
  | none => intro h1; cases h1
  | some x =>
    intro h1 h2
    rw [eq_of_beq h1, eq_of_beq h2]

/-- Kinds of operands are told by mnemonic and patterns, the documented entry by the numbers in the opcode
too. -/
def good (l : List Entry) : Bool :=
  determined Entry.hash (fun e => e.asm.2.map kind) l && determined Entry.hash2 Entry.canon l

/-- The same after sorting by `n` bits of the hash. -/
def check : Nat → List Entry → Bool
  | 0, l => good l
  | n + 1, l =>
    check n (l.filter fun e => e.hash.testBit n) && check n (l.filter fun e => !e.hash.testBit n)

theorem check_kinds (n : Nat) {l : List Entry} (h : check n l = true) {e e' : Entry} (he : e ∈ l)
    (he' : e' ∈ l) (hh : e.hash = e'.hash) : e.asm.2.map kind = e'.asm.2.map kind := by
  induction n generalizing l with
  | zero => exact determined_sound (Bool.and_eq_true_iff.1 h).1 he he' hh
  | succ n ih =>
    obtain ⟨h1, h2⟩ := Bool.and_eq_true_iff.1 h
    cases hb : e.hash.testBit n with
    | true => exact ih h1 (List.mem_filter.2 ⟨he, hb⟩) (List.mem_filter.2 ⟨he', hh ▸ hb⟩)
    | false =>
      exact ih h2 (List.mem_filter.2 ⟨he, by rw [hb]; rfl⟩) (List.mem_filter.2 ⟨he', by rw [← hh, hb]; rfl⟩)

theorem check_canon (n : Nat) {l : List Entry} (h : check n l = true) {e e' : Entry} (he : e ∈ l)
    (he' : e' ∈ l) (hh : e.hash = e'.hash) (hh2 : e.hash2 = e'.hash2) : e.canon = e'.canon := by
  induction n generalizing l with
  | zero => exact determined_sound (Bool.and_eq_true_iff.1 h).2 he he' hh2
  | succ n ih =>
    obtain ⟨h1, h2⟩ := Bool.and_eq_true_iff.1 h
    cases hb : e.hash.testBit n with
    | true => exact ih h1 (List.mem_filter.2 ⟨he, hb⟩) (List.mem_filter.2 ⟨he', hh ▸ hb⟩)
    | false =>
      exact ih h2 (List.mem_filter.2 ⟨he, by rw [hb]; rfl⟩) (List.mem_filter.2 ⟨he', by rw [← hh, hb]; rfl⟩)

theorem check_all : check 7 entries = true := by decide +kernel

theorem names_all : (entries.all fun e => e.asm.1.toList.all (· != ' ') &&
    e.asm.2.all fun o => decide (pat o).Ok) = true := by
  decide +kernel

end Z80.Synonym
