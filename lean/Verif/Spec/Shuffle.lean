import Verif.Spec.Alu

/-!
# Specification: the test program of the crate

The program that `/repo/tests/shuffle_test.rs` runs on the processor, and what it is for. The test
starts it at address 0 with the address of one of its routines in the word at 972, and lets it run
until it halts. The test tries six inputs.
-/

namespace Z80.Spec.Shuffle

/-- The code: the first 712 bytes of `/repo/tests/shuffle/shuffle.bin`. What follows them in the file are
variables: the words `seed` at 712 and `multiplicator` at 714, the 256 bytes `target` at 716, the word
`routine` at 972, 20 bytes of a buffer, and the stack from 994 up to 1506 (`/repo/tests/shuffle/shuffle.meta`). -/
def bytes : List U8 := [
  0xF3, 0x21, 0xE2, 0x05, 0xF9, 0xC3, 0x09, 0x00, 0xE9, 0x2A, 0xCC, 0x03, 0xCF, 0x76, 0x00, 0x00,
  0xD3, 0x42, 0xC9, 0x00, 0x00, 0x00, 0x00, 0x00, 0xDD, 0xE9, 0x00, 0x00, 0x00, 0x00, 0x00, 0x00,
  0xF5, 0xC5, 0xD5, 0xD9, 0xC5, 0xD5, 0xE5, 0xD9, 0x79, 0x47, 0x83, 0x5F, 0x8A, 0x93, 0x57, 0xAF,
  0x32, 0xE1, 0x03, 0xD9, 0x0E, 0x01, 0xD9, 0x1B, 0x1A, 0xD9, 0x37, 0x17, 0x57, 0x21, 0xE2, 0x03,
  0x41, 0x2B, 0x7E, 0x8F, 0x27, 0x77, 0x10, 0xF9, 0x30, 0x04, 0x0C, 0x2B, 0x36, 0x01, 0xCB, 0x22,
  0xC2, 0x3D, 0x00, 0xD9, 0x10, 0xE1, 0xD9, 0x41, 0xAF, 0xED, 0x6F, 0x20, 0x04, 0x18, 0x06, 0xED,
  0x6F, 0xC6, 0x30, 0xD7, 0xAF, 0xED, 0x6F, 0xC6, 0x30, 0xD7, 0x23, 0xAF, 0x10, 0xF1, 0xD9, 0xE1,
  0xD1, 0xC1, 0xD9, 0xD1, 0xC1, 0xF1, 0xC9, 0x21, 0xCC, 0x02, 0xAF, 0x11, 0x00, 0x00, 0xF5, 0x7B,
  0xB2, 0x5F, 0xE5, 0xD5, 0xCD, 0xA8, 0x00, 0xD1, 0xA3, 0x47, 0x7A, 0x90, 0x38, 0xF5, 0xE1, 0xD5,
  0x4A, 0x5D, 0x54, 0x28, 0x09, 0x47, 0x7B, 0x90, 0x5F, 0x9F, 0x82, 0x57, 0x1A, 0x77, 0x79, 0x12,
  0xD1, 0xF1, 0x23, 0x14, 0xBA, 0x20, 0xD7, 0xC9, 0x2A, 0xC8, 0x02, 0x23, 0x7D, 0xB4, 0xC2, 0xBB,
  0x00, 0x21, 0xB5, 0xFF, 0x18, 0x44, 0x87, 0x10, 0x3E, 0x18, 0x3F, 0xAF, 0x5D, 0x54, 0x4F, 0x29,
  0xEB, 0xCB, 0x11, 0x19, 0x89, 0xEB, 0x29, 0xCB, 0x11, 0x29, 0xEB, 0xCB, 0x11, 0x19, 0x89, 0xEB,
  0x29, 0xCB, 0x11, 0x29, 0xCB, 0x11, 0x29, 0xCB, 0x11, 0x19, 0x89, 0x28, 0x1C, 0x11, 0xFF, 0xFF,
  0x06, 0x08, 0x29, 0x8F, 0x05, 0xD2, 0xE2, 0x00, 0x4D, 0x6C, 0x67, 0x79, 0x2B, 0x28, 0x0A, 0x87,
  0xED, 0x6A, 0x30, 0x03, 0x19, 0x30, 0xBF, 0x10, 0xF6, 0x2B, 0x22, 0xC8, 0x02, 0x7D, 0xC9, 0x21,
  0xCB, 0x03, 0x06, 0x00, 0x05, 0xC8, 0x48, 0x7E, 0x5D, 0x54, 0xE5, 0x2B, 0xBE, 0x30, 0x03, 0x7E,
  0x5D, 0x54, 0x10, 0xF7, 0x41, 0xE1, 0x4E, 0x77, 0x79, 0x12, 0x2B, 0x10, 0xE9, 0xC9, 0x21, 0xCC,
  0x02, 0x06, 0x00, 0x05, 0xC8, 0x48, 0x7E, 0x5D, 0x54, 0xE5, 0x23, 0xBE, 0x30, 0x03, 0x7E, 0x5D,
  0x54, 0x10, 0xF7, 0x41, 0xE1, 0x4E, 0x77, 0x79, 0x12, 0x23, 0x10, 0xE9, 0xC9, 0x21, 0xCC, 0x02,
  0x06, 0x00, 0x05, 0xC8, 0x0E, 0x00, 0x5E, 0x23, 0x0C, 0x7E, 0xBB, 0x38, 0x04, 0x5F, 0x10, 0xF7,
  0xC9, 0xC5, 0xE5, 0x5D, 0x54, 0x2B, 0x06, 0x00, 0xED, 0xA8, 0xE2, 0x60, 0x01, 0xBE, 0x38, 0xF8,
  0x12, 0xE1, 0xC1, 0x10, 0xE1, 0xC9, 0x21, 0xCB, 0x03, 0x06, 0x00, 0x05, 0xC8, 0x0E, 0x00, 0x5E,
  0x2B, 0x0C, 0x7E, 0xBB, 0x38, 0x04, 0x5F, 0x10, 0xF7, 0xC9, 0xC5, 0xE5, 0x5D, 0x54, 0x23, 0x06,
  0x00, 0xED, 0xA0, 0xE2, 0x89, 0x01, 0xBE, 0x38, 0xF8, 0x12, 0xE1, 0xC1, 0x10, 0xE1, 0xC9, 0x11,
  0xCC, 0x02, 0x21, 0xCB, 0x03, 0x7C, 0xBA, 0x20, 0x02, 0x7D, 0xBB, 0xD8, 0xC8, 0xD5, 0xE5, 0x45,
  0x7C, 0x19, 0xCB, 0x1C, 0xCB, 0x1D, 0x4E, 0x67, 0x68, 0x1A, 0xB9, 0x30, 0x05, 0x13, 0x1A, 0xB9,
  0x38, 0xFB, 0x79, 0xBE, 0x30, 0x04, 0x2B, 0xBE, 0x38, 0xFC, 0x7C, 0xBA, 0x20, 0x02, 0x7D, 0xBB,
  0x38, 0x0E, 0x28, 0x0A, 0x46, 0x1A, 0x77, 0x78, 0x12, 0x13, 0x2B, 0xC3, 0xA9, 0x01, 0x13, 0x2B,
  0xE3, 0x7A, 0xBC, 0x20, 0x02, 0x7B, 0xBD, 0xDC, 0x9D, 0x01, 0xE1, 0xD1, 0x7A, 0xBC, 0x20, 0x02,
  0x7B, 0xBD, 0xDA, 0x9D, 0x01, 0xC9, 0x21, 0xCC, 0x02, 0x11, 0xCB, 0x03, 0x7A, 0xBC, 0x20, 0x02,
  0x7B, 0xBD, 0xD8, 0xC8, 0xD5, 0xE5, 0x4D, 0x7C, 0x19, 0xCB, 0x1C, 0xCB, 0x1D, 0x46, 0x67, 0x69,
  0x78, 0xBE, 0x30, 0x04, 0x23, 0xBE, 0x38, 0xFC, 0x1A, 0xB8, 0x30, 0x05, 0x1B, 0x1A, 0xB8, 0x38,
  0xFB, 0x7A, 0xBC, 0x20, 0x02, 0x7B, 0xBD, 0x38, 0x0E, 0x28, 0x0A, 0x4E, 0x1A, 0x77, 0x79, 0x12,
  0x23, 0x1B, 0xC3, 0x00, 0x02, 0x23, 0x1B, 0xE3, 0x7C, 0xBA, 0x20, 0x02, 0x7D, 0xBB, 0xDC, 0xF4,
  0x01, 0xE1, 0xD1, 0x7C, 0xBA, 0x20, 0x02, 0x7D, 0xBB, 0xDA, 0xF4, 0x01, 0xC9, 0x2A, 0xC8, 0x02,
  0xED, 0x4B, 0xCA, 0x02, 0x79, 0x37, 0x8F, 0x08, 0x78, 0x44, 0x4D, 0x21, 0x00, 0x00, 0xCB, 0x38,
  0xCB, 0x19, 0xD9, 0x21, 0x00, 0x00, 0x44, 0x4D, 0xCB, 0x18, 0x37, 0x8F, 0x38, 0x0F, 0xD9, 0xCB,
  0x38, 0xCB, 0x19, 0xD9, 0xCB, 0x18, 0xCB, 0x19, 0x87, 0x28, 0x08, 0x30, 0xF1, 0x09, 0xD9, 0xED,
  0x4A, 0x18, 0xEC, 0x08, 0x20, 0xF5, 0xD9, 0x22, 0xCA, 0x02, 0xD9, 0x22, 0xC8, 0x02, 0x11, 0xC8,
  0x02, 0x0E, 0x04, 0xE7, 0xC9, 0xDD, 0x21, 0xFF, 0x00, 0xCD, 0xB4, 0x02, 0xDD, 0x21, 0x1E, 0x01,
  0xCD, 0xB4, 0x02, 0xDD, 0x21, 0x3D, 0x01, 0xCD, 0xB4, 0x02, 0xDD, 0x21, 0x66, 0x01, 0xCD, 0xB4,
  0x02, 0xDD, 0x21, 0x8F, 0x01, 0xCD, 0xB4, 0x02, 0xDD, 0x21, 0xE6, 0x01, 0xCD, 0xB4, 0x02, 0xAF,
  0xD3, 0x45, 0x18, 0xD1, 0x2A, 0xC8, 0x02, 0x22, 0xCA, 0x02, 0xE5, 0xCD, 0x77, 0x00, 0xDF, 0xCD,
  0x3D, 0x02, 0xE1, 0x23, 0x22, 0xC8, 0x02, 0xC9]

/-- The code is in the memory. -/
def Loaded (m : U16 → U8) : Prop := ∀ i, i < 712 → m (BitVec.ofNat 16 i) = bytes.getD i 0

/-- The address of the routine to be started. -/
def Starts (m : U16 → U8) (a : U16) : Prop := word (m 973) (m 972) = a

/-- The element of the array at an index. -/
def elem (m : U16 → U8) (i : Nat) : U8 := m (BitVec.ofNat 16 (716 + i))

/-- The array afterwards has the elements it had before, in a different order. -/
def Rearranged (m m' : U16 → U8) : Prop :=
  ∃ p q : Nat → Nat, (∀ i, i < 256 → p i < 256 ∧ q (p i) = i) ∧ (∀ i, i < 256 → q i < 256 ∧ p (q i) = i) ∧
    ∀ i, i < 256 → elem m' i = elem m (p i)

/-- The array is in ascending order. -/
def Ascending (m : U16 → U8) : Prop := ∀ i j, i ≤ j → j < 256 → (elem m i).toNat ≤ (elem m j).toNat

/-- The array is in descending order. -/
def Descending (m : U16 → U8) : Prop := ∀ i j, i ≤ j → j < 256 → (elem m j).toNat ≤ (elem m i).toNat

/-- Nothing but the array and the stack has changed. -/
def Confined (m m' : U16 → U8) : Prop :=
  ∀ a, ¬ (716 ≤ a.toNat ∧ a.toNat < 972) → ¬ (994 ≤ a.toNat ∧ a.toNat < 1506) → m' a = m a

/-- The variable `seed`. -/
def seed (m : U16 → U8) : Nat := (m 713).toNat * 256 + (m 712).toNat

/-- The variable `multiplicator`. -/
def multiplicator (m : U16 → U8) : Nat := (m 715).toNat * 256 + (m 714).toNat

/-- Both variables as one number, the least significant byte first. -/
def product (m : U16 → U8) : Nat :=
  (m 712).toNat + 256 * (m 713).toNat + 65536 * (m 714).toNat + 16777216 * (m 715).toNat

/-- A number as text, one byte for each character. -/
def decimal (n : Nat) : List U8 := (toString n).toList.map fun x => BitVec.ofNat 8 x.toNat

/-- Nothing but these variables, the buffer and the stack has changed. -/
def Calculating (m m' : U16 → U8) : Prop :=
  ∀ a, ¬ (712 ≤ a.toNat ∧ a.toNat < 716) → ¬ (974 ≤ a.toNat ∧ a.toNat < 994) →
    ¬ (994 ≤ a.toNat ∧ a.toNat < 1506) → m' a = m a

end Z80.Spec.Shuffle
