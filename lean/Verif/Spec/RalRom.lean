import Verif.Spec.Machine

/-!
# Specification: interrupts and forwarding calls of the system program of the example computer

What `/repo/examples/ral1243/README.md` 84-110 and the comments of `/repo/examples/ral1243/rom/ral1243_rom.rb`
promise of the program in the computer's ROM.
-/

namespace Z80.Spec.RalRom

/-- The first 0x195 bytes of `/repo/examples/ral1243/rom/rom.bin`: the restart routines, the non-maskable interrupt
routine, the interrupt vectors at 0x100, the empty interrupt routine, the one of the first counter and the ones for a
character received and a character sent, and the routines behind `RST 08h` and `RST 10h`. -/
def bytes : List U8 :=
  [0xF3, 0x3E, 0x01, 0xED, 0x47, 0xC3, 0x39, 0x04, 0xD9, 0x21, 0x05, 0x20, 0xC3, 0x3E, 0x01, 0x76,
   0xD9, 0x21, 0x05, 0x20, 0xC3, 0x78, 0x01, 0x00, 0xDD, 0xE9, 0x00, 0x00, 0x00, 0x00, 0x00, 0x00,
   0xFD, 0xE9, 0x00, 0x00, 0x00, 0x00, 0x00, 0x00, 0xD9, 0x26, 0x03, 0x6F, 0x7E, 0x2C, 0x66, 0x6F,
   0xE9, 0x00, 0x00, 0x00, 0x00, 0x00, 0x00, 0x00, 0xF1, 0x3A, 0x07, 0x20, 0xE6, 0x01, 0xC0, 0xF3,
   0x3E, 0x01, 0xED, 0x47, 0x2A, 0x08, 0x20, 0x23, 0xF9, 0xCD, 0x0A, 0x04, 0xAF, 0x32, 0x05, 0x20,
   0xCD, 0x0D, 0x01, 0xCD, 0x0D, 0x01, 0xFB, 0xC3, 0x57, 0x05, 0x00, 0x00, 0x00, 0x00, 0x00, 0x00,
   0x00, 0x00, 0x00, 0x00, 0x00, 0x00, 0xE5, 0xF5, 0x21, 0x07, 0x20, 0xCB, 0x4E, 0x28, 0x04, 0xCB,
   0x86, 0x18, 0xCC, 0xF1, 0xE1, 0xED, 0x45, 0x00, 0x00, 0x00, 0x00, 0x00, 0x00, 0x00, 0x00, 0x00,
   0x00, 0x00, 0x00, 0x00, 0x00, 0x00, 0x00, 0x00, 0x00, 0x00, 0x00, 0x00, 0x00, 0x00, 0x00, 0x00,
   0x00, 0x00, 0x00, 0x00, 0x00, 0x00, 0x00, 0x00, 0x00, 0x00, 0x00, 0x00, 0x00, 0x00, 0x00, 0x00,
   0x00, 0x00, 0x00, 0x00, 0x00, 0x00, 0x00, 0x00, 0x00, 0x00, 0x00, 0x00, 0x00, 0x00, 0x00, 0x00,
   0x00, 0x00, 0x00, 0x00, 0x00, 0x00, 0x00, 0x00, 0x00, 0x00, 0x00, 0x00, 0x00, 0x00, 0x00, 0x00,
   0x00, 0x00, 0x00, 0x00, 0x00, 0x00, 0x00, 0x00, 0x00, 0x00, 0x00, 0x00, 0x00, 0x00, 0x00, 0x00,
   0x00, 0x00, 0x00, 0x00, 0x00, 0x00, 0x00, 0x00, 0x00, 0x00, 0x00, 0x00, 0x00, 0x00, 0x00, 0x00,
   0x00, 0x00, 0x00, 0x00, 0x00, 0x00, 0x00, 0x00, 0x00, 0x00, 0x00, 0x00, 0x00, 0x00, 0x00, 0x00,
   0x00, 0x00, 0x00, 0x00, 0x00, 0x00, 0x00, 0x00, 0x00, 0x00, 0x00, 0x00, 0x00, 0x00, 0x00, 0x00,
   0x0F, 0x01, 0x0C, 0x01, 0x0C, 0x01, 0x0C, 0x01, 0x26, 0x01, 0x60, 0x01, 0xFB, 0xED, 0x4D, 0xF5,
   0xE5, 0x21, 0x00, 0x20, 0x34, 0x20, 0x0A, 0x23, 0x34, 0x20, 0x06, 0x23, 0x34, 0x20, 0x02, 0x23,
   0x34, 0xE1, 0xF1, 0xFB, 0xED, 0x4D, 0xF5, 0xE5, 0x21, 0x05, 0x20, 0xCB, 0x4E, 0x20, 0x0B, 0xDB,
   0x08, 0xCB, 0xCE, 0x2B, 0x77, 0xFB, 0xE1, 0xF1, 0xED, 0x4D, 0xCB, 0xC6, 0x18, 0xF7, 0xF3, 0xCB,
   0x4E, 0x28, 0x0C, 0xCB, 0x46, 0x20, 0x0E, 0xCB, 0x8E, 0x2B, 0xB4, 0x7E, 0xFB, 0xD9, 0xC9, 0x30,
   0xFB, 0xFB, 0x76, 0x18, 0xE9, 0xCB, 0x86, 0x2B, 0x7E, 0xF5, 0xDB, 0x08, 0x77, 0xF1, 0x18, 0xEC,
   0xF5, 0xE5, 0x21, 0x05, 0x20, 0xCB, 0x56, 0x28, 0x0B, 0xCB, 0x96, 0x23, 0x7E, 0xD3, 0x0A, 0xFB,
   0xE1, 0xF1, 0xED, 0x4D, 0xCB, 0x9E, 0x18, 0xF7, 0xF3, 0xCB, 0x56, 0x20, 0x0C, 0xCB, 0x5E, 0x28,
   0x0E, 0xCB, 0xD6, 0x23, 0x77, 0xBF, 0xFB, 0xD9, 0xC9, 0x38, 0xFB, 0xFB, 0x76, 0x18, 0xE9, 0xCB,
   0xDE, 0xD3, 0x0A, 0x18, 0xF0]

/-- The memory begins with the program. -/
def Rom (m : U16 → U8) : Prop := ∀ j, j < 0x195 → m (BitVec.ofNat 16 j) = bytes.getD j 0

/-- The frame counter: a 32-bit number in the first four bytes of the system variables at 0x2000, low byte first
(`SystemVars`, `ral1243_rom.rb` 72-76). -/
def frames (m : U16 → U8) : Nat :=
  (m 0x2000).toNat + 256 * (m 0x2001).toNat + 65536 * (m 0x2002).toNat + 16777216 * (m 0x2003).toNat

/-- How many of the bytes of the counter below the last are at the end of their range, one after the other. -/
def carries (m : U16 → U8) : Nat :=
  if m 0x2000 ≠ 255 then 0 else if m 0x2001 ≠ 255 then 1 else if m 0x2002 ≠ 255 then 2 else 3

/-- The `n` bytes below the stack pointer are neither in the ROM nor in the system variables (12 bytes at 0x2000,
`SystemVars`, `ral1243_rom.rb` 72-84). -/
def Room (sp : U16) (n : Nat) : Prop := ∀ j, 1 ≤ j → j ≤ n → 0x200C ≤ (sp - BitVec.ofNat 16 j).toNat

/-- Registers that agree in all but the memory refresh counter and the two internal ones no program sees. -/
def Alike (a b : Regs) : Prop := ∃ wz r q, b = { a with wz := wz, r := r, q := q }

/-- The processor resumes after HALT, or where it was. -/
def resume (r : Regs) : U16 := if r.halted then r.pc + 1 else r.pc

/-- The opcodes `RST 18h`, `RST 20h` and `RST 30h` forward a call to the address in IX, IY or HL. -/
def forwards (op : U8) (r : Regs) : Option U16 :=
  if op = 0xDF then some (word r.ixh r.ixl) else if op = 0xE7 then some (word r.iyh r.iyl)
  else if op = 0xF7 then some (word r.h r.l) else none

/-- What becomes of the character buffer (0x2004) and its flags (0x2005) when the character `x` is received: if the
buffer is empty (bit 1 of the flags is reset) it is stored and the buffer is full; otherwise it is left in the device
and bit 0 of the flags says so (`ral1243_rom.rb` 51-56). -/
def received (m : U16 → U8) (x : U8) : U8 × U8 :=
  if (m 0x2005).getLsbD 1 then (m 0x2004, m 0x2005 ||| 1) else (x, m 0x2005 ||| 2)

/-- What the computer does when the device has taken the last character: if another one waits in the buffer at 0x2006
(bit 2 of the flags at 0x2005 is set) it is sent and the buffer is empty; otherwise bit 3 of the flags, which says that
the device is busy, is reset (`ral1243_rom.rb` 57-64). The character to send, if any, and the new flags. -/
def sent (m : U16 → U8) : Option U8 × U8 :=
  if (m 0x2005).getLsbD 2 then (some (m 0x2006), m 0x2005 &&& 0xFB) else (none, m 0x2005 &&& 0xF7)

end Z80.Spec.RalRom
