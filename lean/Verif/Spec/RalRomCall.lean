import Verif.Spec.RalRom

/-!
# Specification: characters from the keyboard of the example computer

`/repo/examples/ral1243/README.md` 92-96 and `/repo/examples/ral1243/rom/ral1243_rom.rb` 51-56: two characters can wait,
the first in the system variable 0x2004, the second in the device. Bit 1 of the flags at 0x2005 says that the first is
there, bit 0 that the second is.
-/

namespace Z80.Spec.RalRom

/-- The characters that wait, `y` being the one the device has. -/
def waitingChars (m : U16 → U8) (y : U8) : List U8 :=
  if (m 0x2005).getLsbD 1 then m 0x2004 :: (if (m 0x2005).getLsbD 0 then [y] else []) else []

/-- What the caller of `RST 08h` finds: the processor after the instruction with `x` in A, flags `f`, interrupts enabled
and HL' changed. -/
def answered (r : Regs) (x : U8) (f : Fl) (h l : U8) : Regs :=
  { r with a := x, f := f, h' := h, l' := l, pc := r.pc + 1, iff1 := true, iff2 := true, ei := false }

end Z80.Spec.RalRom
