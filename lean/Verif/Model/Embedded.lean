import Verif.Model.Forward
import Verif.Model.Run

/-!
# The example of the documentation and for embedded devices

`/repo/examples/embedded/embedded.rs`, the same program as in `/repo/src/lib.rs` 117-170. The host is an array of 11 bytes:
reading at any other address panics.
-/

namespace Z80.Embedded
variable {Q : Type} [Flavour Q]

/-- The array `rom` (`embedded.rs` 55-62). -/
def rom : List U8 := [0x21, 0x00, 0x00, 0x11, 0x01, 0x00, 0xEB, 0x19, 0x10, 0xFC, 0x76]

/-- `Bus::read_debug` (`embedded.rs` 46-48); the state says if all indices were in bounds so far. -/
def readDebug (a : U16) (ok : Bool) : U8 × Bool :=
  match rom[a.toNat]? with
  | some v => (v, ok)
  | none => (0, false)

/-- `impl Io for Bus` and `impl Memory for Bus` (`embedded.rs` 38-49): the default methods but for one. What the debugger is
given is thrown away (`embedded.rs` 70). The requests of the clock do not get here. -/
def bus {w : Nat} : Handler (tsSig w Unit Unit) Bool
  | .readDebug a, ok => readDebug a ok
  | r, ok => Forward.defaults readDebug (fun r ok => (match r with
      | .isPastLimit _ => false
      | .addIrq _ | .addM1 _ | .addMreq _ | .addIo _ | .asTimestamp => (0#w : BitVec w)
      | .addNoMreq _ _ | .addWait _ _ | .debug _ | .writeMem _ _ _ => ()
      | .readIo _ _ | .irqData _ _ => (0, none)
      | .writeIo _ _ _ => (none, none)
      | .isIrq _ => false
      | .reti _ _ => none
      | .readMem _ _ | .readOpcode _ _ _ | .readDebug _ => (0#8 : U8)
      | .readMem16 _ _ => (0#16 : U16), ok)) r ok

/-- Where the program is. -/
inductive Outcome (Q : Type)
  /-- in its first loop -/
  | running
  | panic
  /-- in its last loop -/
  | done (c : Cpu Q) (t : BitVec 32)

/-- The first loop (`embedded.rs` 68-74), gone through `k` times at most. `after` is what follows. -/
def loop (after : Cpu Q → BitVec 32 → Outcome Q) : Nat → Cpu Q → BitVec 32 → Outcome Q
  | 0, _, _ => .running
  | k + 1, c, t =>
    let r := (executeNext true c).run (tsHost bus) (t, true)
    if r.2.2 then
      match r.1.1 with
      | .halt => after r.1.2 r.2.1
      | _ => loop after k r.1.2 r.2.1
    else .panic

/-- `main` (`embedded.rs` 27-81) with `n` as `FIB_N` and `x` as the number in its assertion; `c` is the new CPU. -/
def main (c : Cpu Q) (n : U8) (x : U16) (k : Nat) : Outcome Q :=
  loop (fun c t =>
      if c.getReg16 .HL = x ∧ t = 10 + 10 + n.setWidth 32 * (4 + 11 + 13) - 5 + 4 then .done c t else .panic)
    k (c.reset.setReg .B none n) 0

end Z80.Embedded
