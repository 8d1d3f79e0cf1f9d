import Verif.Model.Prog

/-!
# Specification: what an interrupt may change without the program noticing

`Blind` lists the instructions which do not look at R, MEMPTR, the interrupt flip-flops or the flag
history. `Ignores` is about a host: its states are compared by a relation of the reader's choice, and
whatever the program asks for, in related states the answers are the same.
-/

namespace Z80.Spec

/-- The opcodes of instructions that do not look at R, MEMPTR, the interrupt flip-flops or the flag
history: not SCF, CCF, `LD A,I`, `LD A,R` and `BIT n,(HL)`. -/
def Blind : List U8 → Prop
  | [] => True
  | [op] => op ≠ 0x37#8 ∧ op ≠ 0x3F#8
  | [op, c] => op = 0xED#8 ∧ c ≠ 0x57#8 ∧ c ≠ 0x5F#8 ∨ op = 0xCB#8 ∧ c &&& 0xC7#8 ≠ 0x46#8
  | _ => False

variable {σ : Sig} {S : Type}

/-- Calls which only tell or ask the time, or sample the request line. -/
def _root_.Z80.Req.passing : Req σ → Bool
  | .readIo _ _ | .writeIo _ _ _ | .irqData _ _ | .reti _ _ | .readMem _ _ | .readMem16 _ _ | .readOpcode _ _ _
  | .writeMem _ _ _ => false
  | _ => true

/-- States of the host related by `B` answer the requests in `A` in the same way, whatever the time and the
value of R, and stay related. Passing time and sampling the request line do not matter, wait states may differ,
and a debugger does not change the host. -/
structure Ignores (h : Handler σ S) (A : Req σ → Prop) (B : S → S → Prop) : Prop where
  equiv : Equivalence B
  passing (q s) : q.passing = true → B s (h q s).2
  debug (d s) : (h (.debug d) s).2 = s
  readOpcode {a i j t u s s'} : A (.readOpcode a i t) → B s s' →
    (h (.readOpcode a i t) s).1 = (h (.readOpcode a j u) s').1 ∧
      B (h (.readOpcode a i t) s).2 (h (.readOpcode a j u) s').2
  readMem {a t u s s'} : A (.readMem a t) → B s s' →
    (h (.readMem a t) s).1 = (h (.readMem a u) s').1 ∧ B (h (.readMem a t) s).2 (h (.readMem a u) s').2
  readMem16 {a t u s s'} : A (.readMem16 a t) → B s s' →
    (h (.readMem16 a t) s).1 = (h (.readMem16 a u) s').1 ∧ B (h (.readMem16 a t) s).2 (h (.readMem16 a u) s').2
  writeMem {a v t u s s'} : A (.writeMem a v t) → B s s' →
    B (h (.writeMem a v t) s).2 (h (.writeMem a v u) s').2
  readIo {p t u s s'} : A (.readIo p t) → B s s' →
    (h (.readIo p t) s).1.1 = (h (.readIo p u) s').1.1 ∧ B (h (.readIo p t) s).2 (h (.readIo p u) s').2
  writeIo {p v t u s s'} : A (.writeIo p v t) → B s s' →
    (h (.writeIo p v t) s).1.1 = (h (.writeIo p v u) s').1.1 ∧
      B (h (.writeIo p v t) s).2 (h (.writeIo p v u) s').2
  reti {p t u s s'} : A (.reti p t) → B s s' →
    (h (.reti p t) s).1 = (h (.reti p u) s').1 ∧ B (h (.reti p t) s).2 (h (.reti p u) s').2

end Z80.Spec
