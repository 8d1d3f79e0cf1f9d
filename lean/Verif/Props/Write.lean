import Verif.Proofs.Writes
import Verif.Props.Bus

/-!
# C43: where memory is written

`storesOf t` are the addresses and bytes of the `write_mem` calls in `t`; `Spec.dests` lists the
destinations of every instruction.
-/

set_option linter.constructorNameAsVariable false

namespace Z80
open Spec
variable {Q : Type} [FlavourSpec Q] {σ : Sig}

/-- C43: `execute_instruction` on any host writes exactly to the destinations of the
instruction, in order. -/
theorem C43_execute_instruction {deb : Bool} {op : U8} {c : Cpu Q} {t : List (Ev σ)}
    {r : Res σ × Cpu Q} (h : (executeInstruction deb op c).Runs t r) :
    (storesOf t).map Prod.fst = dests op (abs c) (opcodesOf t) (bytesOf t) (wordsOf t) := by
  obtain ⟨l, e, h1, h2, _⟩ := drives_path (drive_instruction deb op c) h
  rw [← stores_filter, ← opcodes_filter, ← bytes_filter, ← words_filter, performs_stores h2,
    performs_opcodes h2, performs_bytes h2, performs_words h2, ← written_eq]
  exact ends_path (wrOp _ op (abs c)) h1

/-- C43: `execute_next`: also nothing in the halted state, and the return address if an
interrupt is accepted in modes 1 and 2. -/
theorem C43_execute_next {deb : Bool} {c : Cpu Q} {t : List (Ev σ)} {r : Res σ × Cpu Q}
    (h : (executeNext deb c).Runs t r) :
    (storesOf t).map Prod.fst =
      stepDests (abs c) (ackOf t) (opcodesOf t) (bytesOf t) (wordsOf t) := by
  obtain ⟨l, e, h1, h2, _⟩ := drives_path (drive_step deb c) h
  rw [← stores_filter, ← opcodes_filter, ← bytes_filter, ← words_filter, ← ack_filter,
    performs_stores h2, performs_opcodes h2, performs_bytes h2, performs_words h2,
    performs_acks h2, ← written_eq]
  exact wrStep _ (abs c) h1

/-- C43: `irq` writes the return address in modes 1 and 2 and in mode 0 to the destinations of the
instruction given by the device; nothing if the interrupt is not accepted. -/
theorem C43_irq {deb : Bool} {c : Cpu Q} {t : List (Ev σ)} {r : Option (Res σ) × Cpu Q}
    (h : (irq deb c).Runs t r) :
    (storesOf t).map Prod.fst =
      stepDests (abs c) (ackOf t) (opcodesOf t) (bytesOf t) (wordsOf t) ∧
    (r.1 = none → storesOf t = []) := by
  cases hq : irqOk (abs c) with
  | false =>
    unfold irq at h
    rw [irqAllowed_eq, hq] at h
    cases h; exact ⟨rfl, fun _ => rfl⟩
  | true =>
    unfold irq at h
    rw [irqAllowed_eq, hq] at h
    obtain ⟨u, v, a, rfl, h1, h2⟩ := Prog.runs_bind.1 h
    obtain ⟨rfl, rfl⟩ := Prog.runs_ret h2
    obtain ⟨l, e, h3, h2, _⟩ :=
      drives_path (drive_interrupt deb c (irq_pre hq).1 (irq_pre hq).2) h1
    rw [List.append_nil, ← stores_filter, ← opcodes_filter, ← bytes_filter, ← words_filter,
      ← ack_filter, performs_stores h2, performs_opcodes h2, performs_bytes h2, performs_words h2,
      performs_acks h2, ← written_eq]
    obtain ⟨_, _, h4⟩ := wrIrq _ _ h3
    exact ⟨h4, nofun⟩

/-- C43: `nmi` writes the return address below SP, or nothing if it is not accepted. -/
theorem C43_nmi {c : Cpu Q} {t : List (Ev σ)} {r : Bool × Cpu Q} (h : (nmi c).Runs t r) :
    (storesOf t).map Prod.fst = if r.1 then pushed (abs c) else [] := by
  unfold nmi at h
  split at h
  · obtain ⟨u, v, a, rfl, h1, h2⟩ := Prog.runs_bind.1 h
    obtain ⟨rfl, rfl⟩ := Prog.runs_ret h2
    obtain ⟨l, e, h3, h2, _⟩ := nmi_path c h1
    rw [List.append_nil, ← stores_filter, performs_stores h2, ← written_eq]
    exact wrNmi _ h3
  · cases h; rfl

/-- C43: with 64K of RAM and any devices, the bytes that are not among the destinations of the
step are unchanged. -/
theorem C43_ram {w : Nat} {O R I : Type} (io : Handler (tsSig w O R) I) (deb : Bool) (c : Cpu Q)
    (s : BitVec w × Mem × I) (a : U16)
    (ha : let t := (executeNext deb c).trace (ramHost io) s
      a ∉ stepDests (abs c) (ackOf t) (opcodesOf t) (bytesOf t) (wordsOf t)) :
    ((executeNext deb c).run (ramHost io) s).2.2.1 a = s.2.1 a := by
  rw [ram_stores]
  refine applyStores_other ?_
  rw [C43_execute_next (Prog.runs_run (ramHost io) (executeNext deb c) s)]
  exact ha

/-- C43: RAM holds exactly the writes made by any sequence of instructions. -/
theorem C43_ram_all {w : Nat} {O R I α : Type} (io : Handler (tsSig w O R) I)
    (p : Prog (tsSig w O R) α) (s : BitVec w × Mem × I) :
    (p.run (ramHost io) s).2.2.1 = applyStores s.2.1 (storesOf (p.trace (ramHost io) s)) :=
  ram_stores io p s

/-- `DEC (IY-2)` after its prefix writes at IY − 2 only; `ADD A,B` writes nothing; `EX (SP),HL`
writes two bytes, the higher address first. -/
example :
    let c : Cpu NMOS := { Cpu.new with iy := ⟨0x12, 0x34⟩, sp := 0#16, hl := ⟨1, 2⟩ }
    let go := fun (c : Cpu NMOS) l => storesOf ((executeNext false c).trace demo (0, program l, ()))
    go { c with pfx := some .yfd } [0x35, 0xFE] = [(0x1232, 0xFF)] ∧ go c [0x80] = [] ∧
      go c [0xE3] = [(1, 1), (0, 2)] ∧
      dests 0x35 (abs { c with pfx := some .yfd }) [] [0xFE, 0] [] = [0x1232] := by decide +kernel

/-- An interrupt in mode 1 pushes two bytes. -/
example :
    let c : Cpu NMOS := { Cpu.new with iff1 := true, iff2 := true, im := .mode1, sp := 1#16, pc := 0x4567#16 }
    let t := (executeNext false c).trace (ramHost slowIo) (0, program [], ())
    ackOf t = [0xC7#8] ∧ storesOf t = [(0, 0x45), (0xFFFF, 0x67)] ∧
      stepDests (abs c) (ackOf t) (opcodesOf t) (bytesOf t) (wordsOf t) = [0, 0xFFFF] := by decide +kernel

end Z80
