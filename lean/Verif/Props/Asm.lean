import Verif.Props.Disasm

/-!
# C47: debug records name the executed instruction
-/

namespace Z80
open Ex

variable {σ : Sig} {Q : Type}

/-- The record is right about itself: its code is one complete instruction, with a prefix only if that
changes the instruction, and then that is the prefix given; mnemonic and operands are those of the code
at the address given. -/
structure Faithful (d : CpuDebug) : Prop where
  useful : Spec.useless d.code = false
  whole : Spec.size d.code = d.code.length
  pfx : d.pfx = if d.code.head? = some 0xDD then some .xdd else if d.code.head? = some 0xFD then some .yfd
    else none
  text : (d.mnemonic, d.args.opds) = Spec.line d.pc d.code

theorem Genuine.faithful {d : CpuDebug} {op : U8} {l : List U8} (h : Genuine d op l) : Faithful d := by
  obtain ⟨hc, hp, hu, ⟨hs, -⟩, ht⟩ := h
  have hb : op ≠ 0xDD ∧ op ≠ 0xFD := by
    constructor <;> (rintro rfl; exact absurd hp (by decide))
  cases hx : d.pfx with
  | none =>
    rw [hx] at hc ht hs
    simp only [pfxBytes, List.nil_append, List.length_nil] at hc ht
    refine ⟨?_, ?_, ?_, ?_⟩
    · rw [hc]
      cases l with
      | nil => rfl
      | cons b l => simp [Spec.useless, hp]
    · rw [hc, hs]
      cases l with
      | nil => simp [Spec.size, hp]
      | cons b l => simp [Spec.size, hp]
    · rw [hc]; simp only [List.head?_cons, Option.some.injEq, hb.1, hb.2, if_false, hx]
    · rw [hc, ht, Spec.line]
      simp only [List.head?_cons, Option.some.injEq, hb.1, hb.2, if_false, ixOf, BitVec.add_zero]
  | some p =>
    have hi := hu (by rw [hx]; rfl)
    rw [hx] at hc ht hs
    simp only [pfxBytes, List.cons_append, List.nil_append] at hc ht
    refine ⟨?_, ?_, ?_, ?_⟩
    · rw [hc]; simp [Spec.useless, hi]
    · rw [hc, List.length_cons, hs]
      have : Spec.isPrefix p.toCode = true := by cases p <;> rfl
      cases l with
      | nil => simp [Spec.size, this, Nat.add_comm]
      | cons b l =>
        simp only [Spec.size, this, if_true, Nat.add_comm]
        rfl
    · rw [hc, hx]; cases p <;> simp [Prefix.toCode]
    · rw [hc, ht, Spec.line]; cases p <;> simp [Prefix.toCode, ixOf]

theorem Sound.faithful {t : List (Ev σ)} (h : Sound t) : ∀ d ∈ records t, Faithful d := by
  intro d hd
  obtain ⟨_, _, hg⟩ := h d hd
  exact hg.faithful

section
variable [Flavour Q]

/-- C47: whatever the host does, the debugger is given records that are right about themselves: in
`execute_next` in any state, also when an interrupt is accepted, -/
theorem C47_execute_next {deb : Bool} {c : Cpu Q} {t : List (Ev σ)} {r : Res σ × Cpu Q}
    (h : (executeNext deb c).Runs t r) : ∀ d ∈ records t, Faithful d :=
  (sound_next h).faithful

/-- in `execute_instruction` with any opcode, -/
theorem C47_execute_instruction {deb : Bool} {code : U8} {c : Cpu Q} {t : List (Ev σ)}
    {r : Res σ × Cpu Q} (h : (executeInstruction deb code c).Runs t r) : ∀ d ∈ records t, Faithful d :=
  (Prog.runs_wp h (sound_instruction deb code c)).faithful

/-- and in `irq`. -/
theorem C47_irq {deb : Bool} {c : Cpu Q} {t : List (Ev σ)} {r : Option (Res σ) × Cpu Q}
    (h : (irq deb c).Runs t r) : ∀ d ∈ records t, Faithful d :=
  (sound_irq h).faithful

/-- C47: the disassembler gives the instructions of the listing their names. -/
theorem C47_disasm_memory (Q : Type) [Flavour Q] (pc : U16) (mem : List U8) :
    ∃ ds, Spec.Listing pc mem (ds.map Disasm.shown) ∧ (∀ d ∈ ds, Faithful d) ∧
      ∀ n, 2 * mem.length < n → ∀ (E S : Type) (f : CpuDebug → S → Option E × S) (s : S),
        Disasm.disasmMemory (Cpu Q) n pc mem f s = some (Disasm.feed f ds s) := by
  obtain ⟨ds, h1, hg, h2⟩ := Disasm.listing_records Q pc mem
  refine ⟨ds, h1, fun d hd => ?_, h2⟩
  obtain ⟨_, _, h⟩ := hg d hd
  exact h.faithful

end

section
variable [Flavour Q]

/-- C47: on a host with 64K of memory and any devices and clock, the record of the instruction at PC,
unless that is a prefix or an interrupt is accepted, names the instruction in memory. -/
theorem C47_ram {w : Nat} {O R I : Type} (io : Handler (tsSig w O R) I) (c : Cpu Q) (ts : BitVec w)
    (m : Mem) (i : I) (hh : c.halt = false)
    (hn : acks ((executeNext true c).trace (ramHost io) (ts, m, i)) = 0)
    (hp : ∀ q, c.pfx = some q → m (c.pc - 1#16) = q.toCode) (hx : Spec.isPrefix (m c.pc) = false) :
    ∃ d, records ((executeNext true c).trace (ramHost io) (ts, m, i)) = [d] ∧
      let ix := c.pfx.isSome && Spec.indexed (m c.pc)
      let a := if ix then c.pc - 1#16 else c.pc
      let n := (if ix then 1 else 0) + Spec.length ix (m c.pc) (m (c.pc + 1#16))
      (d.mnemonic, d.args.opds) =
        Spec.line a ((List.range n).map fun i => m (a + BitVec.ofNat 16 i)) := by
  have h := C38_ram io c ts m i hh hn hp
  rw [hx] at h
  obtain ⟨d, hd, h1, h2⟩ := h
  refine ⟨d, hd, ?_⟩
  have hf := C47_execute_next (Prog.runs_run (ramHost io) (executeNext true c) (ts, m, i)) d
    (hd ▸ List.mem_singleton.2 rfl)
  intro ix a n
  rw [hf.text, h2, h1]

end

/-- The record of the instruction `l` at address 0x1234, a prefix in front executed before. -/
def recordOf (l : List U8) : List (String × List Spec.Opd) :=
  let m : Mem := fun a => l.getD (a - 0x1234#16).toNat 0
  let c : Cpu NMOS := { (Cpu.new : Cpu NMOS) with
    pfx := if l.head? = some 0xDD then some .xdd else none
    pc := if l.head? = some 0xDD then 0x1235#16 else 0x1234#16 }
  (records ((executeNext true c).trace demo (0, m, ()))).map fun d => (d.mnemonic, d.args.opds)

/-- Concrete records. -/
example : recordOf [0xDD, 0x36, 0xFD, 0x42] = [("LD", [.idx "IX" 0xFD, .byte 0x42])] ∧
    recordOf [0xDD, 0xCB, 0x05, 0xC6] = [("SET", [.num 0, .idx "IX" 0x05])] ∧
    recordOf [0xDD, 0xCB, 0x05, 0xC0] = [("SET", [.num 0, .idx "IX" 0x05, .name "B"])] ∧
    recordOf [0x18, 0xFE] = [("JR", [.word 0x1234])] ∧
    recordOf [0xED, 0x53, 0x00, 0x80] = [("LD", [.mem 0x8000, .name "DE"])] ∧
    recordOf [0x08] = [("EX", [.name "AF", .name "AF'"])] ∧
    recordOf [0xDD, 0x66, 0x01] = [("LD", [.name "H", .idx "IX" 0x01])] ∧
    recordOf [0xDD, 0x65] = [("LD", [.name "IXH", .name "IXL"])] := by
  refine ⟨?_, ?_, ?_, ?_, ?_, ?_, ?_, ?_⟩ <;> decide +kernel

end Z80
