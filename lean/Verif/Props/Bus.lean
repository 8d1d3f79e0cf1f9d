import Verif.Proofs.Timing
import Verif.Proofs.Demo

/-!
# C45, C16 and C17: bus cycles, T-states and wait states on any host

The host is arbitrary: a theorem about `Prog.Runs p t r` is about all answers the host may give.
`clocked t` adds up the T-states announced to the clock in the calls `t` (4 for `add_m1`, 3 for
`add_mreq`, 4 for `add_io`, 6 for `add_irq`, the argument of `add_no_mreq`), `waited t` those of
`add_wait_states`, and `asked t` the wait states in the answers to `read_io`, `write_io` and
`irq_data`.
-/

set_option linter.constructorNameAsVariable false

namespace Z80
open Spec
variable {Q : Type} [FlavourSpec Q] {σ : Sig}

/-! ### C45 -/

/-- C45: `execute_next` on any host makes exactly the calls of the cycles in `stepCycles`, in
their order and with their arguments, and ends with the registers and the report given there;
calls of a debugger apart. -/
theorem C45_execute_next (deb : Bool) (c : Cpu Q) :
    (executeNext (σ := σ) deb c).erase.map (fun r => (abs r.2, outS r.1)) =
      (stepCycles (FlavourSpec.opt Q) (abs c)).calls.map fun e => (e.1, some e.2.2) :=
  drive_step deb c

/-- C45: `execute_instruction`. -/
theorem C45_execute_instruction (deb : Bool) (code : U8) (c : Cpu Q) :
    (executeInstruction (σ := σ) deb code c).erase.map (fun r => (abs r.2, outS r.1)) =
      (opCycles (FlavourSpec.opt Q) code (abs c)).calls.map fun e => (e.1, some e.2.2) :=
  drive_instruction deb code c

theorem irq_pre {c : Cpu Q} (h : irqOk (abs c)) : c.pfx = none ∧ c.lastEi = false := by
  rw [← irqAllowed_eq] at h
  simp only [Cpu.isIrqAllowed, isIntAllowed, Bool.and_eq_true, Bool.not_eq_true',
    Option.isNone_iff_eq_none] at h
  exact h.2

/-- C45: `irq`, when an interrupt can be accepted. -/
theorem C45_irq (deb : Bool) (c : Cpu Q) (h : irqOk (abs c)) :
    (irq (σ := σ) deb c).erase.map (fun r => (abs r.2, r.1.map outS)) =
      (irqCycles (FlavourSpec.opt Q) (abs c)).calls.map fun e => (e.1, some (some e.2.2)) := by
  have h1 := drive_interrupt (σ := σ) deb c (irq_pre h).1 (irq_pre h).2
  rw [← irqAllowed_eq] at h
  unfold irq
  rw [if_pos h]
  show ((irqNoCheck deb c).bind fun r => .ret (some r.1, r.2)).erase.map _ = _
  rw [Prog.erase_bind]
  show ((irqNoCheck deb c).erase.map fun r => (some r.1, r.2)).map _ = _
  rw [map_map]
  have h2 := congrArg (fun p => p.map fun x : Regs × Option (Out σ.O σ.R) => (x.1, some x.2)) h1
  rw [map_map, map_map] at h2
  exact h2

/-- C45: `nmi`, when one can be accepted. -/
theorem C45_nmi (c : Cpu Q) (h : nmiOk (abs c)) :
    (nmi (σ := σ) c).erase.map (fun r => (r.1, abs r.2)) =
      (nmiCycles (abs c)).calls.map fun e => (true, e.1) := by
  have hk : isIntAllowed c.pfx c.lastEi = true := by
    rw [← h]
    simp only [isIntAllowed, nmiOk, abs, absS, Cpu.load]
    cases c.lastEi <;> rcases c.pfx with _ | _ | _ <;> rfl
  unfold nmi
  rw [if_pos hk]
  show ((nmiNoCheck c).bind fun r => .ret (true, r)).erase.map _ = _
  rw [Prog.erase_bind]
  show ((nmiNoCheck c).erase.map fun r => (true, r)).map _ = _
  rw [map_map]
  have h2 := congrArg (fun p => p.map fun x : Regs => (true, x)) (drive_nmi (σ := σ) c)
  rw [map_map, map_map] at h2
  exact h2

/-- C45: the calls made, whatever the host answers, are those of a sequence of cycles that the
specification allows: the clock is told of every cycle before the bus is accessed with the
timestamp it returned. -/
theorem C45_runs {deb : Bool} {c : Cpu Q} {t : List (Ev σ)} {r : Res σ × Cpu Q}
    (h : (executeNext deb c).Runs t r) :
    ∃ l e, (stepCycles (FlavourSpec.opt Q) (abs c)).Path l e ∧
      Performs l (t.filter fun e => !e.req.isDebug) ∧ abs r.2 = e.1 ∧ outS r.1 = some e.2.2 :=
  drives_path (drive_step deb c) h

/-! ### C17 -/

/-- C17: over an instruction or an accepted interrupt the clock is told of exactly the wait
states that the host asked for. -/
theorem C17_execute_next {deb : Bool} {c : Cpu Q} {t : List (Ev σ)} {r : Res σ × Cpu Q}
    (h : (executeNext deb c).Runs t r) : Spec.waited t = asked t := by
  obtain ⟨l, e, _, h2, _⟩ := drives_path (drive_step deb c) h
  rw [← waited_filter, ← asked_filter]
  exact performs_waited h2

/-- C17: `execute_instruction`. -/
theorem C17_execute_instruction {deb : Bool} {code : U8} {c : Cpu Q} {t : List (Ev σ)}
    {r : Res σ × Cpu Q} (h : (executeInstruction deb code c).Runs t r) :
    Spec.waited t = asked t := by
  obtain ⟨l, e, _, h2, _⟩ := drives_path (drive_instruction deb code c) h
  rw [← waited_filter, ← asked_filter]
  exact performs_waited h2

/-- C17: `irq`. -/
theorem C17_irq {deb : Bool} {c : Cpu Q} {t : List (Ev σ)} {r : Option (Res σ) × Cpu Q}
    (h : (irq deb c).Runs t r) : Spec.waited t = asked t := by
  cases hq : irqOk (abs c) with
  | false =>
    unfold irq at h
    rw [irqAllowed_eq, hq] at h
    cases h; rfl
  | true =>
    unfold irq at h
    rw [irqAllowed_eq, hq] at h
    obtain ⟨u, v, a, rfl, h1, h2⟩ := Prog.runs_bind.1 h
    obtain ⟨rfl, _⟩ := Prog.runs_ret h2
    obtain ⟨l, e, _, h2, _⟩ := drives_path (drive_interrupt deb c (irq_pre hq).1 (irq_pre hq).2) h1
    rw [List.append_nil, ← waited_filter, ← asked_filter]
    exact performs_waited h2

/-- C17: `nmi`. -/
theorem C17_nmi {c : Cpu Q} {t : List (Ev σ)} {r : Bool × Cpu Q} (h : (nmi c).Runs t r) :
    Spec.waited t = asked t := by
  unfold nmi at h
  split at h
  · obtain ⟨u, v, a, rfl, h1, h2⟩ := Prog.runs_bind.1 h
    obtain ⟨rfl, _⟩ := Prog.runs_ret h2
    obtain ⟨l, e, _, h2, _⟩ := nmi_path c h1
    rw [List.append_nil, ← waited_filter, ← asked_filter]
    exact performs_waited h2
  · cases h; rfl

/-- C17: with a `TsCounter` clock next to any memory and devices, the clock advances over
`execute_next` by the T-states of its cycles and the wait states asked for, modulo the width of
the counter. -/
theorem C17_counter {w : Nat} {O R B : Type} (bus : Bus (tsSig w O R) B) (deb : Bool) (c : Cpu Q)
    (t : BitVec w) (b : B) :
    ((executeNext deb c).run (tsHost bus) (t, b)).2.1 = t +
      BitVec.ofNat w (clocked ((executeNext deb c).trace (tsHost bus) (t, b)) +
        asked ((executeNext deb c).trace (tsHost bus) (t, b))) := by
  have h := C17_execute_next (Prog.runs_run (tsHost bus) (executeNext deb c) (t, b))
  rw [← h]
  exact counter_advance bus _ t b

/-! ### C16 -/

/-- T-states of a pending DD or FD prefix, which was fetched in a step before. -/
def pfxT (c : Cpu Q) : Nat := if (abs c).idx = .hl then 0 else 4

/-- C16: `execute_instruction`, the 4 T-states of the fetch of `op` by the caller included. -/
theorem C16_execute_instruction {deb : Bool} {op : U8} {c : Cpu Q} {t : List (Ev σ)}
    {r : Res σ × Cpu Q} (h : (executeInstruction deb op c).Runs t r) :
    clocked t + 4 + pfxT c = published op (abs c) (opcodesOf t) (bytesOf t) := by
  obtain ⟨l, e, h1, h2, _⟩ := drives_path (drive_instruction deb op c) h
  rw [← clocked_filter, ← opcodes_filter, ← bytes_filter, performs_clocked h2,
    performs_opcodes h2, performs_bytes h2]
  exact ends_path (costOp _ op (abs c)) h1

/-- C16: every run of `execute_next` that accepts no interrupt takes 4 T-states in the halted
state and otherwise the number published for the bytes fetched and read. -/
theorem C16_execute_next {deb : Bool} {c : Cpu Q} {t : List (Ev σ)} {r : Res σ × Cpu Q}
    (h : (executeNext deb c).Runs t r) (hi : ∀ e ∈ t, ∀ pc ts, e.req ≠ .irqData pc ts) :
    if c.halt then clocked t = 4 ∧ opcodesOf t = []
    else ∃ op ops, opcodesOf t = op :: ops ∧
      clocked t + pfxT c = published op (abs c) ops (bytesOf t) := by
  obtain ⟨l, e, h1, h2, _⟩ := drives_path (drive_step deb c) h
  rw [← clocked_filter, ← opcodes_filter, ← bytes_filter, performs_clocked h2,
    performs_opcodes h2, performs_bytes h2]
  have hl : ∀ pc v w, Cyc.ack pc v w ∉ l := fun pc v w hm => by
    obtain ⟨ts, hx⟩ := performs_ack h2 hm
    exact hi _ (List.mem_filter.1 hx).1 pc ts rfl
  exact costStep _ (abs c) h1 hl

/-- C16: acceptance of an interrupt in modes 1 and 2 takes 13 and 19 T-states. -/
theorem C16_irq {deb : Bool} {c : Cpu Q} (hq : irqOk (abs c)) (hm : c.im ≠ .mode0)
    {t : List (Ev σ)} {r : Option (Res σ) × Cpu Q} (h : (irq deb c).Runs t r) :
    clocked t = if c.im = .mode1 then 13 else 19 := by
  unfold irq at h
  rw [irqAllowed_eq, hq] at h
  obtain ⟨u, v, a, rfl, h1, h2⟩ := Prog.runs_bind.1 h
  obtain ⟨rfl, _⟩ := Prog.runs_ret h2
  obtain ⟨l, e, h3, h2, _⟩ := drives_path (drive_interrupt deb c (irq_pre hq).1 (irq_pre hq).2) h1
  rw [List.append_nil, ← clocked_filter, performs_clocked h2]
  have h0 : (abs c).im ≠ 0 := by
    show imOf c.im ≠ 0
    cases hc : c.im <;> first | exact absurd hc hm | decide
  rw [ends_path (costIrq _ _ h0) h3]
  show (if imOf c.im = 1 then 13 else 19) = _
  cases c.im <;> rfl

/-- C16: in mode 0 the instruction given by the device takes 2 T-states more than published. -/
theorem C16_irq_mode0 {deb : Bool} {c : Cpu Q} (hq : irqOk (abs c)) (hm : c.im = .mode0)
    {t : List (Ev σ)} {r : Option (Res σ) × Cpu Q} (h : (irq deb c).Runs t r) :
    ∃ v, ackOf t = [v] ∧ clocked t = published v (abs c) (opcodesOf t) (bytesOf t) + 2 := by
  unfold irq at h
  rw [irqAllowed_eq, hq] at h
  obtain ⟨u, v, a, rfl, h1, h2⟩ := Prog.runs_bind.1 h
  obtain ⟨rfl, _⟩ := Prog.runs_ret h2
  obtain ⟨l, e, h3, h2, _⟩ := drives_path (drive_interrupt deb c (irq_pre hq).1 (irq_pre hq).2) h1
  rw [List.append_nil, ← clocked_filter, ← opcodes_filter, ← bytes_filter, ← ack_filter,
    performs_clocked h2, performs_opcodes h2, performs_bytes h2, performs_acks h2]
  exact costIrq0 _ _ (by show imOf c.im = 0; rw [hm]; rfl)
    (by show ixOf c.pfx = .hl; rw [(irq_pre hq).1]; rfl) h3

/-- C16: acceptance of a non-maskable interrupt takes 11 T-states. -/
theorem C16_nmi {c : Cpu Q} {t : List (Ev σ)} {r : Cpu Q} (h : (nmi c).Runs t (true, r)) :
    clocked t = 11 := by
  unfold nmi at h
  split at h
  · obtain ⟨u, v, a, rfl, h1, h2⟩ := Prog.runs_bind.1 h
    obtain ⟨rfl, _⟩ := Prog.runs_ret h2
    obtain ⟨l, e, h3, h2, _⟩ := nmi_path c h1
    rw [List.append_nil, ← clocked_filter, performs_clocked h2]
    exact ends_path (costNmi _) h3
  · cases h

/-- C16: with a `TsCounter` clock next to any memory and devices that ask for no wait states, the
counter advances over an instruction by the published number of T-states. -/
theorem C16_counter {w : Nat} {O R B : Type} (bus : Bus (tsSig w O R) B) (deb : Bool) (c : Cpu Q)
    (t : BitVec w) (b : B) (hh : c.halt = false)
    (hi : ∀ e ∈ (executeNext deb c).trace (tsHost bus) (t, b), ∀ pc ts, e.req ≠ .irqData pc ts)
    (ha : asked ((executeNext deb c).trace (tsHost bus) (t, b)) = 0) :
    ∃ op ops, opcodesOf ((executeNext deb c).trace (tsHost bus) (t, b)) = op :: ops ∧
      ((executeNext deb c).run (tsHost bus) (t, b)).2.1 + BitVec.ofNat w (pfxT c) =
        t + BitVec.ofNat w (published op (abs c) ops
          (bytesOf ((executeNext deb c).trace (tsHost bus) (t, b)))) := by
  have h := C16_execute_next (Prog.runs_run (tsHost bus) (executeNext deb c) (t, b)) hi
  rw [if_neg (by rw [hh]; decide)] at h
  obtain ⟨op, ops, h1, h2⟩ := h
  refine ⟨op, ops, h1, ?_⟩
  rw [C17_counter, ha, ← h2, BitVec.add_assoc, ← BitVec.ofNat_add, Nat.add_zero]

/-! ### Examples -/

/-- Devices that ask for wait states: 7 on input, 300 on output, 5 on acknowledge. -/
def slowIo : Handler (tsSig 16 Unit Unit) Unit
  | .readIo _ _, s => ((0x5A, some 7), s)
  | .writeIo _ _ _, s => ((none, some 300), s)
  | .irqData _ _, s => ((0xC7, some 5), s)
  | r, s => demoIo true 0 none none r s

/-- One run each of `INC (IX+d)` after its prefix, `LDIR` that repeats and that ends, `JR NZ`
taken and not taken, with the published numbers of T-states. -/
example :
    let c : Cpu NMOS := Cpu.new
    let go := fun (c : Cpu NMOS) l => clocked ((executeNext false c).trace demo (0, program l, ()))
    go { c with pfx := some .xdd } [0x34, 5] = 19 ∧
      go { c with bc := ⟨0, 2⟩ } [0xED, 0xB0] = 21 ∧ go { c with bc := ⟨0, 1⟩ } [0xED, 0xB0] = 16 ∧
      go { c with af := ⟨0, 0⟩ } [0x20, 5] + go { c with af := ⟨0, 0x40⟩ } [0x20, 5] = 12 + 7 ∧
      published 0x34 (abs { c with pfx := some .xdd }) [] [5, 0] = 23 := by decide +kernel

/-- The calls of `LD (IY+5),7` after its prefix: fetch, two operands, 2 T-states, write. -/
example : ((executeNext false { (Cpu.new : Cpu NMOS) with pfx := some .yfd }).trace demo
    (0, program [0x36, 5, 7], ())).length = 9 := by decide +kernel

/-- Wait states: `OUT (n),A` takes 11 + 300 T-states and an accepted interrupt in mode 0 with
`RST 0` takes 13 + 5. -/
example :
    let H := ramHost slowIo
    let c : Cpu NMOS := Cpu.new
    let d : Cpu NMOS := { c with iff1 := true, iff2 := true }
    let t := (executeNext false c).trace H (0, program [0xD3, 1], ())
    let u := (irq false d).trace H (0, program [], ())
    clocked t = 11 ∧ asked t = 300 ∧ ((executeNext false c).run H (0, program [0xD3, 1], ())).2.1 = 311#16 ∧
      irqOk (abs d) ∧ clocked u = 13 ∧ asked u = 5 ∧ ackOf u = [0xC7#8] ∧
      published 0xC7 (abs d) (opcodesOf u) (bytesOf u) = 11 := by decide +kernel

end Z80
