import Verif.Proofs.Record
import Verif.Proofs.Demo

/-!
# C38: debug records describe the executed bytes
-/

namespace Z80
open Ex

variable {σ : Sig} {Q : Type}

/-- `d` is the record of the instruction whose opcode is at `pc` in memory `m`, where `pre` tells
whether the byte before is a DD or FD prefix waiting: its address is that of the first byte, the prefix
included if it changes the instruction, and its code is the bytes of the instruction. -/
def Describes (m : Mem) (pc : U16) (pre : Bool) (d : CpuDebug) : Prop :=
  let ix := pre && Spec.indexed (m pc)
  d.pc = (if ix then pc - 1#16 else pc) ∧
    d.code = (List.range ((if ix then 1 else 0) + Spec.length ix (m pc) (m (pc + 1#16)))).map
      fun i => m (d.pc + BitVec.ofNat 16 i)

/-- The calls `t` contain one of the debugger, with no write to memory before. What it is given describes the instruction at `pc` in
every memory that answers the reads made before as the host does. -/
def RecordsOne (pc : U16) (p : Option Prefix) (t : List (Ev σ)) : Prop :=
  ∃ u d v, t = u ++ ⟨.debug d, ()⟩ :: v ∧ louds u = 0 ∧ records v = [] ∧ d.code.length ≤ 4 ∧
    ∀ m, Reads m u → (∀ q, p = some q → m (pc - 1#16) = q.toCode) → Describes m pc p.isSome d

theorem holds_range {m : Mem} {a : U16} {l : List U8} (h : Holds m a l) :
    l = (List.range l.length).map fun i => m (a + BitVec.ofNat 16 i) := by
  induction l generalizing a with
  | nil => rfl
  | cons b l ih =>
    rw [List.length_cons, List.range_succ_eq_map, List.map_cons, List.map_map]
    refine congr (congrArg _ ?_) ?_
    · rw [h.1]
      exact congrArg m (BitVec.add_zero a).symm
    · rw [ih h.2]
      simp only [List.length_map, List.length_range]
      refine List.map_congr_left fun i _ => congrArg m ?_
      show a + 1#16 + BitVec.ofNat 16 i = a + BitVec.ofNat 16 (i + 1)
      rw [Nat.add_comm, BitVec.ofNat_add, BitVec.add_assoc]

theorem describes_of {m : Mem} {pc : U16} {p : Option Prefix} {l : List U8} {d : CpuDebug}
    (h : Recorded (Rep.Text (effective p (m pc)) pc (m pc)) pc (effective p (m pc)) (m pc :: l) d)
    (hl : Holds m pc (m pc :: l)) (hp : ∀ q, p = some q → m (pc - 1#16) = q.toCode) :
    Describes m pc p.isSome d := by
  have hlen : (m pc :: l).length =
      Spec.length (effective p (m pc)).isSome (m pc) (m (pc + 1#16)) := by
    rw [h.ok.1.1]
    cases l with
    | nil =>
      -- a single byte: the length does not depend on what follows
      have h1 := h.ok.1.1
      have h2 : Spec.decode (m pc) ≠ .ed := by
        intro he
        unfold Spec.length at h1
        rw [he] at h1
        simp only [List.length_cons, List.length_nil] at h1
        have : Spec.I0.operands .ed = 1 := rfl
        omega
      unfold Spec.length
      rw [if_neg h2, if_neg h2]
    | cons b l =>
      show Spec.length _ _ b = _
      rw [hl.2.1]
  unfold Describes
  unfold effective at *
  cases hi : Spec.indexed (m pc) with
  | false =>
    rw [hi] at h hlen
    simp only [Bool.and_false, Bool.false_eq_true, if_false, Nat.zero_add] at h hlen ⊢
    have e : d.pc = pc := h.pc.trans (BitVec.sub_zero pc)
    refine ⟨e, ?_⟩
    rw [h.code, e, show pfxBytes none ++ m pc :: l = m pc :: l from rfl]
    have := holds_range hl
    rw [hlen] at this
    exact this
  | true =>
    rw [hi] at h hlen
    simp only [Bool.and_true, if_true] at h hlen ⊢
    cases p with
    | none =>
      have e : d.pc = pc := h.pc.trans (BitVec.sub_zero pc)
      refine ⟨e, ?_⟩
      rw [h.code, e, show pfxBytes none ++ m pc :: l = m pc :: l from rfl]
      have := holds_range hl
      rw [hlen] at this
      simp only [Option.isSome_none, Bool.false_eq_true, if_false, Nat.zero_add]
      exact this
    | some q =>
      have e : d.pc = pc - 1#16 := h.pc
      refine ⟨e, ?_⟩
      have h1 : Holds m (pc - 1#16) (q.toCode :: m pc :: l) :=
        ⟨(hp q rfl).symm, by rwa [BitVec.sub_add_cancel]⟩
      rw [h.code, e, show pfxBytes (some q) ++ m pc :: l = q.toCode :: m pc :: l from rfl]
      have := holds_range h1
      rw [List.length_cons, hlen, Nat.add_comm] at this
      exact this

section
variable [Flavour Q]

/-- An `execute_next` with a debugger, not in the halted state and without an interrupt accepted,
fetches a byte from PC. For a prefix the debugger is not called; for any other byte it is called
once, with a record that describes the instruction. -/
theorem C38_execute_next {c : Cpu Q} {t : List (Ev σ)} {r : Res σ × Cpu Q}
    (h : (executeNext true c).Runs t r) (hh : c.halt = false) (hn : acks t = 0) :
    ∃ op, (opcodes t).head? = some op ∧
      if Spec.isPrefix op then records t = [] else RecordsOne c.pc c.pfx t := by
  obtain ⟨q, ts, ir, code, u, rfl, hq, h⟩ := Prog.runs_wp h (record_next c hh) hn
  refine ⟨code, ?_, ?_⟩
  · rw [opcodes_append, hq.2.1]
    rfl
  split at h
  · next hc =>
    rw [if_pos hc, records_append, hq.2.2]
    exact h
  · next hc =>
    rw [if_neg hc]
    obtain ⟨u', d, v, l, rfl, hu, hv, hd, hm⟩ := id h
    refine ⟨q ++ ⟨.addM1 c.pc, ts⟩ :: ⟨.readOpcode c.pc ir ts, code⟩ :: u', d, v, by simp, ?_,
      records_nil.2 hv, ?_, ?_⟩
    · rw [louds_append, hq.1, Nat.zero_add]
      exact hu
    · have := h.sound (Bool.eq_false_iff.2 hc)
      rw [Sound, records_append] at this
      obtain ⟨_, _, hg⟩ := this d (List.mem_append_right _ (.head _))
      exact hg.short
    · intro m hr hp
      have hc' : code = m c.pc :=
        hr ⟨.readOpcode c.pc ir ts, code⟩ (List.mem_append_right _ (.tail _ (.head _)))
      subst hc'
      exact describes_of hd (hm m (fun e he => hr e (List.mem_append_right _ (.tail _ (.tail _ he))))
        rfl) hp

end

theorem reads_ram {w : Nat} {O R I α : Type} (io : Handler (tsSig w O R) I) (p : Prog (tsSig w O R) α)
    {u v : List (Ev (tsSig w O R))} {t : BitVec w} {m : Mem} {i : I}
    (h : p.trace (ramHost io) (t, m, i) = u ++ v) (hu : louds u = 0) : Reads m u := by
  induction p generalizing u t i with
  | ret a =>
    have : u = [] := (List.append_eq_nil_iff.1 h.symm).1
    subst this
    exact fun _ he => absurd he List.not_mem_nil
  | call r k ih =>
    cases u with
    | nil => exact fun _ he => absurd he List.not_mem_nil
    | cons e u =>
      obtain ⟨rfl, h'⟩ := List.cons.inj h
      have hu' : louds ([⟨r, (ramHost io r (t, m, i)).1⟩] ++ u) = 0 := hu
      rw [louds_append] at hu'
      have hk := ih (ramHost io r (t, m, i)).1 (u := u) (t := (ramHost io r (t, m, i)).2.1)
        (i := (ramHost io r (t, m, i)).2.2.2)
      cases r with
      | writeMem => exact absurd hu' (by simp [louds, Req.isLoud])
      | debug => exact absurd hu' (by simp [louds, Req.isLoud])
      | _ =>
        have hk := hk h' (by omega)
        intro e he
        cases he with
        | head => first | rfl | trivial
        | tail _ he => exact hk e he

section
variable [Flavour Q]

/-- On a host with 64K of memory and any devices and clock: unless an interrupt is accepted, a prefix
is executed without a record, and any other instruction with one that describes the bytes in memory
before it is executed, whether or not it changes them. -/
theorem C38_ram {w : Nat} {O R I : Type} (io : Handler (tsSig w O R) I) (c : Cpu Q) (ts : BitVec w)
    (m : Mem) (i : I) (hh : c.halt = false)
    (hn : acks ((executeNext true c).trace (ramHost io) (ts, m, i)) = 0)
    (hp : ∀ q, c.pfx = some q → m (c.pc - 1#16) = q.toCode) :
    if Spec.isPrefix (m c.pc) then records ((executeNext true c).trace (ramHost io) (ts, m, i)) = []
    else ∃ d, records ((executeNext true c).trace (ramHost io) (ts, m, i)) = [d] ∧
      Describes m c.pc c.pfx.isSome d := by
  have hr := Prog.runs_run (ramHost io) (executeNext true c) (ts, m, i)
  obtain ⟨q, ts', ir, code, u, ht, hq, -⟩ := Prog.runs_wp hr (record_next c hh) hn
  have h1 : Reads m (q ++ [⟨.addM1 c.pc, ts'⟩, ⟨.readOpcode c.pc ir ts', code⟩]) := by
    refine reads_ram io (executeNext true c) (v := u) (t := ts) (i := i) (ht.trans (by simp)) ?_
    rw [louds_append, hq.1]
    rfl
  have hc : code = m c.pc :=
    h1 ⟨.readOpcode c.pc ir ts', code⟩ (List.mem_append_right _ (.tail _ (.head _)))
  obtain ⟨op, ho, h⟩ := C38_execute_next hr hh hn
  have : op = code := by
    rw [ht, opcodes_append, hq.2.1] at ho
    exact (Option.some.inj ho).symm
  rw [this, hc] at h
  split at h
  · next hx =>
    rw [if_pos hx]
    exact h
  · next hx =>
    rw [if_neg hx]
    obtain ⟨u, d, v, ht, hu, hv, -, h⟩ := h
    refine ⟨d, ?_, h m (reads_ram io _ ht hu) hp⟩
    rw [ht, records_append, records_nil.2 (debugs_of_louds hu)]
    exact congrArg (List.cons d) hv

/-- In the halted state nothing is recorded unless an interrupt is accepted. -/
theorem C38_halted {deb : Bool} {c : Cpu Q} {t : List (Ev σ)} {r : Res σ × Cpu Q}
    (h : (executeNext deb c).Runs t r) (hh : c.halt = true) (hn : acks t = 0) : records t = [] := by
  refine Prog.runs_wp h (P := fun t _ => acks t = 0 → records t = []) ?_ hn
  unfold executeNext
  rw [hh]
  refine wp_askIrq (fun _ _ _ => rfl) ?_
  intro ts a hb
  cases a with
  | false => exact fun _ _ => rfl
  | true =>
    refine Prog.wp_mono (fun u r h h0 => ?_) (ok_irqNoCheck deb c)
    obtain ⟨v, _, _, _, h, -⟩ := h
    have h1 : acks u = 0 := h0
    rw [h.ack] at h1
    cases h1

/-- What any call may give to the debugger: records that are right about themselves. In `execute_next`, -/
theorem sound_next {deb : Bool} {c : Cpu Q} {t : List (Ev σ)} {r : Res σ × Cpu Q}
    (h : (executeNext deb c).Runs t r) : Sound t := by
  have rest : ((if c.halt then (haltStep c).bind fun c => pure (.ok, c) else fetchExecute deb c :
        Prog σ (Res σ × Cpu Q))).wp fun t _ => Sound t := by
    cases c.halt with
    | true => exact fun ts d hd => absurd hd List.not_mem_nil
    | false =>
      intro ts code
      exact Prog.wp_mono (fun t _ h => h) (sound_instruction deb code _)
  refine Prog.runs_wp h (P := fun t _ => Sound t) ?_
  unfold executeNext askIrq
  cases c.isIrqAllowed with
  | false => exact rest
  | true =>
    refine sound_ask (r := .asTimestamp) rfl fun ts => ?_
    refine sound_ask (r := .isIrq ts) rfl fun (i : Bool) => ?_
    cases i with
    | true => exact sound_irqNoCheck _ _
    | false => exact rest

/-- in `irq`. -/
theorem sound_irq {deb : Bool} {c : Cpu Q} {t : List (Ev σ)}
    {r : Option (Res σ) × Cpu Q} (h : (irq deb c).Runs t r) : Sound t := by
  unfold irq at h
  split at h
  · obtain ⟨r', h', -⟩ := Prog.runs_map.1 h
    exact Prog.runs_wp h' (sound_irqNoCheck deb c)
  · obtain ⟨rfl, -⟩ := Prog.runs_ret h
    exact fun _ hd => absurd hd List.not_mem_nil

omit [Flavour Q] in
theorem Sound.short {t : List (Ev σ)} (h : Sound t) : ∀ d ∈ records t, d.code.length ≤ 4 := by
  intro d hd
  obtain ⟨_, _, hg⟩ := h d hd
  exact hg.short

/-- The buffer for four bytes never overflows: not in `execute_next`, also when an interrupt is
accepted and the host delivers any byte, -/
theorem C38_fits {deb : Bool} {c : Cpu Q} {t : List (Ev σ)} {r : Res σ × Cpu Q}
    (h : (executeNext deb c).Runs t r) : ∀ d ∈ records t, d.code.length ≤ 4 :=
  (sound_next h).short

/-- nor in `execute_instruction` with any opcode in any state, -/
theorem C38_fits_instruction {deb : Bool} {code : U8} {c : Cpu Q} {t : List (Ev σ)}
    {r : Res σ × Cpu Q} (h : (executeInstruction deb code c).Runs t r) :
    ∀ d ∈ records t, d.code.length ≤ 4 :=
  (Prog.runs_wp h (sound_instruction deb code c)).short

/-- nor in `irq`. -/
theorem C38_fits_irq {deb : Bool} {c : Cpu Q} {t : List (Ev σ)}
    {r : Option (Res σ) × Cpu Q} (h : (irq deb c).Runs t r) :
    ∀ d ∈ records t, d.code.length ≤ 4 :=
  (sound_irq h).short

end

/-- `SET 7,(IX+5)` at address 0, executed after its prefix: four bytes at address 0. -/
example : (records ((executeNext true { (Cpu.new : Cpu NMOS) with pfx := some .xdd, pc := 1#16 }).trace
    demo (0, program [0xDD, 0xCB, 0x05, 0xFE], ()))).map (fun d => (d.pc, d.code)) =
      [(0#16, [0xDD, 0xCB, 0x05, 0xFE])] := by decide +kernel

/-- The hypotheses of `C38_execute_next` and `C38_ram` hold there. -/
example : let c := { (Cpu.new : Cpu NMOS) with pfx := some .xdd, pc := 1#16 }
    let t := (executeNext true c).trace demo (0, program [0xDD, 0xCB, 0x05, 0xFE], ())
    c.halt = false ∧ acks t = 0 ∧ (opcodes t).head? = some 0xCB ∧
      (∀ q, c.pfx = some q → program [0xDD, 0xCB, 0x05, 0xFE] (c.pc - 1#16) = q.toCode) := by
  refine ⟨rfl, by decide +kernel, by decide +kernel, ?_⟩
  rintro q ⟨⟩
  rfl

end Z80
