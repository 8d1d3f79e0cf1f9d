import Verif.Props.RalStep
import Verif.Props.Asm
import Verif.Proofs.RalMemory

/-!
# C66: the preview of the debugger of the example computer

`debug_preview` shows the instruction that is executed next.
-/

namespace Z80.Ral
open Spec Spec.Ral

variable {Q : Type} {σ : Sig}

/-- What is shown of a record: its address, its bytes, its prefix, its name and its operands. -/
def visible (d : CpuDebug) : U16 × List U8 × Option Prefix × String × List Opd :=
  (d.pc, d.code, d.pfx, d.mnemonic, d.args.opds)

/-- The bytes from an address on. -/
def bytesFrom (m : Mem) (a : U16) (n : Nat) : List U8 := (List.range n).map fun i => m (a + BitVec.ofNat 16 i)

theorem take_bytes (m : Mem) (a : U16) {k n : Nat} (h : k ≤ n) : (bytesFrom m a n).take k = bytesFrom m a k := by
  unfold bytesFrom
  rw [← List.map_take, List.take_range, Nat.min_eq_left h]

/-- The first instruction found in memory. -/
theorem once {Q : Type} [Flavour Q] {pc : U16} {bs : List U8} {l : List (U16 × List U8)} {d : CpuDebug} {n : Nat}
    (hn : 2 * bs.length < n) (h : Listing pc bs ((d.pc, d.code) :: l)) (hd : Faithful d) :
    ∃ x, Disasm.disasmMemoryOnce (Cpu Q) n pc bs = some (some x) ∧ visible x = visible d := by
  obtain ⟨ds, h1, h2, h3⟩ := C47_disasm_memory Q pc bs
  have h4 := Disasm.C39_listing_unique h1 h
  cases ds with
  | nil => cases h4
  | cons x ds =>
    refine ⟨x, ?_, ?_⟩
    · rw [Disasm.disasmMemoryOnce, h3 n hn]
      rfl
    · have h5 : x.pc = d.pc ∧ x.code = d.code := by
        injection h4 with h4
        exact Prod.mk.inj h4
      have h6 : (x.mnemonic, x.args.opds) = (d.mnemonic, d.args.opds) := by
        rw [(h2 x (.head _)).text, hd.text, h5.1, h5.2]
      have h7 : x.pfx = d.pfx := by
        rw [(h2 x (.head _)).pfx, hd.pfx, h5.2]
      unfold visible
      rw [h5.1, h5.2, h7, (Prod.mk.inj h6).1, (Prod.mk.inj h6).2]

/-- The bytes of the preview. -/
theorem preview_code {Q : Type} [Flavour Q] {n : Nat} {m : Mem} {c : Cpu Q}
    (hp : ∀ q, c.getPrefix = some q → m (c.getPc - 1#16) = q.toCode) :
    ∃ y : CpuDebug, debugPreview n m c = (Disasm.disasmMemoryOnce (Cpu Q) n
        (if c.getPrefix.isSome then c.getPc - 1#16 else c.getPc)
        (bytesFrom m (if c.getPrefix.isSome then c.getPc - 1#16 else c.getPc) 4)).map fun d => d.getD y := by
  unfold debugPreview
  cases h : c.getPrefix with
  | none => exact ⟨_, rfl⟩
  | some q =>
    have : bytesFrom m (c.getPc - 1#16) 4 = [q.toCode, m (c.getPc - 1#16 + 1#16), m (c.getPc - 1#16 + 2#16),
        m (c.getPc - 1#16 + 3#16)] := by
      rw [← hp q h]
      show [m (c.getPc - 1#16 + 0#16), _, _, _] = _
      rw [BitVec.add_zero]
    rw [Option.isSome_some, if_pos rfl, this]
    exact ⟨_, rfl⟩

/-- Four bytes following a prefix that an ED instruction does not use: it would need five. -/
def tooLong (m : Mem) (c : Cpu Q) : Prop :=
  c.getPrefix.isSome = true ∧ decode (m c.getPc) = .ed ∧ (decodeEd (m (c.getPc + 1#16))).operands = 2

theorem bytes_four (m : Mem) (a : U16) : bytesFrom m a 4 = [m a, m (a + 1#16), m (a + 2#16), m (a + 3#16)] := by
  show [m (a + 0#16), _, _, _] = _
  rw [BitVec.add_zero]

theorem size_four (m : Mem) (a : U16) (h : Spec.isPrefix (m a) = false) :
    size (bytesFrom m a 4) = Spec.length false (m a) (m (a + 1#16)) := by
  rw [bytes_four]
  show (if Spec.isPrefix (m a) = true then _ else _) = _
  rw [h]
  rfl

theorem length_three {op next : U8} (h : ¬ (decode op = .ed ∧ (decodeEd next).operands = 2)) :
    Spec.length false op next ≤ 3 := by
  have h1 : ∀ k : IEd, k.operands = 0 ∨ k.operands = 2 := by intro k; cases k <;> simp [IEd.operands]
  have h2 : ∀ k : I0, k.operands ≤ 2 := by intro k; cases k <;> simp [I0.operands]
  have a1 := h1 (decodeEd next)
  have a2 := h2 (decode op)
  unfold Spec.length
  by_cases he : decode op = .ed
  · rw [if_pos he]
    have : (decode op).operands = 1 := by rw [he]; rfl
    have h3 : ¬ (decodeEd next).operands = 2 := fun hx => h ⟨he, hx⟩
    simp only [Bool.false_and, Bool.false_eq_true, if_false]
    omega
  · rw [if_neg he]
    simp only [Bool.false_and, Bool.false_eq_true, if_false]
    omega

theorem bytes_succ (m : Mem) (a : U16) (n : Nat) : bytesFrom m a (n + 1) = m a :: bytesFrom m (a + 1#16) n := by
  unfold bytesFrom
  rw [List.range_succ_eq_map, List.map_cons, List.map_map]
  refine congr (congrArg _ (congrArg m (BitVec.add_zero a))) (List.map_congr_left fun i _ => congrArg m ?_)
  show a + BitVec.ofNat 16 (i + 1) = a + 1#16 + BitVec.ofNat 16 i
  rw [Nat.add_comm, BitVec.ofNat_add, BitVec.add_assoc]

/-- The first instruction found among the bytes of the preview. -/
def Previewed {Q : Type} [Flavour Q] (n : Nat) (m : Mem) (c : Cpu Q) (x : CpuDebug) : Prop :=
  Disasm.disasmMemoryOnce (Cpu Q) n (if c.getPrefix.isSome then c.getPc - 1#16 else c.getPc)
    (bytesFrom m (if c.getPrefix.isSome then c.getPc - 1#16 else c.getPc) 4) = some (some x)

theorem Previewed.eq {Q : Type} [Flavour Q] {n : Nat} {m : Mem} {c : Cpu Q} {x : CpuDebug} (h : Previewed n m c x)
    (hp : ∀ q, c.getPrefix = some q → m (c.getPc - 1#16) = q.toCode) : debugPreview n m c = some x := by
  obtain ⟨y, hy⟩ := preview_code (n := n) hp
  rw [hy, show Disasm.disasmMemoryOnce _ _ _ _ = _ from h]
  rfl

/-- What the preview shows. -/
theorem preview_describes {Q : Type} [Flavour Q] {n : Nat} (hn : 8 < n) {m : Mem} {c : Cpu Q}
    (hp : ∀ q, c.getPrefix = some q → m (c.getPc - 1#16) = q.toCode) (hx : Spec.isPrefix (m c.getPc) = false)
    (hl : ¬ tooLong m c) {d : CpuDebug} (hd : Describes m c.getPc c.getPrefix.isSome d) (hf : Faithful d) :
    ∃ x, Previewed n m c x ∧ visible x = visible d := by
  have done : ∀ l, Listing (if c.getPrefix.isSome then c.getPc - 1#16 else c.getPc)
      (bytesFrom m (if c.getPrefix.isSome then c.getPc - 1#16 else c.getPc) 4) ((d.pc, d.code) :: l) →
      ∃ x, Previewed n m c x ∧ visible x = visible d := by
    intro l h
    exact once (Q := Q) (n := n) (by rw [bytes_four]; exact hn) h hf
  obtain ⟨hd1, hd2⟩ := hd
  have rest : ∀ (a : U16) (bs : List U8), ∃ l, Listing a bs l := fun a bs =>
    let ⟨_, h, _⟩ := Disasm.C39_disasm_memory Q a bs
    ⟨_, h⟩
  have hl : c.getPrefix.isSome = true → ¬ (decode (m c.getPc) = .ed ∧ (decodeEd (m (c.getPc + 1#16))).operands = 2) :=
    fun h1 h2 => hl ⟨h1, h2⟩
  generalize c.getPc = pc at *
  cases hq : c.getPrefix with
  | none =>
    rw [hq] at hd1 hd2 done
    simp only [Option.isSome_none, Bool.false_and, Bool.false_eq_true, if_false, Nat.zero_add] at hd1 hd2 done
    obtain ⟨l, hl⟩ := rest (pc + BitVec.ofNat 16 (size (bytesFrom m pc 4)))
      ((bytesFrom m pc 4).drop (size (bytesFrom m pc 4)))
    have hs := size_four m pc hx
    have h4 := (length_le (m pc) (m (pc + 1#16))).1
    refine done l ?_
    have he : d.code = (bytesFrom m pc 4).take (size (bytesFrom m pc 4)) := by
      rw [take_bytes m pc (by rw [hs]; exact h4), hs, hd2, hd1]
      rfl
    rw [hd1, he]
    refine .instr ?_ (by rw [hs, bytes_four]; exact h4) hl
    rw [bytes_four]
    show (Spec.isPrefix (m pc) && _) = false
    rw [hx]
    rfl
  | some q =>
    rw [hq] at hd1 hd2 done
    have hpq := hp q hq
    simp only [Option.isSome_some, Bool.true_and, if_true] at hd1 hd2 done
    have hpx : Spec.isPrefix (m (pc - 1#16)) = true := by rw [hpq]; cases q <;> rfl
    have hb : bytesFrom m (pc - 1#16) 4 = m (pc - 1#16) :: bytesFrom m pc 3 := by
      rw [bytes_succ, BitVec.sub_add_cancel]
    have hb3 : bytesFrom m pc 3 = m pc :: m (pc + 1#16) :: bytesFrom m (pc + 2#16) 1 := by
      rw [bytes_succ, bytes_succ, BitVec.add_assoc]
      rfl
    rw [hb] at done
    cases hi : indexed (m pc) with
    | true =>
      rw [hi] at hd1 hd2
      simp only [if_true] at hd1 hd2
      have hs : size (m (pc - 1#16) :: bytesFrom m pc 3) = 1 + Spec.length true (m pc) (m (pc + 1#16)) := by
        rw [hb3]
        show (if Spec.isPrefix (m (pc - 1#16)) = true then _ else _) = _
        rw [if_pos hpx]
        rfl
      have h3 := (length_le (m pc) (m (pc + 1#16))).2 hi
      obtain ⟨l, hl⟩ := rest (pc - 1#16 + BitVec.ofNat 16 (size (m (pc - 1#16) :: bytesFrom m pc 3)))
        ((m (pc - 1#16) :: bytesFrom m pc 3).drop (size (m (pc - 1#16) :: bytesFrom m pc 3)))
      refine done l ?_
      have he : d.code = (m (pc - 1#16) :: bytesFrom m pc 3).take (size (m (pc - 1#16) :: bytesFrom m pc 3)) := by
        rw [hs, ← hb, take_bytes m _ (by omega), hd2, hd1]
        rfl
      rw [hd1, he]
      refine .instr ?_ ?_ hl
      · rw [hb3]
        show (_ && !indexed (m pc)) = false
        rw [hi, Bool.not_true, Bool.and_false]
      · rw [hs, hb3]
        show _ ≤ 4
        omega
    | false =>
      rw [hi] at hd1 hd2
      simp only [Bool.false_eq_true, if_false, Nat.zero_add] at hd1 hd2
      have h3 : Spec.length false (m pc) (m (pc + 1#16)) ≤ 3 := length_three (hl (by rw [hq]; rfl))
      have hs : size (bytesFrom m pc 3) = Spec.length false (m pc) (m (pc + 1#16)) := by
        rw [hb3]
        show (if Spec.isPrefix (m pc) = true then _ else _) = _
        rw [hx]
        rfl
      obtain ⟨l, hl⟩ := rest (pc + BitVec.ofNat 16 (size (bytesFrom m pc 3)))
        ((bytesFrom m pc 3).drop (size (bytesFrom m pc 3)))
      refine done l (.skip ?_ ?_)
      · rw [hb3]
        show (Spec.isPrefix (m (pc - 1#16)) && !indexed (m pc)) = true
        rw [hpx, hi]
        rfl
      · have he : d.code = (bytesFrom m pc 3).take (size (bytesFrom m pc 3)) := by
          rw [take_bytes m pc (by rw [hs]; exact h3), hs, hd2, hd1]
          rfl
        rw [show pc - 1#16 + 1 = pc from BitVec.sub_add_cancel pc 1#16, hd1, he]
        refine .instr ?_ (by rw [hs, hb3]; exact h3) hl
        rw [hb3]
        show (Spec.isPrefix (m pc) && _) = false
        rw [hx]
        rfl

section
variable [Flavour Q]

/-- The host answers the reads made before the record as the memory `m` does. -/
def ReadsOf (m : Mem) (t : List (Ev σ)) : Prop := ∀ u v, t = u ++ v → louds u = 0 → Reads m u

theorem no_acks (c : Cpu Q) : (executeNext (σ := σ) true c).wp fun t _ => Spec.ackOf t = [] → acks t = 0 := by
  have rest : ∀ q : List (Ev σ), acks q = 0 →
      ((if c.halt then (haltStep c).bind fun c => pure (.ok, c) else fetchExecute true c :
        Prog σ (Res σ × Cpu Q))).wp fun t _ => Spec.ackOf (q ++ t) = [] → acks (q ++ t) = 0 := by
    intro q hq
    by_cases hh : c.halt = true
    · rw [if_pos hh]
      intro ts _
      rw [acks, List.countP_append, ← acks, hq]
      rfl
    · rw [if_neg hh]
      intro ts code
      refine (Prog.wp_iff _ _).2 fun u r hr _ => ?_
      have := acks_instr (Prog.runs_wp hr (ok_instruction true code _)).calls
      rw [acks, List.countP_append, ← acks, hq, Nat.zero_add]
      exact this
  unfold executeNext
  refine wp_askIrq ?_ ?_
  · intro _
    exact rest [] rfl
  · intro ts a hb
    cases a with
    | true =>
      refine (Prog.wp_iff _ _).2 fun t r hr h => ?_
      obtain ⟨v, ts', w, u', -, ht⟩ := Prog.runs_wp hr (ok_irqNoCheck true c)
      subst ht
      cases h
    | false => exact rest [⟨.asTimestamp, ts⟩, ⟨.isIrq ts, false⟩] rfl

theorem preview_next {n : Nat} (hn : 8 < n) {m : Mem} {c : Cpu Q} {t : List (Ev σ)} {r : Res σ × Cpu Q}
    (h : (executeNext true c).Runs t r) (hh : c.isHalt = false) (ha : Spec.ackOf t = []) {d : CpuDebug}
    (hd : records t = [d]) (hr : ReadsOf m t) (hp : ∀ q, c.getPrefix = some q → m (c.getPc - 1#16) = q.toCode)
    (hl : ¬ tooLong m c) : ∃ x, Previewed n m c x ∧ visible x = visible d := by
  obtain ⟨q, ts, ir, code, u, rfl, hq, -⟩ := Prog.runs_wp h (record_next c hh) (Prog.runs_wp h (no_acks c) ha)
  obtain ⟨op, h1, h2⟩ := C38_execute_next h hh (Prog.runs_wp h (no_acks c) ha)
  have hc : code = m c.pc := by
    refine hr (q ++ [⟨.addM1 c.pc, ts⟩, ⟨.readOpcode c.pc ir ts, code⟩]) u (by simp) ?_
      ⟨.readOpcode c.pc ir ts, code⟩ (List.mem_append_right _ (.tail _ (.head _)))
    rw [louds_append, hq.1]
    rfl
  have ho : op = m c.pc := by
    rw [opcodes_append, hq.2.1] at h1
    injection h1 with h1
    rw [← h1]
    exact hc
  subst ho
  cases hx : Spec.isPrefix (m c.pc) with
  | true => rw [hx, if_pos rfl, hd] at h2; cases h2
  | false =>
    rw [hx, if_neg Bool.false_ne_true] at h2
    obtain ⟨u', d', v', e, hu, hv, -, hm⟩ := h2
    have hd' : d' = d := by
      rw [e, records_append, records_nil.2 (debugs_of_louds hu), List.nil_append] at hd
      injection hd
    subst hd'
    exact preview_describes hn hp hx hl (hm m (hr _ _ e hu) hp) (C47_execute_next h d' (by rw [hd]; exact .head _))

/-- C66: unless an interrupt is accepted, the preview is the record of the instruction executed next. -/
theorem C66_debug_preview_partial {n : Nat} (hn : 8 < n) {m : Mem} {c : Cpu Q} {t : List (Ev σ)} {r : Res σ × Cpu Q}
    (h : (executeNext true c).Runs t r) (hh : c.isHalt = false) (ha : Spec.ackOf t = []) {d : CpuDebug}
    (hd : records t = [d]) (hr : ReadsOf m t) (hp : ∀ q, c.getPrefix = some q → m (c.getPc - 1#16) = q.toCode)
    (hl : ¬ tooLong m c) : ∃ x, debugPreview n m c = some x ∧ visible x = visible d := by
  obtain ⟨x, h1, h2⟩ := preview_next hn h hh ha hd hr hp hl
  exact ⟨x, h1.eq hp, h2⟩

/-- A prefix is fetched and remembered. -/
theorem prefix_taken {op : U8} (hp : Spec.isPrefix op = true) (c : Cpu Q) : ∃ (c' : Cpu Q) (p : Prefix),
    executeInstruction (σ := σ) true op c = .ret (.ok, c') ∧ c'.pc = c.pc ∧ c'.halt = false ∧ c'.pfx = some p ∧
      p.toCode = op := by
  have ho : op = 0xDD#8 ∨ op = 0xFD#8 := by
    have := all8_spec (p := fun c => !Spec.isPrefix c || decide (c = 0xDD#8 ∨ c = 0xFD#8)) (by decide +kernel) op
    rw [hp] at this
    exact of_decide_eq_true this
  obtain ⟨_, _, _, _, _, _, _, _, _, _, _, _, _, _, _, _, _, _, _, pfx, _, _⟩ := c
  rcases ho with rfl | rfl <;> rcases pfx with _ | _ | _ <;> exact ⟨_, _, rfl, rfl, rfl, rfl, rfl⟩

/-- The calls of a step without a record and without an interrupt, of a processor that is not halted. -/
theorem prefix_next (c : Cpu Q) (hh : c.halt = false) : (executeNext (σ := σ) true c).wp fun t r =>
    Spec.ackOf t = [] → records t = [] → louds t = 0 ∧ r.2.pc = c.pc + 1#16 ∧ r.2.halt = false ∧
      ∃ p ir ts, r.2.pfx = some p ∧ (⟨.readOpcode c.pc ir ts, p.toCode⟩ : Ev σ) ∈ t := by
  have rest : ∀ q : List (Ev σ), louds q = 0 → records q = [] →
      ((if c.halt then (haltStep c).bind fun c => pure (.ok, c) else fetchExecute true c :
        Prog σ (Res σ × Cpu Q))).wp fun t r => Spec.ackOf (q ++ t) = [] → records (q ++ t) = [] →
        louds (q ++ t) = 0 ∧ r.2.pc = c.pc + 1#16 ∧ r.2.halt = false ∧
      ∃ p ir ts, r.2.pfx = some p ∧ (⟨.readOpcode c.pc ir ts, p.toCode⟩ : Ev σ) ∈ q ++ t := by
    intro q hq hq'
    rw [hh, if_neg Bool.false_ne_true]
    intro ts (code : U8)
    refine (Prog.wp_iff _ _).2 fun u r hr _ h0 => ?_
    have hu : records u = [] := by
      rw [records_append, hq'] at h0
      exact h0
    cases hx : Spec.isPrefix code with
    | false =>
      obtain ⟨d, l, h1, -⟩ := instruction_record hr hx
      rw [h1] at hu
      cases hu
    | true =>
      obtain ⟨c', p, h1, h2, h3, h4, h5⟩ := prefix_taken (σ := σ) hx (((c.load true).cpu.incR).setPc (c.pc + 1#16))
      have hr : (executeInstruction (σ := σ) true code (((c.load true).cpu.incR).setPc (c.pc + 1#16))).Runs u r := hr
      rw [h1] at hr
      obtain ⟨rfl, rfl⟩ := Prog.runs_ret hr
      subst h5
      refine ⟨?_, h2, h3, p, _, _, h4, List.mem_append_right _ (.tail _ (.head _))⟩
      rw [louds_append, hq]
      rfl
  unfold executeNext
  refine wp_askIrq ?_ ?_
  · intro _
    exact rest [] rfl rfl
  · intro ts a hb
    cases a with
    | true =>
      refine (Prog.wp_iff _ _).2 fun t r hr h => ?_
      obtain ⟨v, ts', w, u', -, ht⟩ := Prog.runs_wp hr (ok_irqNoCheck true c)
      subst ht
      cases h
    | false => exact rest [⟨.asTimestamp, ts⟩, ⟨.isIrq ts, false⟩] rfl rfl

/-- C66: if a prefix is next, the preview is the record of the instruction executed after it. -/
theorem C66_prefixed_partial {n : Nat} (hn : 8 < n) {m : Mem} {c c1 : Cpu Q} {t t' : List (Ev σ)} {e : Res σ}
    {r : Res σ × Cpu Q} (h : (executeNext true c).Runs t (e, c1)) (hh : c.isHalt = false) (hp : c.getPrefix = none)
    (ha : Spec.ackOf t = []) (h0 : records t = []) (h' : (executeNext true c1).Runs t' r) (ha' : Spec.ackOf t' = [])
    {d : CpuDebug} (hd : records t' = [d]) (hr : ReadsOf m t) (hr' : ReadsOf m t') (hl : ¬ tooLong m c1) :
    ∃ x, debugPreview n m c = some x ∧ visible x = visible d := by
  obtain ⟨h1, h2, h3, p, ir, ts, h4, h5⟩ := Prog.runs_wp h (prefix_next c hh) ha h0
  have hm : p.toCode = m c.getPc := hr t [] (List.append_nil t).symm h1 _ h5
  have hc : c1.getPc - 1#16 = c.getPc := by
    show c1.pc - 1#16 = c.pc
    rw [h2, BitVec.add_sub_cancel]
  have hq : ∀ q, c1.getPrefix = some q → m (c1.getPc - 1#16) = q.toCode := by
    intro q hq
    cases h4.symm.trans hq
    rw [hc, hm]
  obtain ⟨x, hx, hlook⟩ := preview_next hn h' h3 ha' hd hr' hq hl
  refine ⟨x, Previewed.eq ?_ (fun q hq => by rw [hp] at hq; cases hq), hlook⟩
  unfold Previewed at hx ⊢
  rw [show c1.getPrefix = some p from h4, Option.isSome_some, if_pos rfl, hc] at hx
  rw [hp, Option.isSome_none, if_neg Bool.false_ne_true]
  exact hx

end

/-! ### On the computer -/

section
variable {D : Type} {dev : Device D}

/-- A call leaves the banks as they are: an opcode is not fetched from the other side of `0x2000`, and no EX-ROM is
selected. -/
def Steady (low : Bool) (b : Boards D) : Ev ralSig → Prop
  | ⟨.readOpcode a _ _, _⟩ => decide (a.toNat < 0x2000) = low
  | ⟨.writeIo p _ _, _⟩ => p &&& b.mask ≠ b.bits
  | _ => True

instance (low : Bool) (b : Boards D) (e : Ev ralSig) : Decidable (Steady low b e) :=
  match e with
  | ⟨.readOpcode a _ _, _⟩ => inferInstanceAs (Decidable (decide (a.toNat < 0x2000) = low))
  | ⟨.writeIo p _ _, _⟩ => inferInstanceAs (Decidable (p &&& b.mask ≠ b.bits))
  | ⟨.isPastLimit _, _⟩ | ⟨.addIrq _, _⟩ | ⟨.addNoMreq _ _, _⟩ | ⟨.addM1 _, _⟩ | ⟨.addMreq _, _⟩ | ⟨.addIo _, _⟩
  | ⟨.addWait _ _, _⟩ | ⟨.asTimestamp, _⟩ | ⟨.readIo _ _, _⟩ | ⟨.isIrq _, _⟩ | ⟨.irqData _ _, _⟩ | ⟨.reti _ _, _⟩
  | ⟨.readMem _ _, _⟩ | ⟨.readMem16 _ _, _⟩ | ⟨.writeMem _ _ _, _⟩ | ⟨.readDebug _, _⟩ | ⟨.debug _, _⟩ => .isTrue trivial

theorem host_none (r : Req ralSig) (t : BitVec 32) : (tClock (Boards.host dev) r (t, none)).2.2 = none := by
  cases r <;> rfl

theorem run_none {α : Type} (p : Prog ralSig α) (t : BitVec 32) :
    (p.run (tClock (Boards.host dev)) (t, none)).2.2 = none := by
  induction p generalizing t with
  | ret => rfl
  | call r k ih =>
    have := host_none (dev := dev) r t
    show ((k _).run _ (tClock (Boards.host dev) r (t, none)).2).2.2 = none
    generalize hs : (tClock (Boards.host dev) r (t, none)).2 = s at this
    obtain ⟨t', b'⟩ := s
    cases this
    exact ih _ _

theorem answer_steady {s : Banks} {b b' : Boards D} {r : Req ralSig} {x : r.Ans} (hm : Maps b.memory s)
    (hl : r.isLoud = false) (hs : Steady s.low b ⟨r, x⟩) (h : Boards.answer dev r b = some (x, b')) :
    Maps b'.memory s ∧ b'.mask = b.mask ∧ b'.bits = b.bits ∧ (⟨r, x⟩ : Ev ralSig).readsOk s.peek := by
  cases r with
  | isPastLimit | addIrq | addNoMreq | addM1 | addMreq | addIo | addWait | asTimestamp =>
    cases h; exact ⟨hm, rfl, rfl, trivial⟩
  | debug => cases hl
  | writeMem => cases hl
  | readIo p ts =>
    unfold Boards.answer at h
    dsimp only at h
    split at h
    · cases h; exact ⟨hm, rfl, rfl, trivial⟩
    · obtain ⟨x, -, h⟩ := Option.map_eq_some_iff.1 h
      cases h; exact ⟨hm, rfl, rfl, trivial⟩
  | writeIo p v ts =>
    unfold Boards.answer at h
    dsimp only at h
    rw [if_neg (show ¬ p &&& b.mask = b.bits from hs)] at h
    obtain ⟨x, -, h⟩ := Option.map_eq_some_iff.1 h
    cases h; exact ⟨hm, rfl, rfl, trivial⟩
  | isIrq | irqData | reti =>
    obtain ⟨x, -, h⟩ := Option.map_eq_some_iff.1 h
    cases h; exact ⟨hm, rfl, rfl, trivial⟩
  | readMem a ts =>
    obtain ⟨y, hx, h⟩ := Option.map_eq_some_iff.1 h
    obtain ⟨rfl, rfl⟩ := Prod.mk.inj h
    exact ⟨hm, rfl, rfl, Option.some.inj (hx.symm.trans (hm.readDebug a))⟩
  | readDebug a =>
    obtain ⟨y, hx, h⟩ := Option.map_eq_some_iff.1 h
    obtain ⟨rfl, rfl⟩ := Prod.mk.inj h
    exact ⟨hm, rfl, rfl, Option.some.inj (hx.symm.trans (hm.readDebug a))⟩
  | readMem16 a ts =>
    obtain ⟨y, hx, h⟩ := Option.map_eq_some_iff.1 h
    obtain ⟨rfl, rfl⟩ := Prod.mk.inj h
    exact ⟨hm, rfl, rfl, Option.some.inj (hx.symm.trans (hm.readMem16 a))⟩
  | readOpcode a ir ts =>
    have h : ((dev.m1 ts.toNat b.device).bind fun d => (b.memory.readOpcode a).bind fun y =>
      some (y.1, { b with device := d, memory := y.2 })) = some (x, b') := h
    obtain ⟨d, -, h⟩ := Option.bind_eq_some_iff.1 h
    obtain ⟨m', h1, h2, -⟩ := hm.fetch a
    have hs : decide (a.toNat < 0x2000) = s.low := hs
    rw [hs] at h1 h2
    rw [h1] at h
    cases h
    exact ⟨h2, rfl, rfl, rfl⟩

theorem steady_step {s : Banks} {b b' : Boards D} {t : BitVec 32} {r : Req ralSig} (hm : Maps b.memory s)
    (hl : r.isLoud = false) (hs : Steady s.low b ⟨r, (tClock (Boards.host dev) r (t, some b)).1⟩)
    (hb : (tClock (Boards.host dev) r (t, some b)).2.2 = some b') :
    Maps b'.memory s ∧ b'.mask = b.mask ∧ b'.bits = b.bits ∧
      (⟨r, (tClock (Boards.host dev) r (t, some b)).1⟩ : Ev ralSig).readsOk s.peek := by
  have key : ∀ {r : Req ralSig}, (Boards.host dev r (some b)).2 = some b' →
      Boards.answer dev r b = some ((Boards.host dev r (some b)).1, b') := by
    intro r h
    unfold Boards.host at h ⊢
    rw [show (some b).bind (Boards.answer dev r) = Boards.answer dev r b from rfl] at h ⊢
    cases ha : Boards.answer dev r b with
    | none => rw [ha] at h; cases h
    | some x => rw [ha] at h; cases h; rfl
  cases r with
  | isPastLimit | addIrq | addNoMreq | addM1 | addMreq | addIo | addWait | asTimestamp =>
    cases hb; exact ⟨hm, rfl, rfl, trivial⟩
  | debug => cases hl
  | writeMem => cases hl
  | readIo | writeIo | isIrq | irqData | reti | readMem | readDebug | readMem16 | readOpcode =>
    exact answer_steady hm hl hs (key hb)

theorem steady_reads {α : Type} {s : Banks} (p : Prog ralSig α) : ∀ {b : Boards D} {t : BitVec 32}, Maps b.memory s →
    (p.run (tClock (Boards.host dev)) (t, some b)).2.2 ≠ none →
    (∀ e ∈ p.trace (tClock (Boards.host dev)) (t, some b), Steady s.low b e) →
    ReadsOf s.peek (p.trace (tClock (Boards.host dev)) (t, some b)) := by
  induction p with
  | ret => 
    intro b t _ _ _ u v h _ e he
    cases (List.nil_eq_append_iff.1 h).1
    cases he
  | call r k ih =>
    intro b t hm hn hs u v h hl
    cases u with
    | nil => intro e he; cases he
    | cons e0 u =>
      have h : ⟨r, _⟩ :: (k _).trace (tClock (Boards.host dev)) (tClock (Boards.host dev) r (t, some b)).2 =
        e0 :: (u ++ v) := h
      have hn : ((k _).run (tClock (Boards.host dev)) (tClock (Boards.host dev) r (t, some b)).2).2.2 ≠ none := hn
      have hs0 := hs _ (.head _)
      have hs' : ∀ e ∈ (k _).trace (tClock (Boards.host dev)) (tClock (Boards.host dev) r (t, some b)).2,
        Steady s.low b e := fun e he => hs e (.tail _ he)
      injection h with h0 h1
      subst h0
      have hr : r.isLoud = false := by
        unfold louds at hl
        rw [List.countP_cons] at hl
        cases hr : r.isLoud with
        | false => rfl
        | true => 
          simp only [hr, if_true] at hl
          omega
      have hu : louds u = 0 := by
        unfold louds at hl ⊢
        rw [List.countP_cons] at hl
        omega
      cases hb : (tClock (Boards.host dev) r (t, some b)).2.2 with
      | none =>
        refine absurd ?_ hn
        generalize (tClock (Boards.host dev) r (t, some b)).2 = z at hb
        obtain ⟨z1, z2⟩ := z
        cases hb
        exact run_none _ _
      | some b' =>
        obtain ⟨g1, g2, g3, g4⟩ := steady_step hm hr hs0 hb
        intro e he
        cases he with
        | head => exact g4
        | tail _ he =>
          generalize (tClock (Boards.host dev) r (t, some b)).1 = x at *
          generalize (tClock (Boards.host dev) r (t, some b)).2 = z at *
          obtain ⟨z1, z2⟩ := z
          cases hb
          refine ih x g1 hn (fun e he => ?_) u v h1 hu e he
          have := hs' e he
          unfold Steady at this ⊢
          rw [g2, g3]
          exact this

/-- C66 on the computer: the bytes are shown as the processor then reads them, unless a fetch swaps the banks or the
instruction selects another EX-ROM. -/
theorem C66_computer_partial [FlavourSpec Q] {n : Nat} (hn : 8 < n) {m x : Machine Q D} {b : Boards D}
    {t : List (Ev ralSig)} {rom : List U8} {kilos : Nat} {ops : List Op} {xs : List Ans} {m0 : Memory}
    (h0 : Memory.new rom kilos = some m0) (ho : Owned [] ops) (hs : m0.steps ops = some (xs, b.memory))
    (hb : m.bus = some b) (h : m.executed dev true = some (t, x)) (hx : x.bus ≠ none)
    (hst : ∀ e ∈ t, Steady b.memory.bank1IsRam b e) (hh : m.cpu.isHalt = false) (ha : Spec.ackOf t = [])
    {d : CpuDebug} (hd : records t = [d])
    (hp : ∀ q, m.cpu.getPrefix = some q → b.memory.readDebug (m.cpu.getPc - 1#16) = some q.toCode)
    (hl : ¬ tooLong (fun a => (b.memory.readDebug a).getD 0xFF) m.cpu) :
    ∃ y, debugPreview n (fun a => (b.memory.readDebug a).getD 0xFF) m.cpu = some y ∧ visible y = visible d := by
  obtain ⟨hs0, hh0⟩ := maps_new rom kilos m0 h0
  obtain ⟨s, -, hm⟩ := (hs0.steps ops (hh0 ▸ ho)).2 xs _ hs
  have he : (fun a => (b.memory.readDebug a).getD 0xFF) = s.peek := by
    funext a
    rw [hm.readDebug a]
    rfl
  rw [he] at hl ⊢
  obtain ⟨e, cpu, cur, bus, h1, h2, h3⟩ := executed_ok (dev := dev) true m
  cases h1.symm.trans h
  refine C66_debug_preview_partial hn h3 hh ha hd ?_ (fun q hq => ?_) hl
  · rw [hb]
    rw [hb] at hst
    refine steady_reads _ hm ?_ (by rw [hm.low]; exact hst)
    rw [← hb, h2]
    exact hx
  · exact Option.some.inj ((hm.readDebug _).symm.trans (hp q hq))

/-! ### What is not so -/

/-- A computer's preview and what `debug_step` then executes: names and bytes. -/
def compared (m : Machine NMOS Unit) : Option (List (String × List U8)) := do
  let b ← m.bus
  let x ← debugPreview 9 (fun a => (b.memory.readDebug a).getD 0xFF) m.cpu
  let (d, _, _) ← m.debugStep terminator 9
  some [(x.mnemonic, x.code), ((d.map (·.mnemonic)).getD "", (d.map (·.code)).getD [])]

/-- A prefix of no use and an instruction of four bytes: the preview has no name, although an instruction is next and the
memory holds it. The documentation does not mention this case. It is the same if the prefix was fetched before. -/
theorem C66_refuted_long : (withRom [0xDD, 0xED, 0x43, 0x34, 0x12] 0 1000).bind (fun m => do
    let r ← compared m
    let s ← compared { m with cpu := { m.cpu.setPc 1 with pfx := some .xdd } }
    some (r, s)) =
      some ([("", [0xDD, 0xED, 0x43, 0x34]), ("LD", [0xED, 0x43, 0x34, 0x12])],
        [("", [0xDD, 0xED, 0x43, 0x34]), ("LD", [0xED, 0x43, 0x34, 0x12])]) := by decide +kernel

/-- Prefixes in a row, as the documentation says. -/
theorem C66_refuted_prefixes : (withRom [0xDD, 0xDD, 0x00] 0 1000).bind compared =
    some [("NOP", [0]), ("NOP*", [0xDD])] := by decide +kernel

/-- Banks that are swapped by the fetch, as the documentation says. -/
theorem C66_refuted_banks : (withRom [] 0x2000 1000).bind (fun m => do
    let b ← m.bus
    let m0 := { m with bus := some { b with memory := (b.memory.step (.fetch 0)).elim b.memory Prod.snd } }
    compared m0) = some [("NOP", [0]), ("RST", [0xFF])] := by decide +kernel

/-! ### Cases -/

/-- `LD IX,1234h` with the prefix fetched by the step, and with the prefix fetched before. -/
example : (withRom [0xDD, 0x21, 0x34, 0x12] 0 1000).bind (fun m => do
    let r ← compared m
    let s ← compared { m with cpu := { m.cpu.setPc 1 with pfx := some .xdd } }
    some (r, s)) =
      some ([("LD", [0xDD, 0x21, 0x34, 0x12]), ("LD", [0xDD, 0x21, 0x34, 0x12])],
        [("LD", [0xDD, 0x21, 0x34, 0x12]), ("LD", [0xDD, 0x21, 0x34, 0x12])]) := by decide +kernel

/-- The hypotheses of `C66_debug_preview_partial` and `C66_computer_partial`: the first instruction has been executed, then
the prefix of the second was fetched. -/
example : ∃ m0, Memory.new [0x00, 0xDD, 0x21, 0x34, 0x12] 16 = some m0 ∧ ∃ xs m1, m0.steps [.fetch 1] = some (xs, m1) ∧
    Owned [] [.fetch 1] ∧
    let b : Boards Unit := { mask := MEMORY_PORT_MASK, bits := MEMORY_PORT_BITS, device := (), memory := m1 }
    let m : Machine NMOS Unit := { cur := 0, hz := 100000, limit := 0, frame := 1000, bus := some b,
                                   cpu := { Cpu.default with pc := 2, pfx := some .xdd } }
    ∃ t x, m.executed terminator true = some (t, x) ∧ x.bus.isSome = true ∧ (∀ e ∈ t, Steady b.memory.bank1IsRam b e) ∧
      m.cpu.isHalt = false ∧ Spec.ackOf t = [] ∧ (records t).length = 1 ∧
      b.memory.readDebug (m.cpu.getPc - 1#16) = some (Prefix.xdd).toCode ∧
      ¬ (decode ((b.memory.readDebug m.cpu.getPc).getD 0xFF) = .ed) := by
  refine ⟨_, rfl, _, _, rfl, ⟨⟩, _, _, rfl, by decide +kernel, by decide +kernel, rfl, by decide +kernel,
    by decide +kernel, by decide +kernel, by decide +kernel⟩

/-- The hypotheses of `C66_prefixed_partial`: a prefix, then one record; no interrupts. -/
example : let c : Cpu NMOS := Cpu.new
    let t := (executeNext true c).trace demo (0, program [0xDD, 0x21, 0x34, 0x12], ())
    let s := (executeNext true c).run demo (0, program [0xDD, 0x21, 0x34, 0x12], ())
    let t' := (executeNext true s.1.2).trace demo s.2
    c.isHalt = false ∧ c.getPrefix = none ∧ Spec.ackOf t = [] ∧ (records t).length = 0 ∧ Spec.ackOf t' = [] ∧
      (records t').length = 1 ∧ decode (program [0xDD, 0x21, 0x34, 0x12] s.1.2.getPc) ≠ .ed := by decide +kernel

end

end Z80.Ral
