import Verif.Props.Record
import Verif.Proofs.Kit
import Verif.Model.Disasm
import Verif.Spec.Listing

/-!
# One iteration of the disassembler
-/

namespace Z80.Disasm

variable {Q α : Type}

/-- What the host of the disassembler answers. -/
def Fair (m : Mem) (e : Ev sig) : Prop := e.readsOk m ∧ ∀ ts, e ≠ ⟨.isIrq ts, true⟩

theorem fair_host (base : U16) (l : List U8) (p : Prog sig α) (h : BitVec 32 × Seen) :
    ∀ e ∈ p.trace (host base l) h, Fair (byteAt base l) e := by
  induction p generalizing h with
  | ret a => exact fun e he => absurd he List.not_mem_nil
  | call r k ih =>
    intro e he
    cases he with
    | tail _ he => exact ih _ _ _ he
    | head =>
      obtain ⟨t, v⟩ := h
      cases r <;> exact ⟨by first | rfl | trivial, fun ts h => by cases h⟩

theorem run_seen (base : U16) (l : List U8) (p : Prog sig α) (t : BitVec 32) (v : Seen) :
    (p.run (host base l) (t, v)).2.2 =
      (records (p.trace (host base l) (t, v))).foldl (fun v d => onDebug d v) v := by
  induction p generalizing t v with
  | ret a => rfl
  | call r k ih => cases r <;> exact ih _ _ _

theorem pfx_of_view {p : Option Prefix} : (ixOf p = .ix → p = some .xdd) ∧ (ixOf p = .iy → p = some .yfd)
    ∧ (ixOf p = .hl → p = none) := by
  rcases p with _ | _ | _ <;> refine ⟨fun h => ?_, fun h => ?_, fun h => ?_⟩ <;> first | rfl | cases h

section
variable [Flavour Q]

theorem control_plain {op : U8} (h : Spec.isPrefix op = false) (ops : List U8) (a : U8) (k : Spec.Ctl) :
    (Spec.control op ops a k).idx = .hl := by
  have h1 : op ≠ 0xDD ∧ op ≠ 0xFD := by
    constructor <;> · rintro rfl; cases h
  unfold Spec.control
  simp only [if_neg h1.1, if_neg h1.2]
  unfold Spec.controlEd
  repeat' split
  all_goals rfl

/-- One `execute_next` of the disassembler, when the CPU is not halted. -/
theorem step_run (c : Cpu Q) (hh : c.halt = false) (b : U8) (rest : List U8) (t0 : BitVec 32)
    (cur : Nat) :
    let r := (executeNext true c).run (host c.pc (b :: rest)) (t0, ⟨cur, none⟩)
    if Spec.isPrefix b then r.2.2 = ⟨cur, none⟩ ∧ r.1.2.halt = false ∧
      ∃ q, r.1.2.pfx = some q ∧ q.toCode = b
    else r.1.2.pfx = none ∧ ∃ d l, r.2.2 = onDebug d ⟨cur, none⟩ ∧
      Recorded (Rep.Text (effective c.pfx b) c.pc b) c.pc (effective c.pfx b) (b :: l) d ∧
      Holds (byteAt c.pc (b :: rest)) c.pc (b :: l) := by
  intro r
  have hr := Prog.runs_run (host c.pc (b :: rest)) (executeNext true c) (t0, ⟨cur, none⟩)
  have hf := fair_host c.pc (b :: rest) (executeNext true c) (t0, ⟨cur, none⟩)
  have hs := run_seen c.pc (b :: rest) (executeNext true c) t0 ⟨cur, none⟩
  generalize (executeNext true c).trace (host c.pc (b :: rest)) (t0, ⟨cur, none⟩) = t at hr hf hs
  have hb : byteAt c.pc (b :: rest) c.pc = b := by
    unfold byteAt
    rw [BitVec.sub_self]
    rfl
  cases Prog.runs_wp hr (ok_next true c) with
  | irq ts u ht ha h =>
    subst ht
    exact absurd rfl ((hf _ (.tail _ (.head _))).2 ts)
  | halted q hq ts ht h => rw [h] at hh; cases hh
  | instr q hq ts ir code u ht _ hk =>
    have ha : acks t = 0 := by
      rw [ht, acks_append, acks_instr (isInstr_body hq), Nat.zero_add]
      show acks u = 0
      exact acks_instr hk.calls
    obtain ⟨q', ts', ir', code', u', ht', hq', h⟩ := Prog.runs_wp hr (record_next c hh) ha
    have hc : code' = code := by
      have h1 := ht.symm.trans ht'
      have h2 := congrArg opcodes h1
      rw [opcodes_append, opcodes_append, opcodes_body hq, hq'.2.1] at h2
      exact (List.cons.inj h2).1.symm
    subst hc
    have hcb : code' = b := by
      have := (hf ⟨.readOpcode c.pc ir' ts', code'⟩
        (by rw [ht']; exact List.mem_append_right _ (.tail _ (.head _)))).1
      exact this.trans hb
    subst hcb
    have hctl := hk.ctl
    by_cases hp : Spec.isPrefix code' = true
    · rw [if_pos hp] at h ⊢
      refine ⟨?_, ?_, ?_⟩
      · rw [show r.2.2 = _ from hs, ht', records_append, hq'.2.2]
        show List.foldl _ _ (records u') = _
        rw [h]
        rfl
      · have := congrArg Spec.Ctl.halted hctl
        rcases (by simpa [Spec.isPrefix] using hp : code' = 0xDD ∨ code' = 0xFD) with rfl | rfl <;>
          exact this
      · have := congrArg Spec.Ctl.idx hctl
        rcases (by simpa [Spec.isPrefix] using hp : code' = 0xDD ∨ code' = 0xFD) with rfl | rfl
        · exact ⟨.xdd, pfx_of_view.1 this, rfl⟩
        · exact ⟨.yfd, pfx_of_view.2.1 this, rfl⟩
    · rw [if_neg hp] at h ⊢
      have hp := Bool.eq_false_iff.2 hp
      obtain ⟨w, d, v, l, rfl, hw, hv, hd, hm⟩ := h
      refine ⟨pfx_of_view.2.2 ((congrArg Spec.Ctl.idx hctl).trans (control_plain hp _ _ _)), d, l, ?_,
        hd, hm _ ?_ hb.symm⟩
      · rw [show r.2.2 = _ from hs, ht', records_append, hq'.2.2]
        show List.foldl _ _ (records (w ++ _)) = _
        rw [records_append, records_nil.2 (debugs_of_louds hw)]
        show List.foldl _ _ (d :: records v) = _
        rw [records_nil.2 hv]
        rfl
      · intro e he
        refine (hf e ?_).1
        rw [ht']
        exact List.mem_append_right _ (.tail _ (.tail _ (List.mem_append_left _ he)))

/-- One `execute_next` of the disassembler, when the CPU is halted. -/
theorem step_halted (c : Cpu Q) (hh : c.halt = true) (base : U16) (l : List U8) (t0 : BitVec 32)
    (cur : Nat) :
    let r := (executeNext true c).run (host base l) (t0, ⟨cur, none⟩)
    r.2.2 = ⟨cur, none⟩ ∧ r.1.2.pfx = c.pfx := by
  intro r
  have hr := Prog.runs_run (host base l) (executeNext true c) (t0, ⟨cur, none⟩)
  have hf := fair_host base l (executeNext true c) (t0, ⟨cur, none⟩)
  have hs := run_seen base l (executeNext true c) t0 ⟨cur, none⟩
  generalize (executeNext true c).trace (host base l) (t0, ⟨cur, none⟩) = t at hr hf hs
  cases Prog.runs_wp hr (ok_next true c) with
  | irq ts u ht ha h =>
    subst ht
    exact absurd rfl ((hf _ (.tail _ (.head _))).2 ts)
  | instr q hq ts ir code u ht h hk => rw [h] at hh; cases hh
  | halted q hq ts ht h he hc =>
    refine ⟨?_, by rw [show r.1.2 = _ from hc]; rfl⟩
    have ha : acks t = 0 := by
      rw [ht, acks_append, acks_instr (isInstr_body hq)]
      rfl
    rw [show r.2.2 = _ from hs, C38_halted hr hh ha]
    rfl

end

end Z80.Disasm
