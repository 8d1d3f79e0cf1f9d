import Verif.Proofs.Record
import Verif.Model.OpConsts
import Verif.Spec.Timing

/-!
# The second byte in the record of an ED instruction
-/

set_option linter.constructorNameAsVariable false
set_option linter.unusedSimpArgs false
set_option linter.unusedTactic false

namespace Z80
open Ex

variable {σ : Sig} {Q : Type} [Flavour Q]

theorem ed_body {a : U16} (m : ME) (c1 : U8) :
    Rep (· ≠ .ub) (fun l _ _ => l.take 2 = [0xED#8, c1]) a none [0xED#8, c1] (instrE m 0xED#8 c1 : Ex σ Q _) := by
  cases m
  all_goals
    unfold instrE
    walk Z80.Rep
    all_goals first
      | rfl
      | (walk Z80.Flat <;> rfl; done)
      | (walk Z80.Silent <;> rfl; done)
      | exact fun h => h rfl
      | skip

/-- The record of an ED instruction starts with ED and the byte fetched after it. -/
def TwoBytes (t : List (Ev σ)) : Prop :=
  ∃ c1 u d v l, t = u ++ ⟨.debug d, ()⟩ :: v ∧ debugs u = 0 ∧ debugs v = 0 ∧ (Spec.opcodesOf t).head? = some c1 ∧
    d.code = 0xED#8 :: c1 :: l

theorem plain_two {s : St Q} (hd : s.deb = true) (hp : s.pfx = none) :
    (executePlain (σ := σ) 0xED#8 s).wp fun t r => r.1 ≠ .ub → TwoBytes t := by
  show (instr0 (σ := σ) .ed 0xED#8 s).wp _
  intro ts (c1 : U8)
  show ((match decodeE c1 with
    | some m => instrE m 0xED#8 c1
    | none => pure .ub : Ex σ Q (Exit σ)) _).wp _
  cases hm : decodeE c1 with
  | none => exact fun h => absurd rfl h
  | some m =>
    refine Prog.wp_mono ?_ (ed_body (a := s.pc - 1#16) m c1 _ ?_ ?_ ?_)
    · intro t r h hok
      obtain ⟨u, d, v, l', rfl, hu, hv, hd, -⟩ := h hok
      obtain ⟨l, hl⟩ : ∃ l, l' = 0xED#8 :: c1 :: l := by
        have := hd.ok
        match l', this with
        | x :: y :: l, h => simp only [List.take_succ_cons, List.cons.injEq] at h; exact ⟨l, by rw [h.1, h.2.1]⟩
      refine ⟨c1, ⟨.addM1 s.pc, ts⟩ :: ⟨.readOpcode s.pc _ ts, c1⟩ :: u, d, v, l, rfl, ?_, hv, rfl, ?_⟩
      · exact debugs_of_louds hu
      · rw [hd.code, hl]
        rfl
    · exact hd
    · show s.pc + 1#16 = s.pc - 1#16 + 2#16
      rw [← BitVec.sub_add_cancel s.pc 1#16, BitVec.add_assoc, BitVec.add_sub_cancel]
      rfl
    · exact hp

theorem code_two {s : St Q} (hd : s.deb = true) :
    (executeCode (σ := σ) 0xED#8 s).wp fun t r => r.1 ≠ .ub → TwoBytes t := by
  obtain ⟨cpu, fl, pc, pfx, deb⟩ := s
  cases pfx with
  | none =>
    show (executePlain 0xED#8 ⟨_, fl, pc, none, deb⟩).wp _
    exact plain_two hd rfl
  | some p =>
    show (executePlain 0xED#8 ⟨_, fl, pc, none, deb⟩).wp _
    exact plain_two hd rfl

theorem instruction_two (c : Cpu Q) : (executeInstruction (σ := σ) true 0xED#8 c).wp fun t _ => TwoBytes t := by
  have h1 := code_two (σ := σ) (s := Cpu.load { c with lastEi := false, halt := false } true) rfl
  refine (Prog.wp_iff _ _).2 fun t r hr => ?_
  have hu := (Prog.runs_wp hr (ok_instruction true 0xED#8 c)).noUb
  obtain ⟨r', hr', rfl⟩ := Prog.runs_map.1 hr
  exact Prog.runs_wp hr' h1 fun h => hu (by rw [h]; rfl)

/-- What the record of an instruction tells: it starts with the opcode, unless that is changed by a prefix, and ends
where the program counter points to when the operands are read. -/
theorem instruction_record {op : U8} {c : Cpu Q} {t : List (Ev σ)} {r : Res σ × Cpu Q}
    (h : (executeInstruction true op c).Runs t r) (hp : Spec.isPrefix op = false) :
    ∃ d l, records t = [d] ∧ d.code = pfxBytes (effective c.pfx op) ++ op :: l ∧
      d.pc + BitVec.ofNat 16 d.code.length = c.pc + BitVec.ofNat 16 l.length ∧
      1 + l.length = Spec.length (effective c.pfx op).isSome op (l.headD 0) ∧
      (op = 0xED#8 → ∃ c1, l.head? = some c1 ∧ (Spec.opcodesOf t).head? = some c1) := by
  have h1 := Prog.runs_wp h (record_instruction op c)
  rw [hp, if_neg Bool.false_ne_true] at h1
  obtain ⟨d, l, hr, hd⟩ := h1.records_eq
  refine ⟨d, l, hr, hd.code, ?_, ?_, ?_⟩
  · rw [hd.code, hd.pc, List.length_append, BitVec.ofNat_add, ← BitVec.add_assoc, BitVec.sub_add_cancel,
      List.length_cons, Nat.add_comm l.length 1, BitVec.ofNat_add, ← BitVec.add_assoc, BitVec.sub_add_cancel]
  · have := hd.ok.1.1
    rw [List.length_cons] at this
    rw [Nat.add_comm, this]
    cases l <;> rfl
  · rintro rfl
    obtain ⟨c1, u, d', v, l', rfl, hu, hv, ho, hc⟩ := Prog.runs_wp h (instruction_two c)
    refine ⟨c1, ?_, ho⟩
    rw [records_append, records_nil.2 hu] at hr
    have e : d' = d := by
      have : (d' :: records v : List CpuDebug) = [d] := hr
      exact (List.cons.inj this).1
    have he : effective c.pfx 0xED#8 = none := rfl
    rw [← e] at hd
    have h2 := hd.code
    rw [hc, he] at h2
    have h3 : 0xED#8 :: c1 :: l' = 0xED#8 :: l := h2
    rw [← (List.cons.inj h3).2]
    rfl

end Z80
