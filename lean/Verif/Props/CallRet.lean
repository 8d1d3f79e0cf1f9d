import Verif.Proofs.CallRet
import Verif.Props.Frame
import Verif.Props.Transfer
import Verif.Props.Decode
import Verif.Spec.CallRet

/-!
# C63: opcode constants, and the calls and returns found with them

The masks of `opconsts` select exactly the opcodes they are said to, and `was_just_a_call` and `was_just_a_ret` of the
example computer, given the record of a step and the CPU after it, tell whether that step called or returned.
-/

set_option linter.constructorNameAsVariable false

namespace Z80
open Spec Op

/-! ### The constants -/

/-- C63: the constants are the opcodes of the instructions they are named after. -/
theorem C63_named : decode NOP_OPCODE = .nop ∧ decode HALT_OPCODE = .halt ∧ decode DI_OPCODE = .di ∧
    decode EI_OPCODE = .ei ∧ decode RET_OPCODE = .ret ∧ decode CALL_OPCODE = .call ∧ decode JP_OPCODE = .jp ∧
    decode JR_OPCODE = .jr ∧ decode DJNZ_OPCODE = .djnz ∧ decode ED_PREFIX = .ed ∧ decode DD_PREFIX = .dd ∧
    decode FD_PREFIX = .fd ∧ decode RETI_OPCODE_T2.1 = .ed ∧ decodeEd RETI_OPCODE_T2.2 = .reti ∧
    decode RETN_OPCODE_T2.1 = .ed ∧ decodeEd RETN_OPCODE_T2.2 = .retn ∧
    [RST_00H_OPCODE, RST_08H_OPCODE, RST_10H_OPCODE, RST_18H_OPCODE, RST_20H_OPCODE, RST_28H_OPCODE, RST_30H_OPCODE,
      RST_38H_OPCODE].map decode = (List.range 8).map I0.rst := by decide +kernel

/-- C63: no other opcode is one of these instructions. -/
theorem C63_unique (op : U8) : (decode op = .nop → op = NOP_OPCODE) ∧ (decode op = .halt → op = HALT_OPCODE) ∧
    (decode op = .di → op = DI_OPCODE) ∧ (decode op = .ei → op = EI_OPCODE) ∧ (decode op = .ret → op = RET_OPCODE) ∧
    (decode op = .call → op = CALL_OPCODE) ∧ (decode op = .jp → op = JP_OPCODE) ∧ (decode op = .jr → op = JR_OPCODE) ∧
    (decode op = .djnz → op = DJNZ_OPCODE) ∧ (decode op = .ed → op = ED_PREFIX) ∧ (decode op = .dd → op = DD_PREFIX) ∧
    (decode op = .fd → op = FD_PREFIX) :=
  of_decide_eq_true (all8_spec (p := fun op => decide ((decode op = .nop → op = NOP_OPCODE) ∧
    (decode op = .halt → op = HALT_OPCODE) ∧ (decode op = .di → op = DI_OPCODE) ∧ (decode op = .ei → op = EI_OPCODE) ∧
    (decode op = .ret → op = RET_OPCODE) ∧ (decode op = .call → op = CALL_OPCODE) ∧ (decode op = .jp → op = JP_OPCODE) ∧
    (decode op = .jr → op = JR_OPCODE) ∧ (decode op = .djnz → op = DJNZ_OPCODE) ∧ (decode op = .ed → op = ED_PREFIX) ∧
    (decode op = .dd → op = DD_PREFIX) ∧ (decode op = .fd → op = FD_PREFIX))) (by decide +kernel) op)

/-- The condition with a code. -/
def ccAt : Fin 8 → Cc
  | 0 => .nz | 1 => .z | 2 => .nc | 3 => .c | 4 => .po | 5 => .pe | 6 => .p | 7 => .m

theorem ccAt_num (k : Cc) : ∃ i, ccAt i = k := by cases k <;> decide

/-- C63: the masks and bases match an opcode exactly if it is a conditional instruction of the kind, and
`Condition::from_code`, for `JR cc` `Condition::from_jr_subset`, gives its condition. -/
theorem C63_match (op : U8) (k : Cc) :
    (decode op = .retCc k ↔ op &&& RET_CC_OPMASK = RET_CC_OPBASE ∧ Cond.fromCode op = ccOf k) ∧
    (decode op = .callCc k ↔ op &&& CALL_CC_OPMASK = CALL_CC_OPBASE ∧ Cond.fromCode op = ccOf k) ∧
    (decode op = .jpCc k ↔ op &&& JP_CC_OPMASK = JP_CC_OPBASE ∧ Cond.fromCode op = ccOf k) ∧
    (decode op = .jrCc k ↔ op &&& JR_CC_OPMASK = JR_CC_OPBASE ∧ Cond.fromJrSubset op = ccOf k) := by
  obtain ⟨i, rfl⟩ := ccAt_num k
  have := all8_spec (p := fun op => decide (∀ i : Fin 8,
    (decode op = .retCc (ccAt i) ↔ op &&& RET_CC_OPMASK = RET_CC_OPBASE ∧ Cond.fromCode op = ccOf (ccAt i)) ∧
    (decode op = .callCc (ccAt i) ↔ op &&& CALL_CC_OPMASK = CALL_CC_OPBASE ∧ Cond.fromCode op = ccOf (ccAt i)) ∧
    (decode op = .jpCc (ccAt i) ↔ op &&& JP_CC_OPMASK = JP_CC_OPBASE ∧ Cond.fromCode op = ccOf (ccAt i)) ∧
    (decode op = .jrCc (ccAt i) ↔ op &&& JR_CC_OPMASK = JR_CC_OPBASE ∧ Cond.fromJrSubset op = ccOf (ccAt i))))
    (by decide +kernel) op
  exact of_decide_eq_true this i

/-- C63: `RST` and the returns after ED. -/
theorem C63_match_rst (op : U8) (y : Fin 8) :
    (decode op = .rst y ↔ op &&& RST_OPMASK = RST_OPBASE ∧ op &&& 0x38 = BitVec.ofNat 8 (8 * y)) ∧
    (decodeEd op = .retn ∨ decodeEd op = .reti ↔ op &&& RETN_OP2_MASK = RETN_OP2_BASE) := by
  have := all8_spec (p := fun op => decide (∀ y : Fin 8,
    (decode op = .rst y ↔ op &&& RST_OPMASK = RST_OPBASE ∧ op &&& 0x38 = BitVec.ofNat 8 (8 * y)) ∧
    (decodeEd op = .retn ∨ decodeEd op = .reti ↔ op &&& RETN_OP2_MASK = RETN_OP2_BASE))) (by decide +kernel) op
  exact of_decide_eq_true this y

/-- C63: building instructions from a base and a condition, or an address; `JR` has the conditions NZ, Z, NC and C. -/
theorem C63_build (k : Cc) :
    decode (RET_CC_OPBASE ||| (ccOf k).toCode) = .retCc k ∧ decode (CALL_CC_OPBASE ||| (ccOf k).toCode) = .callCc k ∧
    decode (JP_CC_OPBASE ||| (ccOf k).toCode) = .jpCc k ∧
    ((k = .nz ∨ k = .z ∨ k = .nc ∨ k = .c) → decode (JR_CC_OPBASE ||| (ccOf k).toCode) = .jrCc k) ∧
    ∀ y : Fin 8, decode (RST_OPBASE ||| BitVec.ofNat 8 (8 * y)) = .rst y := by
  cases k <;> decide +kernel

/-! ### What a step does to SP and PC -/

variable {Q : Type} [FlavourSpec Q] {σ : Sig}

/-- Does the instruction with opcode `op` call, with flags `f`? -/
def callsNow (op f : U8) : Bool :=
  match decode op with
  | .call | .rst _ => true
  | .callCc k => condOf k f
  | _ => false

/-- Does the instruction with opcode `op`, followed by `c1`, return, with flags `f`? -/
def returnsNow (op c1 f : U8) : Bool :=
  match decode op with
  | .ret => true
  | .retCc k => condOf k f
  | .ed => decide (decodeEd c1 = .retn ∨ decodeEd c1 = .reti)
  | _ => false

theorem cond_satisfied (k : Cc) (f : U8) : (ccOf k).isSatisfied f = condOf k f := by
  cases k
  all_goals
    revert f
    exact fun f => of_decide_eq_true (all8_spec (p := fun f => decide (_ = _)) (by decide +kernel) f)

theorem call_of_record {d : CpuDebug} {op : U8} {l : List U8} {p : Option Prefix} (c : Cpu Q)
    (hc : d.code = pfxBytes (effective p op) ++ op :: l) :
    wasJustACall d c = some (callsNow op c.getFlags) := by
  have hi := fun (h : Spec.indexed op = true) =>
    all8_spec (p := fun op => !Spec.indexed op || !((decode op).jumps) || decide (decode op = .jpHl)) (by decide +kernel) op
  have plain : wasJustACall ⟨op :: l, d.mnemonic, d.pc, d.pfx, d.args⟩ c = some (callsNow op c.getFlags) := by
    unfold wasJustACall callsNow
    show (if op = CALL_OPCODE then some true else if op &&& RST_OPMASK = RST_OPBASE then some true
      else if op &&& CALL_CC_OPMASK = CALL_CC_OPBASE then some ((Cond.fromCode op).isSatisfied c.getFlags)
      else some false) = _
    have h1 := all8_spec (p := fun op => decide (
      ((op = CALL_OPCODE ∨ op &&& RST_OPMASK = RST_OPBASE) ↔ decode op = .call ∨ ∃ y : Fin 8, decode op = .rst y)))
      (by decide +kernel) op
    have h2 := fun k => (C63_match op k).2.1
    have h3 : ∀ y, decode op = .rst y → ∃ y : Fin 8, decode op = .rst y := by
      intro y h
      have := all8_spec (p := fun op => match decode op with | .rst y => decide (y < 8) | _ => true) (by decide +kernel) op
      rw [h] at this
      exact ⟨⟨y, of_decide_eq_true this⟩, h⟩
    have h1 := of_decide_eq_true h1
    by_cases hk : op = CALL_OPCODE ∨ op &&& RST_OPMASK = RST_OPBASE
    · have e : (if op = CALL_OPCODE then some true else if op &&& RST_OPMASK = RST_OPBASE then some true
        else if op &&& CALL_CC_OPMASK = CALL_CC_OPBASE then some ((Cond.fromCode op).isSatisfied c.getFlags)
        else some false) = some true := by
        split
        · rfl
        · next hn => rw [if_pos (hk.resolve_left hn)]
      rw [e]
      rcases h1.1 hk with h | ⟨y, h⟩ <;> rw [h]
    · rw [if_neg fun h => hk (.inl h), if_neg fun h => hk (.inr h)]
      by_cases hm : op &&& CALL_CC_OPMASK = CALL_CC_OPBASE
      · rw [if_pos hm]
        obtain ⟨k, hk⟩ : ∃ k, Cond.fromCode op = ccOf k := by
          generalize Cond.fromCode op = x
          cases x
          exacts [⟨.nz, rfl⟩, ⟨.z, rfl⟩, ⟨.nc, rfl⟩, ⟨.c, rfl⟩, ⟨.po, rfl⟩, ⟨.pe, rfl⟩, ⟨.p, rfl⟩, ⟨.m, rfl⟩]
        rw [(h2 k).2 ⟨hm, hk⟩, hk, cond_satisfied]
      · rw [if_neg hm]
        generalize hd : decode op = k at h1
        cases k <;> first
          | rfl
          | exact absurd (h1.2 (.inl rfl)) hk
          | (rename_i k; exact absurd ((h2 k).1 hd).1 hm)
          | (rename_i y; exact absurd (h1.2 (.inr ((h3 y hd).imp fun _ e => hd.symm.trans e))) hk)
  have hcode : ∀ l' : List U8, d.code = l' → wasJustACall d c = wasJustACall ⟨l', d.mnemonic, d.pc, d.pfx, d.args⟩ c := by
    rintro l' rfl
    rfl
  rw [hcode _ hc]
  unfold effective
  split
  · next hx =>
    cases p with
    | none => exact plain
    | some q =>
      have hj := hi hx
      have e : callsNow op c.getFlags = false := by
        unfold callsNow
        generalize decode op = k at hj
        rw [hx] at hj
        cases k <;> first | rfl | cases hj
      rw [e]
      cases q <;> rfl
  · exact plain

theorem ret_of_record {d : CpuDebug} {op c1 : U8} {l : List U8} {p : Option Prefix} (c : Cpu Q)
    (hc : d.code = pfxBytes (effective p op) ++ op :: l) (h1 : op = 0xED#8 → l.head? = some c1) :
    wasJustARet d c = some (returnsNow op c1 c.getFlags) := by
  have hcode : ∀ l' : List U8, d.code = l' → wasJustARet d c = wasJustARet ⟨l', d.mnemonic, d.pc, d.pfx, d.args⟩ c := by
    rintro l' rfl
    rfl
  rw [hcode _ hc]
  have hu := C63_unique op
  have hn := C63_named
  have plain : wasJustARet ⟨op :: l, d.mnemonic, d.pc, d.pfx, d.args⟩ c = some (returnsNow op c1 c.getFlags) := by
    by_cases hr : op = RET_OPCODE
    · subst hr
      rfl
    by_cases he : op = ED_PREFIX
    · subst he
      obtain ⟨x, l, rfl⟩ : ∃ x l', l = x :: l' := by
        cases l with
        | nil => cases h1 rfl
        | cons x l => exact ⟨x, l, rfl⟩
      have : x = c1 := Option.some.inj (h1 rfl)
      subst this
      have hm := (C63_match_rst x 0).2
      show (if x &&& RETN_OP2_MASK = RETN_OP2_BASE then some true else some (wasJustARetCc ED_PREFIX c)) =
        some (decide (decodeEd x = .retn ∨ decodeEd x = .reti))
      by_cases hx : x &&& RETN_OP2_MASK = RETN_OP2_BASE
      · rw [if_pos hx, decide_eq_true (hm.2 hx)]
      · rw [if_neg hx, decide_eq_false fun h => hx (hm.1 h)]
        rfl
    · have e : wasJustARet ⟨op :: l, d.mnemonic, d.pc, d.pfx, d.args⟩ c = some (wasJustARetCc op c) := by
        show (if op = RET_OPCODE then some true else if op = ED_PREFIX then _ else _) = _
        rw [if_neg hr, if_neg he]
      rw [e]
      unfold wasJustARetCc returnsNow
      by_cases hm : op &&& RET_CC_OPMASK = RET_CC_OPBASE
      · rw [if_pos hm]
        obtain ⟨k, hk⟩ : ∃ k, Cond.fromCode op = ccOf k := by
          generalize Cond.fromCode op = x
          cases x
          exacts [⟨.nz, rfl⟩, ⟨.z, rfl⟩, ⟨.nc, rfl⟩, ⟨.c, rfl⟩, ⟨.po, rfl⟩, ⟨.pe, rfl⟩, ⟨.p, rfl⟩, ⟨.m, rfl⟩]
        rw [(C63_match op k).1.2 ⟨hm, hk⟩, hk, cond_satisfied]
      · rw [if_neg hm]
        generalize hd : decode op = k at hu
        cases k <;> first
          | rfl
          | exact absurd (hu.2.2.2.2.1 rfl) hr
          | exact absurd (hu.2.2.2.2.2.2.2.2.2.1 rfl) he
          | (rename_i k; exact absurd ((C63_match op k).1.1 hd).1 hm)
  unfold effective
  split
  · next hx =>
    cases p with
    | none => exact plain
    | some q =>
      have hj := all8_spec (p := fun op => !Spec.indexed op || !((decode op).jumps || decide (decode op = .ed)) ||
        decide (decode op = .jpHl)) (by decide +kernel) op
      have e : returnsNow op c1 c.getFlags = false := by
        unfold returnsNow
        generalize decode op = k at hj
        rw [hx] at hj
        cases k <;> first | rfl | cases hj
      rw [e]
      cases q <;> rfl
  · exact plain

/-- `RETN` and `RETI`. -/
theorem retn_executed {deb : Bool} {c c' : Cpu Q} {t : List (Ev σ)} {e : Res σ}
    (h : (executeInstruction deb 0xED#8 c).Runs t (e, c'))
    (hr : decodeEd ((opcodesOf t).headD 0) = .retn ∨ decodeEd ((opcodesOf t).headD 0) = .reti) :
    Returned c.getSp c'.getSp c'.getPc t := by
  obtain ⟨l, x, h1, h2, h3, -⟩ := drives_path (drive_instruction deb 0xED#8 c) h
  rw [← opcodes_filter, performs_opcodes h2] at hr
  have ht : traffic t = l.filterMap Cyc.access? := by rw [← access_filter, performs_access h2]
  have hsp : c'.getSp = x.1.sp := congrArg Regs.sp h3
  have hpc : c'.getPc = x.1.pc := congrArg Regs.pc h3
  unfold Returned
  rw [ht, hsp, hpc, show c.getSp = (abs c).sp from rfl]
  generalize abs c = r at h1 ⊢
  change Tree.Path (.m1 _ _ _) l x at h1
  cases h1 with
  | @m1 _ _ _ c1 l _ h1 =>
    have hr : decodeEd c1 = .retn ∨ decodeEd c1 = .reti := hr
    dsimp only at h1
    rcases hr with e | e <;> rw [e] at h1
    · refine ends_path (P := fun l x => ∃ v, List.filterMap Cyc.access? l = [.read16 r.sp v] ∧ x.1.sp = r.sp + 2 ∧
        x.1.pc = v) ?_ h1
      exact fun v => ⟨v, rfl, rfl, rfl⟩
    · refine ends_path (P := fun l x => ∃ v, List.filterMap Cyc.access? l = [.read16 r.sp v] ∧ x.1.sp = r.sp + 2 ∧
        x.1.pc = v) ?_ h1
      exact fun _ v => ⟨v, rfl, rfl, rfl⟩

/-- What an instruction does to SP and PC; `n` is the number of bytes after the opcode. -/
theorem flow_instruction {deb : Bool} {op : U8} {c c' : Cpu Q} {t : List (Ev σ)} {e : Res σ} {n : Nat}
    (h : (executeInstruction deb op c).Runs t (e, c')) (hp : Spec.isPrefix op = false)
    (hn : 1 + n = Spec.length (effective c.pfx op).isSome op ((opcodesOf t).headD 0)) :
    if callsNow op c.getFlags then Called (c.getPc + BitVec.ofNat 16 n) c.getSp c'.getSp c'.getPc t
    else if returnsNow op ((opcodesOf t).headD 0) c.getFlags then Returned c.getSp c'.getSp c'.getPc t
    else c'.getSp = c.getSp ∨ c'.getPc = c.getPc + BitVec.ofNat 16 n := by
  obtain ⟨hpc, hloc⟩ := frame_instruction h
  have hsp : Loc.sp ∉ changes op (abs c) (opcodesOf t) (bytesOf t) → c'.getSp = c.getSp :=
    fun hg => BitVec.eq_of_toNat_eq (hloc .sp hg)
  have hst : straight op ((opcodesOf t).headD 0) = true → c'.getPc = c.getPc + BitVec.ofNat 16 n := by
    intro hs
    have h1 := pc_straight (r := { abs c with pc := c.getPc - 1 }) (bytes := bytesOf t) (words := wordsOf t) hs
    have e : ({ ({ abs c with pc := c.getPc - 1 } : Regs) with pc := c.getPc - 1 + 1 } : Regs) = abs c := by
      rw [BitVec.sub_add_cancel]
      rfl
    rw [show ({ ({ abs c with pc := c.getPc - 1 } : Regs) with
      pc := ({ abs c with pc := c.getPc - 1 } : Regs).pc + 1 } : Regs) = abs c from e] at h1
    rw [hpc, h1]
    have hl : length (decide (({ abs c with pc := c.getPc - 1 } : Regs).idx ≠ .hl)) op ((opcodesOf t).headD 0) = 1 + n := by
      rw [hn]
      have hm := all8_spec (p := fun op => !(decode op).memory || Spec.indexed op) (by decide +kernel) op
      have e : decide (({ abs c with pc := c.getPc - 1 } : Regs).idx ≠ .hl) = c.pfx.isSome := by
        show decide (ixOf c.pfx ≠ .hl) = c.pfx.isSome
        rcases c.pfx with _ | _ | _ <;> rfl
      rw [e]
      unfold length effective
      cases hi : Spec.indexed op with
      | true => rfl
      | false =>
        rw [hi] at hm
        have : (decode op).memory = false := by
          cases hk : (decode op).memory with
          | false => rfl
          | true => rw [hk] at hm; cases hm
        rw [this, Bool.and_false, Bool.and_false]
    rw [hl, BitVec.ofNat_add, ← BitVec.add_assoc, show (1#16 : U16) = 1 from rfl]
    exact congrArg (· + _) (BitVec.sub_add_cancel _ _)
  have sj : ∀ k, decode op = k → k.jumps = false → k ≠ .ed → straight op ((opcodesOf t).headD 0) = true := by
    intro k hk hj hne
    unfold straight
    rw [hk, hj, decide_eq_false hne]
    rfl
  have len : ∀ k, decode op = k → k ≠ .ed → k.memory = false → n = k.operands := by
    intro k hk hne hm
    unfold length at hn
    rw [hk, hm, if_neg hne, Bool.and_false] at hn
    simp only [Bool.false_eq_true, if_false] at hn
    omega
  have hu := C63_unique op
  generalize hk : decode op = k at *
  unfold callsNow returnsNow
  rw [hk]
  cases k with
  | call =>
    have ho := hu.2.2.2.2.2.1 rfl
    subst ho
    obtain ⟨-, nn, h1, h2⟩ := C19_executed_call.1 h
    have : n = 2 := len _ rfl nofun rfl
    subst this
    exact ⟨[.read16 c.getPc nn], h1, .inr ⟨_, congrArg (fun x => [Access.read16 c.getPc x])
      (congrArg Obs.pc h2).symm⟩, congrArg Obs.sp h2⟩
  | ret =>
    have ho := hu.2.2.2.2.1 rfl
    subst ho
    obtain ⟨-, v, h1, h2⟩ := C19_executed_ret.1 h
    exact ⟨v, h1, congrArg Obs.sp h2, congrArg Obs.pc h2⟩
  | callCc k =>
    have ho : op = callOp k := by
      obtain ⟨i, rfl⟩ := ccAt_num k
      exact of_decide_eq_true (all8_spec (p := fun op => decide (∀ i, decode op = .callCc (ccAt i) →
        op = callOp (ccAt i))) (by decide +kernel) op) i hk
    subst ho
    have : n = 2 := len _ rfl nofun rfl
    subst this
    obtain ⟨-, nn, h1⟩ := C19_executed_call.2 k h
    dsimp only
    split
    · next hc =>
      rw [if_pos hc] at h1
      exact ⟨[.read16 c.getPc nn], h1.1, .inr ⟨_, congrArg (fun x => [Access.read16 c.getPc x])
        (congrArg Obs.pc h1.2).symm⟩, congrArg Obs.sp h1.2⟩
    · next hc =>
      rw [if_neg hc] at h1
      exact .inl (congrArg Obs.sp h1.2)
  | retCc k =>
    have ho : op = retOp k := by
      obtain ⟨i, rfl⟩ := ccAt_num k
      exact of_decide_eq_true (all8_spec (p := fun op => decide (∀ i, decode op = .retCc (ccAt i) →
        op = retOp (ccAt i))) (by decide +kernel) op) i hk
    subst ho
    obtain ⟨-, h1⟩ := C19_executed_ret.2 k h
    rw [if_neg Bool.false_ne_true]
    dsimp only
    split
    · next hc =>
      rw [if_pos hc] at h1
      obtain ⟨v, h1, h2⟩ := h1
      exact ⟨v, h1, congrArg Obs.sp h2, congrArg Obs.pc h2⟩
    · next hc =>
      rw [if_neg hc] at h1
      exact .inl (congrArg Obs.sp h1.2)
  | rst y =>
    have ho := all8_spec (p := fun op => match decode op with
      | .rst y => decide (y < 8 ∧ op = BitVec.ofNat 8 (0xC7 + 8 * y)) | _ => true) (by decide +kernel) op
    rw [hk] at ho
    obtain ⟨hy, ho⟩ := of_decide_eq_true ho
    subst ho
    have : n = 0 := len _ rfl nofun rfl
    subst this
    obtain ⟨-, h1, h2⟩ := C19_executed_rst ⟨y, hy⟩ h
    refine ⟨[], ?_, .inl rfl, congrArg Obs.sp h2⟩
    rw [BitVec.add_zero]
    exact h1
  | ed =>
    have ho : op = 0xED#8 := hu.2.2.2.2.2.2.2.2.2.1 rfl
    subst ho
    dsimp only
    split
    · contradiction
    split
    · next hd => exact retn_executed h (of_decide_eq_true hd)
    · next hd =>
      have hd : ¬ (decodeEd ((opcodesOf t).headD 0) = .retn ∨ decodeEd ((opcodesOf t).headD 0) = .reti) :=
        fun x => hd (decide_eq_true x)
      have hc : changes 0xED#8 (abs c) (opcodesOf t) (bytesOf t) = changesEd (decodeEd ((opcodesOf t).headD 0)) := rfl
      have hj : straight 0xED#8 ((opcodesOf t).headD 0) = !(decodeEd ((opcodesOf t).headD 0)).jumps := rfl
      rw [hc] at hsp
      rw [hj] at hst
      generalize decodeEd ((opcodesOf t).headD 0) = k at hsp hst hd
      cases k with
      | retn => exact absurd (.inl rfl) hd
      | reti => exact absurd (.inr rfl) hd
      | blk b d rep =>
        refine .inl (hsp ?_)
        cases b <;> simp [changesEd]
      | _ => exact .inr (hst rfl)
  | dd | fd => 
    exact absurd hp (by first | (rw [hu.2.2.2.2.2.2.2.2.2.2.1 rfl]; decide) | (rw [hu.2.2.2.2.2.2.2.2.2.2.2 rfl]; decide))
  | jp | jpCc | jpHl | jr | jrCc | djnz | halt =>
    refine .inl (hsp ?_)
    unfold changes
    rw [hk]
    first | exact List.not_mem_nil | (show Loc.sp ∉ [Loc.b]; decide)
  | _ => exact .inr (hst (sj _ rfl rfl nofun))

theorem flags_kept {deb : Bool} {op : U8} {c c' : Cpu Q} {t : List (Ev σ)} {e : Res σ} (x : U8)
    (h : (executeInstruction deb op c).Runs t (e, c')) :
    callsNow op c'.getFlags = callsNow op c.getFlags ∧ returnsNow op x c'.getFlags = returnsNow op x c.getFlags := by
  have hf : Loc.f ∉ changes op (abs c) (opcodesOf t) (bytesOf t) → c'.getFlags = c.getFlags :=
    fun hg => BitVec.eq_of_toNat_eq ((frame_instruction h).2 .f hg)
  unfold changes at hf
  unfold callsNow returnsNow
  generalize decode op = k at hf
  cases k <;> first
    | exact ⟨rfl, rfl⟩
    | (rw [hf (by show Loc.f ∉ [Loc.sp]; decide)]; exact ⟨rfl, rfl⟩)

/-- The address after the bytes of a record. -/
def CpuDebug.next (d : CpuDebug) : U16 := d.pc + BitVec.ofNat 16 d.code.length

/-- What `was_just_a_call` and `was_just_a_ret` tell of a step from SP `sp` with host calls `t` and record `d`, after
which the CPU is `c'`: neither panics, a call they tell of has pushed the address after the recorded instruction, a return
has taken PC from the stack, and if they tell of neither then SP is where it was or execution goes on after the recorded
instruction. -/
def Told (d : CpuDebug) (sp : U16) (c' : Cpu Q) (t : List (Ev σ)) : Prop :=
  ∃ b r, wasJustACall d c' = some b ∧ wasJustARet d c' = some r ∧
    (b = true → Called d.next sp c'.getSp c'.getPc t) ∧ (r = true → Returned sp c'.getSp c'.getPc t) ∧
    (b = false → r = false → c'.getSp = sp ∨ c'.getPc = d.next)

/-- C63: `execute_instruction` with a debugger, on any host and with any opcode but a prefix. -/
theorem C63_execute_instruction {op : U8} {c c' : Cpu Q} {t : List (Ev σ)} {e : Res σ}
    (h : (executeInstruction true op c).Runs t (e, c')) (hp : Spec.isPrefix op = false) :
    ∃ d, records t = [d] ∧ Told d c.getSp c' t := by
  obtain ⟨d, l, hr, hc, hnext, hlen, hed⟩ := instruction_record h hp
  have hlen' : 1 + l.length = Spec.length (effective c.pfx op).isSome op ((opcodesOf t).headD 0) := by
    rw [hlen]
    by_cases ho : op = 0xED#8
    · obtain ⟨c1, h1, h2⟩ := hed ho
      cases l with
      | nil => cases h1
      | cons x l =>
        cases hx : opcodesOf t with
        | nil => rw [hx] at h2; cases h2
        | cons y m =>
          rw [hx] at h2
          cases h1
          cases h2
          rfl
    · have : decode op ≠ .ed := fun hd => ho ((C63_unique op).2.2.2.2.2.2.2.2.2.1 hd)
      unfold length
      rw [if_neg this, if_neg this]
  have hflow := flow_instruction h hp hlen'
  have hk := flags_kept ((opcodesOf t).headD 0) h
  refine ⟨d, hr, _, _, call_of_record c' hc, ret_of_record c' hc (c1 := (opcodesOf t).headD 0) ?_, ?_, ?_, ?_⟩
  · intro ho
    obtain ⟨c1, h1, h2⟩ := hed ho
    cases hx : opcodesOf t with
    | nil => rw [hx] at h2; cases h2
    | cons y m =>
      rw [hx] at h2
      cases h2
      exact h1
  · intro hb
    rw [hk.1] at hb
    rw [if_pos hb] at hflow
    show Called (d.pc + BitVec.ofNat 16 d.code.length) _ _ _ _
    rw [hnext]
    exact hflow
  · intro hb
    rw [hk.2] at hb
    have hnc : callsNow op c.getFlags = false := by
      unfold returnsNow at hb
      unfold callsNow
      generalize decode op = k at hb
      cases k <;> first | rfl | cases hb
    rw [hnc, if_neg Bool.false_ne_true, if_pos hb] at hflow
    exact hflow
  · intro hb hb'
    rw [hk.1] at hb
    rw [hk.2] at hb'
    rw [hb, hb', if_neg Bool.false_ne_true, if_neg Bool.false_ne_true] at hflow
    show _ ∨ _ = d.pc + BitVec.ofNat 16 d.code.length
    rw [hnext]
    exact hflow

/-- The ways of an `execute_next` that executes an instruction: after calls `q` without data traffic and records. -/
def Enters (c : Cpu Q) (t : List (Ev σ)) (r : Res σ × Cpu Q) : Prop :=
  ∃ q op c1 u, t = q ++ u ∧ records q = [] ∧ traffic q = [] ∧ c1.getSp = c.getSp ∧
    (executeInstruction true op c1).Runs u r

theorem wake_sp (c : Cpu Q) : c.disableInterrupts.incR.wake.getSp = c.getSp := by
  unfold Cpu.wake
  split <;> rfl
theorem wake_im (c : Cpu Q) : c.disableInterrupts.incR.wake.im = c.im := by
  unfold Cpu.wake
  split <;> rfl

theorem enters_irq (c : Cpu Q) (hm : c.getIm ≠ .mode2) :
    (irqNoCheck (σ := σ) true c).wp fun t r => Enters c t r := by
  have hsp := wake_sp c
  have him := wake_im c
  have hm : c.im ≠ .mode2 := hm
  rw [← him] at hm
  unfold irqNoCheck
  simp only []
  generalize c.disableInterrupts.incR.wake = c1 at *
  refine wp_ask fun ts => wp_ask fun v => wp_askWait fun w hw => ?_
  have h1 : records (⟨.addIrq c1.pc, ts⟩ :: ⟨.irqData c1.pc ts, v⟩ :: w : List (Ev σ)) = [] ∧
      traffic (⟨.addIrq c1.pc, ts⟩ :: ⟨.irqData c1.pc ts, v⟩ :: w : List (Ev σ)) = [] := by
    constructor
    · show records w = []
      induction w with
      | nil => rfl
      | cons e w ih =>
        obtain ⟨x, _, rfl⟩ := hw e (.head _)
        exact ih fun e he => hw e (.tail _ he)
    · show traffic w = []
      refine List.filterMap_eq_nil_iff.2 fun e he => ?_
      obtain ⟨x, _, rfl⟩ := hw e he
      rfl
  cases hi : c1.im with
  | mode0 =>
    exact (Prog.wp_iff _ _).2 fun u r hr => ⟨_ :: _ :: w, v.1, c1, u, rfl, h1.1, h1.2, hsp, hr⟩
  | mode1 =>
    exact (Prog.wp_iff _ _).2 fun u r hr => ⟨_ :: _ :: w, 0xFF#8, c1, u, rfl, h1.1, h1.2, hsp, hr⟩
  | mode2 => exact absurd hi hm

theorem enters_next (c : Cpu Q) :
    (executeNext (σ := σ) true c).wp fun t r => c.getIm ≠ .mode2 ∨ Spec.ackOf t = [] → records t = [] ∨ Enters c t r := by
  have rest : ∀ q : List (Ev σ), records q = [] → traffic q = [] →
      ((if c.halt then (haltStep c).bind fun c => pure (.ok, c) else fetchExecute true c :
        Prog σ (Res σ × Cpu Q))).wp fun t r => records (q ++ t) = [] ∨ Enters c (q ++ t) r := by
    intro q hq hq'
    by_cases hh : c.halt = true
    · rw [if_pos hh]
      intro ts
      left
      rw [records_append, hq]
      rfl
    · rw [if_neg hh]
      intro ts code
      refine (Prog.wp_iff _ _).2 fun u r hr => .inr ⟨q ++ [⟨.addM1 c.pc, ts⟩, ⟨.readOpcode c.pc _ ts, code⟩], code, _, u,
        by rw [List.append_assoc]; rfl, ?_, ?_, ?_, hr⟩
      · rw [records_append, hq]
        rfl
      · unfold traffic at hq' ⊢
        rw [List.filterMap_append, hq']
        rfl
      · rfl
  unfold executeNext
  refine wp_askIrq ?_ ?_
  · intro _
    exact Prog.wp_mono (fun t r h _ => h) (rest [] rfl rfl)
  · intro ts a hb
    cases a with
    | true =>
      by_cases hm : c.getIm = .mode2
      · refine (Prog.wp_iff _ _).2 fun u r hr h => ?_
        rcases h with h | h
        · exact absurd hm h
        · obtain ⟨v, ts', w, u', -, ht⟩ := Prog.runs_wp hr (ok_irqNoCheck true c)
          subst ht
          cases h
      · refine Prog.wp_mono (fun t r h _ => .inr ?_) (enters_irq c hm)
        obtain ⟨q, op, c1, u, rfl, h1, h2, h3, h4⟩ := h
        exact ⟨⟨.asTimestamp, ts⟩ :: ⟨.isIrq ts, true⟩ :: q, op, c1, u, rfl, h1, h2, h3, h4⟩
    | false =>
      exact Prog.wp_mono (fun t r h _ => h) (rest [⟨.asTimestamp, ts⟩, ⟨.isIrq ts, false⟩] rfl rfl)

/-- C63: every step of `execute_next` on any host of which there is a record, except the acceptance of an interrupt in mode
2, which calls its handler but is recorded as a jump. -/
theorem C63_execute_next {c c' : Cpu Q} {t : List (Ev σ)} {e : Res σ} {d : CpuDebug}
    (h : (executeNext true c).Runs t (e, c')) (hd : d ∈ records t) (hm : c.getIm ≠ .mode2 ∨ Spec.ackOf t = []) :
    Told d c.getSp c' t := by
  rcases Prog.runs_wp h (enters_next c) hm with h1 | ⟨q, op, c1, u, rfl, h1, h2, h3, h4⟩
  · rw [h1] at hd
    cases hd
  · rw [records_append, h1, List.nil_append] at hd
    have ht : traffic (q ++ u) = traffic u := by
      unfold traffic at h2 ⊢
      rw [List.filterMap_append, h2]
      rfl
    cases hp : Spec.isPrefix op with
    | true =>
      have := Prog.runs_wp h4 (record_instruction op c1)
      rw [if_pos hp] at this
      rw [this] at hd
      cases hd
    | false =>
      obtain ⟨d', hr, hT⟩ := C63_execute_instruction h4 hp
      rw [hr] at hd
      cases List.mem_singleton.1 hd
      rw [h3] at hT
      unfold Told Called Returned at hT ⊢
      rw [ht]
      exact hT

/-- `RET` after a prefix it does not use, `CALL NZ` with Z clear and set, `RETI`, `POP BC`: what is told. Each step is one
to which `C63_execute_next` applies. -/
example :
    let go := fun (l : List U8) (c : Cpu NMOS) => (executeNext true c).run demo (0, program l, ())
    let tr := fun (l : List U8) (c : Cpu NMOS) => (executeNext true c).trace demo (0, program l, ())
    let say := fun (l : List U8) (c : Cpu NMOS) => (records (tr l c)).map fun d =>
      (wasJustACall d (go l c).1.2, wasJustARet d (go l c).1.2)
    let c : Cpu NMOS := { Cpu.new with sp := 0x8000#16 }
    let z : Cpu NMOS := { c with af := ⟨0, 0x40⟩ }
    let nz : Cpu NMOS := { c with af := ⟨0, 0⟩ }
    say [0xDD, 0xC9] { c with pfx := some .xdd, pc := 1#16 } = [(some false, some true)] ∧
      say [0xC4, 0x34, 0x12] nz = [(some true, some false)] ∧ say [0xC4, 0x34, 0x12] z = [(some false, some false)] ∧
      say [0xED, 0x4D] c = [(some false, some true)] ∧ say [0xC1] c = [(some false, some false)] ∧
      say [0xDD] c = [] ∧ Spec.ackOf (tr [0xC9] c) = [] ∧ (go [0xC1] c).1.2.getSp = 0x8002#16 := by decide +kernel

end Z80
