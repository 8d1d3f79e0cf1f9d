import Verif.Proofs.Rep

/-!
# The record passed to the debugger
-/

set_option linter.constructorNameAsVariable false
set_option linter.unusedSimpArgs false
set_option linter.unusedTactic false

namespace Z80
open Ex

variable {σ : Sig} {Q α β : Type}

namespace Rep

variable [Flavour Q] {a : U16}

theorem word_bytes (nn : U16) : hi8 nn ++ lo8 nn = nn := word_hi8_lo8 nn

theorem rst_byte (n : Nat) : lo8 (BitVec.ofNat 16 n) = BitVec.ofNat 8 n := by
  apply BitVec.eq_of_toNat_eq
  simp [lo8]

theorem text_of {p : Option Prefix} {c : U8} {l : List U8} {n args k} (hk : Spec.decode c = k)
    (hl : l.length + 1 = 1 + k.operands + (if k = .ed then (Spec.decodeEd (l.getD 0 0)).operands else 0) +
      if p.isSome && k.memory then 1 else 0)
    (ht : (n, args.opds) = k.asm (ixOf p) a fun i => (c :: l).getD i 0) : Text p a c (c :: l) n args := by
  subst hk
  exact ⟨⟨hl, _, rfl⟩, ht⟩

set_option hygiene false in
/-- Close the goals about the record. -/
macro "text_goal" : tactic => `(tactic| (
  first
    | (refine text_of hk rfl ?_)
    | (refine fun e => text_of hk rfl ?_)
  try simp only [h]
  first
    | rfl
    | (simp only [Spec.I0.asm, List.getD_cons_succ, List.getD_cons_zero, word_bytes]; rfl)))

set_option hygiene false in
/-- Walk through the body of an instruction. -/
macro "text_tac" : tactic => `(tactic| (
    simp only [agree0, Bool.and_eq_true, decide_eq_true_eq] at h
    try simp only [regOf, rpOf', spOf, ccOf, aluOf] at h
    first | rw [h] | rw [h.1] | rw [h.1.1] | rw [h.1.1.1]
    walk Z80.Rep
    all_goals first
      | rfl
      | (walk Z80.Flat <;> rfl; done)
      | (walk Z80.Silent <;> rfl; done)
      | exact fun h => h rfl
      | text_goal
      | (rename_i heq; simp only [h, reduceCtorEq] at heq; done)
      | (rename_i heq; simp only [h, Option.some.injEq] at heq; subst heq; text_goal)
      | (rename_i heq _; simp only [h, reduceCtorEq] at heq; done)
      | (rename_i heq heq'; simp only [h, Option.some.injEq] at heq heq'; subst heq; subst heq'; text_goal)
      | skip))

theorem plain_ldRR {c : U8} {d s} (hk : Spec.decode c = .ldRR d s) :
    Rep (· ≠ .ub) (Text none a c) a none [c] (Z80.executePlain c : Ex σ Q _) := by
  have h := agree0_all c
  rw [hk] at h
  simp only [agree0, Bool.and_eq_true, decide_eq_true_eq] at h
  unfold Z80.executePlain
  rw [h.1.1.1]
  walk Z80.Rep
  all_goals first
    | rfl
    | (walk Z80.Flat <;> rfl; done)
    | (walk Z80.Silent <;> rfl; done)
    | exact fun h => h rfl
    | skip
  all_goals
    rename_i heq heq'
    rw [h.1.1.2] at heq
    rw [h.1.2] at heq'
    cases d <;> cases s <;> simp only [regOf, Option.some.injEq, reduceCtorEq] at heq heq' <;>
      (try subst heq) <;> (try subst heq') <;>
      first | exact text_of hk rfl rfl | exact absurd h.2 (by decide)

theorem plain_aluR {c : U8} {k r} (hk : Spec.decode c = .aluR k r) :
    Rep (· ≠ .ub) (Text none a c) a none [c] (Z80.executePlain c : Ex σ Q _) := by
  have h := agree0_all c
  rw [hk] at h
  simp only [agree0, Bool.and_eq_true, decide_eq_true_eq] at h
  unfold Z80.executePlain
  rw [h.1.1]
  walk Z80.Rep
  all_goals first
    | rfl
    | (walk Z80.Flat <;> rfl; done)
    | (walk Z80.Silent <;> rfl; done)
    | skip
  rw [h.1.2, h.2]
  cases k <;> cases r <;> exact text_of hk rfl rfl

theorem plain_cb {c : U8} (hk : Spec.decode c = .cb) :
    Rep (· ≠ .ub) (Text none a c) a none [c] (Z80.executePlain c : Ex σ Q _) := by
  have h := agree0_all c
  rw [hk] at h
  simp only [agree0, Bool.and_eq_true, decide_eq_true_eq] at h
  unfold Z80.executePlain
  rw [h]
  walk Z80.Rep
  all_goals first
    | rfl
    | (walk Z80.Flat <;> rfl; done)
    | (walk Z80.Silent <;> rfl; done)
    | skip
  next c1 =>
  rw [(agreeCb_all c1).1]
  refine text_of hk rfl ?_
  show _ = (Spec.decodeCb c1).asm .hl 0
  generalize Spec.decodeCb c1 = k
  cases k with
  | rot k r => cases k <;> cases r <;> rfl
  | bit n r | res n r | set n r => cases r <;> rfl

set_option hygiene false in
/-- Walk through the body of an instruction. -/
macro "ed_tac" : tactic => `(tactic| (
    simp only [agreeE, Bool.and_eq_true, decide_eq_true_eq] at h1
    try simp only [regOf, rpOf'] at h1
    first | rw [h1] | rw [h1.1] 
    simp only []
    walk Z80.Rep
    all_goals first
      | rfl
      | (walk Z80.Flat <;> rfl; done)
      | (walk Z80.Silent <;> rfl; done)
      | exact fun h => h rfl
      | (refine text_of hk ?_ ?_
         · show _ = 1 + 1 + (Spec.decodeEd c1).operands + 0
           rw [hk1]
           rfl
         · show _ = (Spec.decodeEd c1).asm _
           rw [hk1]
           try simp only [h1]
           first
            | rfl
            | (simp only [Spec.IEd.asm, List.getD_cons_succ, List.getD_cons_zero, word_bytes]; rfl))
      | skip))

theorem plain_ed {c : U8} (hk : Spec.decode c = .ed) :
    Rep (· ≠ .ub) (Text none a c) a none [c] (Z80.executePlain c : Ex σ Q _) := by
  have h := agree0_all c
  rw [hk] at h
  simp only [agree0, Bool.and_eq_true, decide_eq_true_eq] at h
  unfold Z80.executePlain
  rw [h]
  refine bind_fetchOpcode fun c1 => ?_
  show Rep _ (Text none a c) a none [c, c1] _
  have h1 := agreeE_all c1
  generalize hk1 : Spec.decodeEd c1 = k at h1
  cases k with
  | im n => 
    match n, h1 with
    | 0, h1 => ed_tac
    | 1, h1 => ed_tac
    | 2, h1 => ed_tac
  | blk k d r => cases k <;> cases d <;> cases r <;> ed_tac
  | inC k | outC k | sbcHl k | adcHl k | ldNnRp k | ldRpNn k => cases k <;> ed_tac
  | reti => 
    ed_tac
    rename_i heq
    rw [h1.2] at heq
    cases heq
  | retn => 
    ed_tac
    rename_i heq
    rw [heq] at h1
    cases h1.2
  | _ => ed_tac

theorem executePlain {c : U8} (hc : Spec.isPrefix c = false) :
    Rep (· ≠ .ub) (Text none a c) a none [c] (Z80.executePlain c : Ex σ Q _) := by
  have h := agree0_all c
  generalize hk : Spec.decode c = k at h
  unfold Z80.executePlain
  cases k with
  | ed => exact plain_ed hk
  | dd => 
    have := all8_spec (p := fun c => !decide (Spec.decode c = .dd) || Spec.isPrefix c)
      (by decide +kernel) c
    rw [hk, hc] at this
    cases this
  | fd =>
    have := all8_spec (p := fun c => !decide (Spec.decode c = .fd) || Spec.isPrefix c)
      (by decide +kernel) c
    rw [hk, hc] at this
    cases this
  | cb => exact plain_cb hk
  | ldRR d s => exact plain_ldRR hk
  | accRot k => cases k <;> first | (cases h; done) | text_tac
  | ldARp k | ldRpA k => cases k <;> first | (cases h; done) | text_tac
  | aluR k r => exact plain_aluR hk
  | rst y =>
    text_tac
    rw [h.2]
    refine text_of hk rfl ?_
    show _ = ("RST", [Spec.Opd.byte (BitVec.ofNat 8 (8 * y))])
    rw [← rst_byte]
    rfl
  | jrCc k | ldRpNn k | addHl k | incRp k | decRp k | incR k | decR k | ldRN k
  | aluN k | retCc k | pop k | jpCc k | callCc k | push k => cases k <;> text_tac
  | _ => text_tac

set_option hygiene false in
/-- Walk through the body of an instruction with an index register. -/
macro "idx_tac" : tactic => `(tactic| (
    rw [show miOf _ = _ from rfl]
    walk Z80.Rep
    all_goals first
      | rfl
      | (walk Z80.Flat <;> rfl; done)
      | (walk Z80.Silent <;> rfl; done)
      | exact fun h => h rfl
      | (refine text_of hk rfl ?_
         try simp only [h]
         first
          | rfl
          | (simp only [Spec.I0.asm, List.getD_cons_succ, List.getD_cons_zero, word_bytes]; rfl))
      | (rename_i heq; simp only [h, reduceCtorEq] at heq; done)
      | (rename_i heq _; simp only [h, reduceCtorEq] at heq; done)
      | (rename_i heq; simp only [h, Option.some.injEq] at heq; subst heq; exact text_of hk rfl rfl)
      | (rename_i heq _; simp only [h, Option.some.injEq] at heq; subst heq; exact text_of hk rfl rfl)
      | (rename_i heq _ _; simp only [h, Option.some.injEq] at heq; subst heq
         exact text_of hk rfl rfl)))

theorem indexed_ldRR {c : U8} {q : Prefix} {d s} (hk : Spec.decode c = .ldRR d s) :
    Rep (· ≠ .ub) (Text (some q) a c) a (some q) [c] (Z80.instrI .ldQQ q c : Ex σ Q _) := by
  have h := agree0_all c
  rw [hk] at h
  simp only [agree0, Bool.and_eq_true, decide_eq_true_eq] at h
  walk Z80.Rep
  all_goals first
    | rfl
    | (walk Z80.Flat <;> rfl; done)
    | (walk Z80.Silent <;> rfl; done)
    | exact fun h => h rfl
    | skip
  all_goals
    first
      | rename_i heq heq' _
        rw [h.1.1.2] at heq
        rw [h.1.2] at heq'
      | rename_i heq heq' _ _
        rw [h.1.1.2] at heq
        rw [h.1.2] at heq'
    cases d <;> cases s <;> simp only [regOf, Option.some.injEq, reduceCtorEq] at heq heq' <;>
      (try subst heq) <;> (try subst heq') <;>
      first | (cases q <;> exact text_of hk rfl rfl) | exact absurd h.2 (by decide)

theorem indexed_aluR {c : U8} {q : Prefix} {k s} (hk : Spec.decode c = .aluR k s) :
    Rep (· ≠ .ub) (Text (some q) a c) a (some q) [c] (Z80.instrI .opsQ q c : Ex σ Q _) := by
  have h := agree0_all c
  rw [hk] at h
  simp only [agree0, Bool.and_eq_true, decide_eq_true_eq] at h
  walk Z80.Rep
  all_goals first
    | rfl
    | (walk Z80.Flat <;> rfl; done)
    | (walk Z80.Silent <;> rfl; done)
    | exact fun h => h rfl
    | skip
  all_goals
    rw [h.1.2]
    rename_i heq _
    rw [h.2] at heq
    cases k <;> cases s <;> simp only [regOf, Option.some.injEq, reduceCtorEq] at heq <;>
      (try subst heq) <;> cases q <;> exact text_of hk rfl rfl

theorem indexed_cb {c : U8} {q : Prefix} (hk : Spec.decode c = .cb) :
    Rep (· ≠ .ub) (Text (some q) a c) a (some q) [c] (Z80.instrI .cb q c : Ex σ Q _) := by
  walk Z80.Rep
  all_goals first
    | rfl
    | (walk Z80.Flat <;> rfl; done)
    | (walk Z80.Silent <;> rfl; done)
    | skip
  next d c1 =>
  rw [(agreeCb_all c1).1]
  refine text_of hk rfl ?_
  have e : (Spec.I0.cb).asm (ixOf (some q)) a (fun i => [c, d, c1].getD i 0) =
      (Spec.decodeCb c1).asm (ixOf (some q)) d := by cases q <;> rfl
  refine Eq.trans ?_ e.symm
  generalize Spec.decodeCb c1 = k
  cases k with
  | rot k r => cases k <;> cases r <;> cases q <;> rfl
  | bit n r | res n r | set n r => cases r <;> cases q <;> rfl

theorem indexed {c : U8} {q : Prefix} (hu : usesHl (Spec.decode c) = true)
    (hc : Spec.isPrefix c = false) :
    Rep (· ≠ .ub) (Text (some q) a c) a (some q) [c]
      (Z80.instrI (miOf (Spec.decode c)) q c : Ex σ Q _) := by
  have h := agree0_all c
  generalize hk : Spec.decode c = k at h hu
  cases k with
  | ldRR d s => exact indexed_ldRR hk
  | aluR k s => exact indexed_aluR hk
  | cb => exact indexed_cb hk
  | dd =>
    have := all8_spec (p := fun c => !decide (Spec.decode c = .dd) || Spec.isPrefix c)
      (by decide +kernel) c
    rw [hk, hc] at this
    cases this
  | fd =>
    have := all8_spec (p := fun c => !decide (Spec.decode c = .fd) || Spec.isPrefix c)
      (by decide +kernel) c
    rw [hk, hc] at this
    cases this
  | ldRpNn k | addHl k | incRp k | decRp k | incR k | decR k | ldRN k
  | pop k | push k =>
    cases k
    all_goals first
    | (cases hu; done)
    | (simp only [agree0, Bool.and_eq_true, decide_eq_true_eq] at h
       try simp only [regOf, rpOf', spOf, ccOf, aluOf] at h
       cases q
       all_goals idx_tac)
  | ldNnHl | ldHlNn | jpHl | ldSpHl | exSpHl =>
    cases q
    all_goals idx_tac
  | _ => cases hu
end Rep

/-- The prefix in effect for an opcode. -/
def effective (p : Option Prefix) (c : U8) : Option Prefix := if Spec.indexed c then p else none

/-- Among the calls `t` there is one of the debugger; its record is that of the instruction at `a`,
when the first byte `c` and the bytes read before come from the memory `m`. -/
def OneRecord (p : Option Prefix) (a : U16) (c : U8) (t : List (Ev σ)) : Prop :=
  ∃ u d v l, t = u ++ ⟨.debug d, ()⟩ :: v ∧ louds u = 0 ∧ debugs v = 0 ∧
    Recorded (Rep.Text p a c) a p (c :: l) d ∧ ∀ m, Reads m u → c = m a → Holds m a (c :: l)

/-- Executing an opcode that is not a prefix with a debugger: one record. -/
theorem record_code [Flavour Q] {c : U8} (hc : Spec.isPrefix c = false) {s : St Q} {a : U16}
    (hd : s.deb = true) (hpc : s.pc = a + 1#16) :
    (Z80.executeCode (σ := σ) c s).wp fun t r => r.1 ≠ .ub →
      OneRecord (effective s.pfx c) a c t := by
  have key : ∀ {x : Ex σ Q (Exit σ)} {p : Option Prefix} {s' : St Q}, s'.deb = true →
      s'.pc = a + 1#16 → s'.pfx = p → Rep (· ≠ .ub) (Rep.Text p a c) a p [c] x →
      (x s').wp fun t r => r.1 ≠ .ub → OneRecord p a c t := by
    intro x p s' h1 h2 h3 hx
    refine Prog.wp_mono ?_ (hx s' h1 h2 h3)
    intro t r h hok
    obtain ⟨u, d, v, l, e1, e2, e3, e4, e5⟩ := h hok
    obtain ⟨l, rfl⟩ := e4.ok.1.2
    exact ⟨u, d, v, l, e1, e2, e3, e4, fun m hr hm => e5 m hr ⟨hm, trivial⟩⟩
  obtain ⟨cpu, fl, pc, pfx, deb⟩ := s
  cases pfx with
  | none =>
    have he : effective none c = none := by unfold effective; split <;> rfl
    show (executePlain c ⟨_, fl, pc, none, deb⟩).wp fun t r => r.1 ≠ .ub →
      OneRecord (effective none c) a c t
    rw [he]
    exact key hd hpc rfl (Rep.executePlain hc)
  | some p =>
    show (executeIndexed p c ⟨_, fl, pc, some p, deb⟩).wp fun t r => r.1 ≠ .ub →
      OneRecord (effective (some p) c) a c t
    unfold executeIndexed
    cases hi : decodeI c with
    | none => exact fun h => absurd rfl h
    | some m =>
      have h1 := all8_spec (p := fun c => Spec.isPrefix c || decide (decodeI c ≠ some .dd ∧
        decodeI c ≠ some .fd ∧ (decodeI c = some .plain → Spec.indexed c = false)))
        (by decide +kernel) c
      simp only [hc, hi, Bool.false_or, decide_eq_true_eq] at h1
      cases hm : decide (m = .plain) with
      | true =>
        have hm := of_decide_eq_true hm
        subst hm
        have he : effective (some p) c = none := by rw [effective, h1.2.2 rfl]; rfl
        rw [he]
        exact key (s' := ⟨_, fl, pc, none, deb⟩) hd hpc rfl (Rep.executePlain hc)
      | false =>
        have hm := of_decide_eq_false hm
        have h2 : m ≠ .dd := fun g => h1.1 (g ▸ rfl)
        have h3 : m ≠ .fd := fun g => h1.2.1 (g ▸ rfl)
        have ha := agreeI_all c
        simp only [agreeI, decide_eq_true_eq, hi, Option.some.injEq] at ha
        have hu : usesHl (Spec.decode c) = true := by
          cases hu : usesHl (Spec.decode c) with
          | true => rfl
          | false =>
            rw [hu] at ha
            exact absurd ha hm
        rw [hu, if_pos rfl] at ha
        have hs := all8_spec (p := fun c => !usesHl (Spec.decode c) || Spec.isPrefix c ||
          Spec.indexed c) (by decide +kernel) c
        simp only [hu, hc, Bool.not_true, Bool.false_or] at hs
        have he : effective (some p) c = some p := by rw [effective, hs]; rfl
        rw [he]
        have hr : Rep (· ≠ .ub) (Rep.Text (some p) a c) a (some p) [c] (instrI m p c : Ex σ Q _) :=
          ha ▸ Rep.indexed hu hc
        have hr' : ∀ cpu, ((do
            let e ← instrI m p c
            setPfx none
            pure e : Ex σ Q _) ⟨cpu, fl, pc, some p, deb⟩).wp fun t r => r.1 ≠ .ub →
              OneRecord (some p) a c t := by
          intro cpu
          refine (Prog.wp_bind _ _ _).2 (Prog.wp_mono ?_
            (key (s' := ⟨cpu, fl, pc, some p, deb⟩) hd hpc rfl hr))
          intro t r h
          show r.1 ≠ .ub → OneRecord (some p) a c (t ++ [])
          rw [List.append_nil]
          exact h
        cases m <;> first
          | exact absurd rfl hm
          | exact absurd rfl h2
          | exact absurd rfl h3
          | exact hr' _

/-- The records passed to the debugger. -/
def records : List (Ev σ) → List CpuDebug
  | [] => []
  | ⟨.debug d, _⟩ :: t => d :: records t
  | _ :: t => records t

theorem records_append (t u : List (Ev σ)) : records (t ++ u) = records t ++ records u := by
  induction t with
  | nil => rfl
  | cons e t ih =>
    obtain ⟨r, a⟩ := e
    cases r <;> first | exact ih | exact congrArg (List.cons _) ih

theorem records_length (t : List (Ev σ)) : (records t).length = debugs t := by
  induction t with
  | nil => rfl
  | cons e t ih =>
    obtain ⟨r, a⟩ := e
    show (records ([⟨r, a⟩] ++ t)).length = debugs ([⟨r, a⟩] ++ t)
    rw [records_append, debugs_append, List.length_append, ih]
    cases r <;> rfl

theorem records_nil {t : List (Ev σ)} : records t = [] ↔ debugs t = 0 := by
  rw [← records_length, List.length_eq_zero_iff]

theorem Silent.prefixed [Flavour Q] {c : U8} (hc : Spec.isPrefix c = true) :
    Silent (Z80.executeCode c : Ex σ Q _) := by
  have h := all8_spec (p := fun c => !Spec.isPrefix c || decide ((decode0 c = some .dd ∨
    decode0 c = some .fd) ∧ (decodeI c = some .dd ∨ decodeI c = some .fd))) (by decide +kernel) c
  simp only [hc, Bool.not_true, Bool.false_or, decide_eq_true_eq] at h
  intro s
  obtain ⟨cpu, fl, pc, pfx, deb⟩ := s
  cases pfx with
  | none =>
    show (executePlain c ⟨_, fl, pc, none, deb⟩).wp _
    unfold executePlain
    rcases h.1 with h | h <;> rw [h] <;> rfl
  | some p =>
    show (executeIndexed p c ⟨_, fl, pc, some p, deb⟩).wp _
    unfold executeIndexed
    rcases h.2 with h | h <;> rw [h] <;> rfl

section
variable [Flavour Q]

/-- The records of `execute_instruction`. -/
theorem record_instruction (code : U8) (c : Cpu Q) :
    (executeInstruction (σ := σ) true code c).wp fun t _ =>
      if Spec.isPrefix code then records t = []
      else OneRecord (effective c.pfx code) (c.pc - 1#16) code t := by
  cases hc : Spec.isPrefix code with
  | true =>
    simp only [if_true]
    refine (Prog.wp_bind _ _ _).2 (Prog.wp_mono ?_ (Silent.prefixed hc _))
    intro t r h
    show records (t ++ []) = []
    rw [List.append_nil, records_nil]
    exact h
  | false =>
    have h1 := record_code (σ := σ) hc (s := Cpu.load { c with lastEi := false, halt := false } true)
      (a := c.pc - 1#16) rfl (BitVec.sub_add_cancel _ _).symm
    refine (Prog.wp_iff _ _).2 fun t r hr => ?_
    have hu := (Prog.runs_wp hr (ok_instruction true code c)).noUb
    rw [if_neg Bool.false_ne_true]
    obtain ⟨r', hr', rfl⟩ := Prog.runs_map.1 hr
    exact Prog.runs_wp hr' h1 fun h => hu (by rw [h]; rfl)

/-- A record that is right about itself: its bytes are those of one instruction, with the prefix if that
changes the instruction, and mnemonic and arguments are those of the instruction. -/
structure Genuine (d : CpuDebug) (op : U8) (l : List U8) : Prop where
  code : d.code = pfxBytes d.pfx ++ op :: l
  plain : Spec.isPrefix op = false
  used : d.pfx.isSome = true → Spec.indexed op = true
  text : Rep.Text d.pfx (d.pc + BitVec.ofNat 16 (pfxBytes d.pfx).length) op (op :: l) d.mnemonic d.args

/-- All records are right about themselves. -/
def Sound (t : List (Ev σ)) : Prop := ∀ d ∈ records t, ∃ op l, Genuine d op l

omit [Flavour Q] in
theorem OneRecord.records_eq {p : Option Prefix} {c : U8} {a : U16} {t : List (Ev σ)}
    (h : OneRecord p a c t) : ∃ d l, records t = [d] ∧ Recorded (Rep.Text p a c) a p (c :: l) d := by
  obtain ⟨u, d, v, l, rfl, hu, hv, hd, -⟩ := h
  refine ⟨d, l, ?_, hd⟩
  rw [records_append, records_nil.2 (debugs_of_louds hu)]
  show d :: records v = [d]
  rw [records_nil.2 hv]

omit [Flavour Q] in
theorem genuine_of {p : Option Prefix} {c : U8} {a : U16} {l : List U8} {d : CpuDebug}
    (h : Recorded (Rep.Text (effective p c) a c) a (effective p c) (c :: l) d)
    (hc : Spec.isPrefix c = false) : Genuine d c l := by
  refine ⟨h.pfx ▸ h.code, hc, ?_, ?_⟩
  · rw [h.pfx, effective]
    cases Spec.indexed c with
    | true => exact fun _ => rfl
    | false => exact fun h => absurd h Bool.false_ne_true
  · rw [h.pfx, h.pc, BitVec.sub_add_cancel]
    exact h.ok

omit [Flavour Q] in
theorem Genuine.short {d : CpuDebug} {op : U8} {l : List U8} (h : Genuine d op l) :
    d.code.length ≤ 4 := by
  rw [h.code, List.length_append, h.text.1.1]
  have hl := Spec.length_le op ((op :: l).getD 1 0)
  have hu := h.used
  cases hp : d.pfx with
  | none => exact (Nat.zero_add _).symm ▸ hl.1
  | some p =>
    have := hl.2 (hu (by rw [hp]; rfl))
    show 1 + Spec.length true op _ ≤ 4
    omega

omit [Flavour Q] in
theorem OneRecord.sound {p : Option Prefix} {c : U8} {a : U16} {t : List (Ev σ)}
    (h : OneRecord (effective p c) a c t) (hc : Spec.isPrefix c = false) : Sound t := by
  obtain ⟨d, l, h1, h2⟩ := h.records_eq
  intro d' hd'
  rw [h1, List.mem_singleton] at hd'
  subst hd'
  exact ⟨c, l, genuine_of h2 hc⟩

theorem sound_instruction (deb : Bool) (code : U8) (c : Cpu Q) :
    (executeInstruction (σ := σ) deb code c).wp fun t _ => Sound t := by
  have h1 : (executeInstruction (σ := σ) true code c).wp fun t _ => Sound t := by
    refine Prog.wp_mono (fun t r h => ?_) (record_instruction code c)
    split at h
    · rw [Sound, h]
      exact fun _ hd => absurd hd List.not_mem_nil
    · next hc => exact h.sound (Bool.eq_false_iff.2 hc)
  cases deb with
  | true => exact h1
  | false =>
    refine (Prog.wp_iff _ _).2 fun t r hr => ?_
    rw [← erase_instruction] at hr
    obtain ⟨u, -, rfl⟩ := Prog.erase_runs.1 hr
    have : records (undebugged u) = [] := by
      rw [records_nil]
      exact List.countP_eq_zero.2 fun e he hd => by
        have := (List.mem_filter.1 he).2
        rw [hd] at this
        cases this
    rw [Sound, this]
    exact fun _ hd => absurd hd List.not_mem_nil

omit [Flavour Q] in
theorem sound_ask {r : Req σ} (h : r.isDebug = false) {f : r.Ans → Prog σ α}
    (hf : ∀ a, (f a).wp fun t _ => Sound t) : ((ask r).bind f).wp fun t _ => Sound t := by
  intro a
  refine Prog.wp_mono ?_ (hf a)
  intro t x ht
  show Sound ([⟨r, a⟩] ++ t)
  rw [Sound, records_append, records_nil.2 (debugs_one h a)]
  exact ht

theorem sound_irqNoCheck (deb : Bool) (c : Cpu Q) :
    (irqNoCheck deb c : Prog σ _).wp fun t _ => Sound t := by
  unfold irqNoCheck
  simp only []
  generalize c.disableInterrupts.incR.wake = c1
  refine sound_ask rfl fun ts => sound_ask rfl fun v => ?_
  have rest : (match c1.im with
      | .mode0 => executeInstruction deb v.1 c1
      | .mode1 => executeInstruction deb 0xFF#8 c1
      | .mode2 => (do
        ask (.addNoMreq c1.getIr X1)
        let c' ← pushCpu c1.pc c1
        executeInstruction deb 0xC3#8
          (c'.setPc ((c1.getIr &&& 0xFF00#16) ||| v.1.setWidth 16)) : Prog σ (Res σ × Cpu Q))).wp
        fun t _ => Sound t := by
    cases c1.im with
    | mode0 => exact sound_instruction _ _ _
    | mode1 => exact sound_instruction _ _ _
    | mode2 =>
      refine sound_ask rfl fun _ => ?_
      exact sound_ask (r := .addMreq _) rfl fun _ => sound_ask (r := .writeMem _ _ _) rfl fun _ =>
        sound_ask (r := .addMreq _) rfl fun _ => sound_ask (r := .writeMem _ _ _) rfl fun _ =>
          sound_instruction _ _ _
  cases hv : v.2 with
  | none => exact rest
  | some w => exact sound_ask (r := .addWait _ w) rfl fun _ => rest

/-- The records of an `execute_next` that fetches an instruction. -/
theorem record_next (c : Cpu Q) (hh : c.halt = false) :
    (executeNext (σ := σ) true c).wp fun t _ => acks t = 0 →
      ∃ q ts ir code u, t = q ++ ⟨.addM1 c.pc, ts⟩ :: ⟨.readOpcode c.pc ir ts, code⟩ :: u ∧
        (louds q = 0 ∧ opcodes q = [] ∧ records q = []) ∧ if Spec.isPrefix code then records u = []
          else OneRecord (effective c.pfx code) c.pc code u := by
  have rest : ∀ q : List (Ev σ), (louds q = 0 ∧ opcodes q = [] ∧ records q = []) →
      (fetchExecute true c : Prog σ (Res σ × Cpu Q)).wp fun t _ => acks (q ++ t) = 0 →
      ∃ q' ts ir code u, q ++ t = q' ++ ⟨.addM1 c.pc, ts⟩ :: ⟨.readOpcode c.pc ir ts, code⟩ :: u ∧
        (louds q' = 0 ∧ opcodes q' = [] ∧ records q' = []) ∧ if Spec.isPrefix code then records u = []
          else OneRecord (effective c.pfx code) c.pc code u := by
    intro q hq ts code
    refine Prog.wp_mono (fun u r h _ => ?_) (record_instruction code _)
    refine ⟨q, ts, _, code, u, rfl, hq, ?_⟩
    have e : (c.pc + 1#16) - 1#16 = c.pc := BitVec.add_sub_cancel _ _
    rw [← e]
    exact h
  unfold executeNext
  refine wp_askIrq ?_ ?_
  · intro _
    rw [hh]
    exact rest [] ⟨rfl, rfl, rfl⟩
  · intro ts a hb
    cases a with
    | true =>
      refine Prog.wp_mono (fun u r h h0 => ?_) (ok_irqNoCheck true c)
      obtain ⟨v, _, _, _, h, -⟩ := h
      have h1 : acks u = 0 := h0
      rw [h.ack] at h1
      cases h1
    | false =>
      rw [hh]
      exact rest [⟨.asTimestamp, ts⟩, ⟨.isIrq ts, false⟩] ⟨rfl, rfl, rfl⟩

end

end Z80
