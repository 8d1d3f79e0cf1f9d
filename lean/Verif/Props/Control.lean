import Verif.Proofs.Cause
import Verif.Props.State
import Verif.Proofs.Demo
import Mathlib.Logic.Function.Iterate

/-!
# C11, C14, C24, C27, C28: refresh register, undefined behaviour, interrupts

All theorems hold for every host: `p.Runs t a` says that with some answers of the host the method
`p` made the calls `t` and returned `a`.
-/

namespace Z80

variable {σ : Sig} {Q : Type}

theorem counts_quiet {t : List (Ev σ)} (h : ∀ e ∈ t, e.req.isQuiet = true) :
    m1s t = 0 ∧ acks t = 0 ∧ bytes t = [] := by
  refine ⟨List.countP_eq_zero.2 ?_, List.countP_eq_zero.2 ?_, List.filterMap_eq_nil_iff.2 ?_⟩ <;>
  · rintro ⟨r, a⟩ he
    have := h _ he
    cases r <;> first | rfl | exact Bool.false_ne_true | exact absurd this Bool.false_ne_true

/-! ## C11: the refresh register -/

theorem control_r (code : U8) (ops : List U8) (a : U8) (k : Spec.Ctl) :
    (Spec.control code ops a k).r =
      if code = 0xED ∧ ops.headD 0 = 0x4F then a else Spec.refresh k.r ops.length := by
  by_cases h : code = 0xED
  · subst h
    show (Spec.controlEd _ _ _).r = _
    by_cases h2 : ops.headD 0 = 0x4F
    · rw [h2, if_pos ⟨rfl, rfl⟩]; rfl
    · rw [if_neg (fun h => h2 h.2)]
      unfold Spec.controlEd
      rw [if_neg h2]
      split_ifs <;> rfl
  · rw [if_neg (fun h' => h h'.1)]
    simp only [Spec.control]
    split_ifs <;> rfl

theorem ite_iff {p q : Prop} [Decidable p] [Decidable q] {α : Type} {a b a' b' : α} (h : p ↔ q)
    (ha : a = a') (hb : b = b') : (if p then a else b) = if q then a' else b' := by
  subst ha hb
  by_cases hq : q
  · rw [if_pos hq, if_pos (h.2 hq)]
  · rw [if_neg hq, if_neg (fun hp => hq (h.1 hp))]

theorem fetch_counts (a ir : U16) (ts : σ.Ts) (code : U8) (u : List (Ev σ)) :
    m1s (⟨.addM1 a, ts⟩ :: ⟨.readOpcode a ir ts, code⟩ :: u) = m1s u + 1 ∧
    acks (⟨.addM1 a, ts⟩ :: ⟨.readOpcode a ir ts, code⟩ :: u) = acks u := by
  constructor
  · rw [m1s, List.countP_cons_of_pos rfl, List.countP_cons_of_neg (by exact Bool.false_ne_true)]
    rfl
  · rw [acks, List.countP_cons_of_neg (by exact Bool.false_ne_true),
      List.countP_cons_of_neg (by exact Bool.false_ne_true)]
    rfl

theorem quiet_query (ts : σ.Ts) (b : Bool) :
    ∀ e ∈ ([⟨.asTimestamp, ts⟩, ⟨.isIrq ts, b⟩] : List (Ev σ)), e.req.isQuiet = true := by
  intro e he
  simp only [List.mem_cons, List.not_mem_nil, or_false] at he
  rcases he with rfl | rfl <;> rfl

section
variable [Flavour Q]

/-- R after a call: the accumulator for `LD R,A`, else one more for each M1 cycle and each interrupt
acknowledge, in the low seven bits. -/
def RAfter (c : Cpu Q) (code : List U8) (t : List (Ev σ)) (c' : Cpu Q) : Prop :=
  c'.getR = if code = [0xED, 0x4F] then c.getAcc else Spec.refresh c.getR (m1s t + acks t)

omit [Flavour Q] in
theorem headD_single {l : List U8} (h : l.length = 1) : l = [l.headD 0] := by
  obtain ⟨x, rfl⟩ := List.length_eq_one_iff.1 h
  rfl

omit [Flavour Q] in
theorem ld_r_a_iff {code : U8} {ops : List U8} {i : Spec.Ix}
    (h : ops.length = Spec.moreOpcodes i code) :
    (code = 0xED ∧ ops.headD 0 = 0x4F) ↔ code :: ops = [0xED, 0x4F] := by
  constructor
  · rintro ⟨rfl, h2⟩
    have := headD_single (h.trans rfl)
    rw [h2] at this
    rw [this]
  · intro h
    injection h with h1 h2
    subst h1 h2
    exact ⟨rfl, rfl⟩

/-- C11: R after `execute_instruction` with any byte. -/
theorem C11_instruction (deb : Bool) (code : U8) (c : Cpu Q) {t : List (Ev σ)} {e c'}
    (h : (executeInstruction deb code c).Runs t (e, c')) : RAfter c (code :: bytes t) t c' := by
  have h := Prog.runs_wp h (ok_instruction deb code c)
  have hr := congrArg Spec.Ctl.r h.ctl
  rw [control_r] at hr
  unfold RAfter
  rw [bytes_instr h.calls, h.m1, acks_instr h.calls, ← ite_iff (ld_r_a_iff h.fetched) rfl rfl]
  exact hr

theorem rAfter_irq (deb : Bool) (c : Cpu Q) {t : List (Ev σ)} {e c'}
    (h : (irqNoCheck deb c).Runs t (e, c')) : RAfter c (bytes t) t c' := by
  obtain ⟨v, ts, w, u, h, rfl⟩ := Prog.runs_wp h (ok_irqNoCheck deb c)
  have hr := congrArg Spec.Ctl.r h.ctl
  rw [control_r] at hr
  have hu : bytes u = opcodes u := bytes_instr h.calls
  have ho : opcodes (⟨.addIrq c.wake.pc, ts⟩ :: ⟨.irqData c.wake.pc ts, (v, w)⟩ :: u) =
    opcodes u := rfl
  have hb : bytes (⟨.addIrq c.wake.pc, ts⟩ :: ⟨.irqData c.wake.pc ts, (v, w)⟩ :: u) =
    v :: bytes u := rfl
  have hf := h.fetched
  rw [RAfter, hb, h.m1, h.ack, hu]
  rw [ho] at hr hf ⊢
  have hiff : (irqCode (imOf c.im) v = 0xED ∧ (opcodes u).headD 0 = 0x4F) ↔
      v :: opcodes u = [0xED, 0x4F] := by
    cases hm : c.im with
    | mode0 =>
      rw [hm] at hf
      exact ld_r_a_iff hf
    | mode1 =>
      rw [hm] at hf
      have : opcodes u = [] := List.length_eq_zero_iff.1 (hf.trans (by cases c.pfx <;> rfl))
      rw [this]
      simp
    | mode2 =>
      rw [hm] at hf
      have : opcodes u = [] := List.length_eq_zero_iff.1 (hf.trans (by cases c.pfx <;> rfl))
      rw [this]
      simp
  rw [if_congr hiff rfl rfl, refresh_add, Nat.add_comm] at hr
  exact hr

/-- C11: R after `execute_next`, in all cases: an instruction, a step in the halted state, or an
accepted interrupt. -/
theorem C11_next (deb : Bool) (c : Cpu Q) {t : List (Ev σ)} {e c'}
    (h : (executeNext deb c).Runs t (e, c')) : RAfter c (bytes t) t c' := by
  have h := Prog.runs_wp h (ok_next deb c)
  cases h with
  | irq ts u ht ha hr =>
    subst ht
    obtain ⟨h1, h2, h3⟩ := counts_quiet (quiet_query ts true)
    have := rAfter_irq deb c hr
    show RAfter c (bytes ([_, _] ++ u)) ([_, _] ++ u) c'
    rw [RAfter, bytes_append, m1s_append, acks_append, h1, h2, h3, Nat.zero_add, Nat.zero_add]
    exact this
  | halted q hq ts ht hh he hc =>
    subst ht hc
    obtain ⟨h1, h2, h3⟩ := counts_quiet (quiet_body hq)
    rw [RAfter, bytes_append, m1s_append, acks_append, h1, h2, h3]
    exact refresh_rOf c.ir c.r 1
  | instr q hq ts ir code u ht hh hI =>
    subst ht
    clear h
    have h := hI
    obtain ⟨h1, h2, h3⟩ := counts_quiet (quiet_body hq)
    obtain ⟨e1, e2⟩ := fetch_counts c.pc ir ts code u
    have hb : bytes (q ++ ⟨.addM1 c.pc, ts⟩ :: ⟨.readOpcode c.pc ir ts, code⟩ :: u) =
        code :: opcodes u := by
      rw [bytes_append, h3, ← bytes_instr h.calls]; rfl
    rw [RAfter, hb, m1s_append, acks_append, h1, h2, e1, e2, acks_instr h.calls, h.m1]
    have hr := congrArg Spec.Ctl.r h.ctl
    rw [control_r, ite_iff (ld_r_a_iff h.fetched) rfl rfl] at hr
    refine hr.trans (ite_iff Iff.rfl rfl ?_)
    show Spec.refresh (rOf c.ir (c.r + 1#8)) _ = _
    rw [refresh_rOf c.ir c.r 1, refresh_add]
    show Spec.refresh (rOf c.ir c.r) _ = Spec.refresh (rOf c.ir c.r) _
    congr 1
    omega

/-- C11: R after `irq`, whether accepted or not. -/
theorem C11_irq (deb : Bool) (c : Cpu Q) {t : List (Ev σ)} {o c'}
    (h : (irq deb c).Runs t (o, c')) : RAfter c (bytes t) t c' := by
  unfold irq at h
  split at h
  · obtain ⟨u, v, a, rfl, h1, h2⟩ := Prog.runs_bind.1 h
    obtain ⟨rfl, h2⟩ := Prog.runs_ret h2
    cases h2
    rw [List.append_nil]
    exact rAfter_irq deb c h1
  · obtain ⟨rfl, h2⟩ := Prog.runs_ret h
    cases h2
    exact (refresh_zero c.getR).symm

/-- C11: R after `nmi`. -/
theorem C11_nmi (c : Cpu Q) {t : List (Ev σ)} {o c'} (h : (nmi c).Runs t (o, c')) :
    c'.getR = Spec.refresh c.getR (m1s t + acks t) := by
  unfold nmi at h
  split at h
  · obtain ⟨u, v, a, rfl, h1, h2⟩ := Prog.runs_bind.1 h
    obtain ⟨rfl, h2⟩ := Prog.runs_ret h2
    cases h2
    have := Prog.runs_wp h1 (ok_nmiNoCheck _)
    rw [List.append_nil, this.m1, acks_instr this.calls]
    exact congrArg Spec.Ctl.r this.ctl
  · obtain ⟨rfl, h2⟩ := Prog.runs_ret h
    cases h2
    exact (refresh_zero c.getR).symm

omit [Flavour Q] in
theorem infix_left {x a b : List U8} (h : ¬ x <:+: a ++ b) : ¬ x <:+: a ∧ ¬ x <:+: b :=
  ⟨fun h' => h (h'.trans (List.infix_append' [] a b |> fun z => by simpa using z)),
   fun h' => h (h'.trans (List.suffix_append a b).isInfix)⟩

omit [Flavour Q] in
theorem mv_r {k k' : Spec.Ctl} {t : List (Ev σ)} (h : Mv (· ≠ 0xED) k t k')
    (hb : ¬ [0xED, 0x4F] <:+: bytes t) : k'.r = Spec.refresh k.r (m1s t + acks t) := by
  induction h with
  | quiet k t h =>
    obtain ⟨h1, h2, _⟩ := counts_quiet h
    rw [h1, h2, refresh_zero]
  | halted k a ts h => rfl
  | clearEi k => exact (refresh_zero _).symm
  | fetch k b a ir ts code u acc hu hl hm =>
    rw [control_r, ite_iff (ld_r_a_iff hl) rfl rfl, if_neg]
    · obtain ⟨e1, e2⟩ := fetch_counts a ir ts code u
      rw [e1, e2, acks_instr hu, hm]
      show Spec.refresh (Spec.refresh k.r 1) _ = _
      rw [refresh_add]
      congr 1
      omega
    · intro h
      refine hb (List.IsPrefix.isInfix ?_)
      show _ <+: code :: bytes u
      rw [bytes_instr hu, h]
      exact List.prefix_rfl
  | exec k code u acc hp hu hl hm =>
    rw [control_r, if_neg (fun h => hp h.1), acks_instr hu, hm]
    rfl
  | irq k a ts b ts' v w u acc hi hu hl hm =>
    have e1 : m1s (⟨.addIrq a, ts⟩ :: ⟨.irqData b ts', (v, w)⟩ :: u) = m1s u := by
      rw [m1s, List.countP_cons_of_neg (by exact Bool.false_ne_true),
        List.countP_cons_of_neg (by exact Bool.false_ne_true)]; rfl
    have e2 : acks (⟨.addIrq a, ts⟩ :: ⟨.irqData b ts', (v, w)⟩ :: u) = acks u + 1 := by
      rw [acks, List.countP_cons_of_pos rfl, List.countP_cons_of_neg (by exact Bool.false_ne_true)]
      rfl
    rw [control_r, if_neg]
    · rw [e1, e2, acks_instr hu, hm]
      show Spec.refresh (Spec.refresh k.r 1) _ = _
      rw [refresh_add]
      congr 1
      omega
    · intro h
      unfold irqCode at h
      by_cases h0 : k.im = 0
      · rw [if_pos h0] at h
        rw [irqCode, if_pos h0] at hl
        refine hb (List.IsPrefix.isInfix ?_)
        show _ <+: v :: bytes u
        rw [bytes_instr hu, (ld_r_a_iff hl).1 h]
        exact List.prefix_rfl
      · rw [if_neg h0] at h
        split_ifs at h <;> exact absurd h.1 (by decide)
  | nmi k u hu ho hm => rw [hm, acks_instr hu]
  | trans h h' ih ih' =>
    rw [bytes_append] at hb
    obtain ⟨h1, h2⟩ := infix_left hb
    rw [ih' h2, ih h1, refresh_add, m1s_append, acks_append]
    congr 1
    omega

/-- C11: over any history of calls of the execution and interrupt methods, with any answers of the
host, the low seven bits of R count the M1 cycles and interrupt acknowledges, and its top bit stays,
as long as no `LD R,A` (`ED 4F`) is delivered. -/
theorem C11_history {c c' : Cpu Q} {t : List (Ev σ)} (h : Hist (· ≠ 0xED) c t c')
    (hb : ¬ [0xED, 0x4F] <:+: bytes t) :
    c'.getR = Spec.refresh c.getR (m1s t + acks t) := mv_r (mv_hist h) hb

/-- C11: bit 7 of R changes only by `LD R,A`. -/
theorem C11_bit7 {c c' : Cpu Q} {t : List (Ev σ)} (h : Hist (· ≠ 0xED) c t c')
    (hb : ¬ [0xED, 0x4F] <:+: bytes t) : c'.getR.getLsbD 7 = c.getR.getLsbD 7 := by
  rw [C11_history h hb]
  have := c.getR.isLt
  rw [← BitVec.testBit_toNat, ← BitVec.testBit_toNat, Nat.testBit_eq_decide_div_mod_eq,
    Nat.testBit_eq_decide_div_mod_eq, Spec.refresh, BitVec.toNat_ofNat]
  congr 1
  apply propext
  omega

end

/-- C11: `add_r(n)` is `n` times `inc_r`. -/
theorem C11_add_r (c : Cpu Q) (n : Nat) : c.addR (BitVec.ofNat 32 n) = Cpu.incR^[n] c := by
  induction n generalizing c with
  | zero =>
    show ({ c with r := c.r + _ } : Cpu Q) = c
    rw [show (BitVec.ofNat 32 0).setWidth 8 = 0#8 from rfl, BitVec.add_zero]
  | succ n ih =>
    rw [Function.iterate_succ, Function.comp, ← ih]
    show ({ c with r := _ } : Cpu Q) = { c with r := c.r + 1#8 + _ }
    congr 1
    apply BitVec.eq_of_toNat_eq
    simp only [BitVec.toNat_add, BitVec.toNat_setWidth, BitVec.toNat_ofNat]
    omega

/-- C11: a negative argument of `add_r` takes increments back. -/
theorem C11_add_r_neg (c : Cpu Q) (n : Nat) : Cpu.incR^[n] (c.addR (-BitVec.ofNat 32 n)) = c := by
  rw [← C11_add_r]
  show ({ c with r := _ } : Cpu Q) = c
  have : c.r + (-BitVec.ofNat 32 n).setWidth 8 + (BitVec.ofNat 32 n).setWidth 8 = c.r := by
    apply BitVec.eq_of_toNat_eq
    simp only [BitVec.toNat_add, BitVec.toNat_setWidth, BitVec.toNat_ofNat, BitVec.toNat_neg]
    have := c.r.isLt
    omega
  show ({ c with r := c.r + (-BitVec.ofNat 32 n).setWidth 8 + (BitVec.ofNat 32 n).setWidth 8 } :
    Cpu Q) = c
  rw [this]

/-- C11: `inc_r` and `add_r` on the visible register. -/
theorem C11_inc_r (c : Cpu Q) : c.incR.getR = Spec.refresh c.getR 1 := refresh_rOf c.ir c.r 1

theorem C11_add_r_get (c : Cpu Q) (n : Nat) :
    (c.addR (BitVec.ofNat 32 n)).getR = Spec.refresh c.getR n := by
  rw [C11_add_r]
  induction n generalizing c with
  | zero => exact (refresh_zero _).symm
  | succ n ih => rw [Function.iterate_succ, Function.comp, ih, C11_inc_r, refresh_add, Nat.add_comm]

/-- C11: `normalize_r` changes no value read by a getter and is idempotent. -/
theorem C11_normalize_r (c : Cpu Q) :
    c.normalizeR.obs = c.obs ∧ c.normalizeR.normalizeR = c.normalizeR := by
  have h : c.normalizeR.getR = c.getR := rOf_self _ _
  refine ⟨?_, ?_⟩
  · simp only [Cpu.obs, h]
    rfl
  · show c.normalizeR.setR c.normalizeR.getR = _
    rw [h]
    rfl

/-- Non-vacuity for C11: the program `LD B,n; NOP` run by two calls, R counts two and keeps its top
bit. -/
example : ∃ (t : List (Ev (tsSig 16 Unit Unit))) (c' : Cpu NMOS),
    Hist (· ≠ 0xED) (Cpu.new.setR 0xFF) t c' ∧ ¬ [0xED, 0x4F] <:+: bytes t ∧ c'.getR = 0x81 := by
  refine ⟨_, _, .next (.next (.start _) false
    (Prog.runs_run demo _ (0, program [0x06, 0x4F], ()))) false
    (Prog.runs_run demo _ (0, program [0x06, 0x4F], ())), ?_, ?_⟩ <;> decide +kernel

/-! ## C14: no undefined behaviour -/

section
variable [Flavour Q]

/-- C14: `execute_instruction` never reaches code declared unreachable. -/
theorem C14_instruction (deb : Bool) (code : U8) (c : Cpu Q) {t : List (Ev σ)} {e c'}
    (h : (executeInstruction deb code c).Runs t (e, c')) : e ≠ .ub :=
  (Prog.runs_wp h (ok_instruction deb code c)).noUb

/-- C14: `execute_next`. -/
theorem C14_next (deb : Bool) (c : Cpu Q) {t : List (Ev σ)} {e c'}
    (h : (executeNext deb c).Runs t (e, c')) : e ≠ .ub :=
  (Prog.runs_wp h (mv_next (P := fun _ => True) deb c)).2

/-- C14: `irq`. -/
theorem C14_irq (deb : Bool) (c : Cpu Q) {t : List (Ev σ)} {o c'}
    (h : (irq deb c).Runs t (o, c')) : o ≠ some .ub := by
  unfold irq at h
  split at h
  · obtain ⟨u, v, a, rfl, h1, h2⟩ := Prog.runs_bind.1 h
    obtain ⟨rfl, h2⟩ := Prog.runs_ret h2
    cases h2
    obtain ⟨v, ts, w, u, h, _⟩ := Prog.runs_wp h1 (ok_irqNoCheck deb c)
    exact fun h' => h.noUb (Option.some.inj h')
  · obtain ⟨rfl, h2⟩ := Prog.runs_ret h
    cases h2
    exact nofun

/-- C14: `execute_with_limit`, however long it runs. -/
theorem C14_limit (n : Nat) (l : σ.L) (c : Cpu Q) {t : List (Ev σ)} {e c'}
    (h : (executeWithLimit n l c).Runs t (some (e, c'))) : e ≠ .ub :=
  (Prog.runs_wp h (mv_limit (P := fun _ => True) n l c) _ _ rfl).2

/-! ## C24: acceptance of the maskable interrupt -/

omit [Flavour Q] in
theorem irqAllowed_iff (c : Cpu Q) : c.isIrqAllowed = true ↔
    c.getIffs.1 = true ∧ c.getPrefix = none ∧ c.isAfterEi = false := by
  simp only [Cpu.isIrqAllowed, isIntAllowed, Bool.and_eq_true, Option.isNone_iff_eq_none,
    Bool.not_eq_true', Cpu.getIffs, Cpu.getPrefix, Cpu.isAfterEi]

omit [Flavour Q] in
theorem nmiAllowed_iff (c : Cpu Q) : isIntAllowed c.pfx c.lastEi = true ↔
    c.getPrefix = none ∧ c.isAfterEi = false := by
  simp only [isIntAllowed, Bool.and_eq_true, Option.isNone_iff_eq_none, Bool.not_eq_true',
    Cpu.getPrefix, Cpu.isAfterEi]

/-- C24: not accepted: `None`, no call of the host, the CPU unchanged. -/
theorem C24_refused (deb : Bool) (c : Cpu Q)
    (h : c.getIffs.1 = false ∨ c.getPrefix ≠ none ∨ c.isAfterEi = true) :
    irq (σ := σ) deb c = .ret (none, c) := by
  have : ¬ c.isIrqAllowed = true := by
    rw [irqAllowed_iff]
    rintro ⟨h1, h2, h3⟩
    rcases h with h | h | h
    · rw [h] at h1; exact absurd h1 Bool.false_ne_true
    · exact h h2
    · rw [h] at h3; exact absurd h3.symm Bool.false_ne_true
  unfold irq
  rw [if_neg this]
  rfl

/-- C24: accepted: the first calls of the host are the acknowledge cycle and the request for the
byte on the bus, both with the return address, and the result is not `None`. -/
theorem C24_accepted (deb : Bool) (c : Cpu Q)
    (ha : c.getIffs.1 = true ∧ c.getPrefix = none ∧ c.isAfterEi = false) {t : List (Ev σ)} {o c'}
    (h : (irq deb c).Runs t (o, c')) :
    (∃ r, o = some r) ∧ ∃ ts v u,
      t = ⟨.addIrq (if c.isHalt then c.getPc + 1 else c.getPc), ts⟩ ::
        ⟨.irqData (if c.isHalt then c.getPc + 1 else c.getPc) ts, v⟩ :: u := by
  unfold irq at h
  rw [if_pos ((irqAllowed_iff c).2 ha)] at h
  obtain ⟨u, v, a, rfl, h1, h2⟩ := Prog.runs_bind.1 h
  obtain ⟨rfl, h2⟩ := Prog.runs_ret h2
  cases h2
  refine ⟨⟨_, rfl⟩, ?_⟩
  obtain ⟨v, ts, w, u, _, ht⟩ := Prog.runs_wp h1 (ok_irqNoCheck deb c)
  have hp : c.wake.pc = if c.isHalt then c.getPc + 1 else c.getPc := by
    unfold Cpu.wake
    show _ = if c.halt = true then c.pc + 1 else c.pc
    by_cases hh : c.halt = true
    · rw [if_pos hh, if_pos hh]; rfl
    · rw [if_neg hh, if_neg hh]
  rw [hp] at ht
  exact ⟨ts, (v, w), u, by rw [List.append_nil]; exact ht⟩

/-- C24: the result of `irq` tells whether the interrupt was accepted, and `is_irq_allowed`
predicts it. -/
theorem C24_iff (deb : Bool) (c : Cpu Q) {t : List (Ev σ)} {o c'}
    (h : (irq deb c).Runs t (o, c')) :
    (o.isSome = true ↔ c.getIffs.1 = true ∧ c.getPrefix = none ∧ c.isAfterEi = false) ∧
    c.isIrqAllowed = o.isSome := by
  have : o.isSome = true ↔ c.getIffs.1 = true ∧ c.getPrefix = none ∧ c.isAfterEi = false := by
    constructor
    · intro ho
      by_contra hn
      rw [← irqAllowed_iff] at hn
      unfold irq at h
      rw [if_neg hn] at h
      obtain ⟨_, h2⟩ := Prog.runs_ret h
      cases h2
      exact absurd ho Bool.false_ne_true
    · intro ha
      obtain ⟨⟨r, rfl⟩, _⟩ := C24_accepted deb c ha h
      rfl
  exact ⟨this, Bool.eq_iff_iff.2 ((irqAllowed_iff c).trans this.symm)⟩

/-- C24: `execute_next` asks the host for an interrupt exactly in those states, before anything
else, and accepts it. -/
theorem C24_next (deb : Bool) (c : Cpu Q) {t : List (Ev σ)} {e c'}
    (h : (executeNext deb c).Runs t (e, c')) :
    (c.isIrqAllowed = true ↔ ∃ ts b u, t = ⟨.asTimestamp, ts⟩ :: ⟨.isIrq ts, b⟩ :: u) ∧
    (∀ ts u, t = ⟨.asTimestamp, ts⟩ :: ⟨.isIrq ts, true⟩ :: u →
      (irq deb c).Runs u (some e, c')) := by
  unfold executeNext at h
  obtain ⟨u, v, i, rfl, h1, h2⟩ := Prog.runs_bind.1 h
  have hv : ∀ {ts b x v e c'}, i = false →
      (if i then irqNoCheck deb c else if c.halt then do
        let c ← haltStep c
        pure (.ok, c)
      else fetchExecute deb c : Prog σ _).Runs v (e, c') →
      v ≠ (⟨.asTimestamp, ts⟩ :: ⟨.isIrq ts, b⟩ :: x : List (Ev σ)) := by
    intro ts b x v e c' hi hr hv
    subst hv hi
    by_cases hh : c.halt = true
    · rw [if_neg Bool.false_ne_true, if_pos hh] at hr
      obtain ⟨_, _, ht, _⟩ := Prog.runs_call hr
      injection ht with ht _
      injection ht with ht _
      nomatch ht
    · rw [if_neg Bool.false_ne_true, if_neg hh] at hr
      obtain ⟨_, _, ht, _⟩ := Prog.runs_call hr
      injection ht with ht _
      injection ht with ht _
      nomatch ht
  cases ha : c.isIrqAllowed with
  | false =>
    rw [ha] at h1
    obtain ⟨rfl, rfl⟩ := Prog.runs_ret h1
    refine ⟨⟨nofun, ?_⟩, ?_⟩
    · rintro ⟨ts, b, x, hx⟩
      exact absurd hx (hv rfl h2)
    · intro ts x hx
      exact absurd hx (hv rfl h2)
  | true =>
    rw [ha] at h1
    obtain ⟨ts, u1, rfl, h3⟩ := Prog.runs_call h1
    obtain ⟨b, u2, rfl, h4⟩ := Prog.runs_call h3
    obtain ⟨rfl, rfl⟩ := Prog.runs_ret h4
    refine ⟨⟨fun _ => ⟨ts, _, v, rfl⟩, fun _ => rfl⟩, ?_⟩
    intro ts' x hx
    injection hx with _ hx
    injection hx with hx hx'
    subst hx'
    have hi : i = true := by
      injection hx
    subst hi
    unfold irq
    rw [if_pos ha]
    exact Prog.runs_bind.2 ⟨_, [], _, (List.append_nil _).symm, h2, .ret _⟩

/-! ## C27: EI defers interrupts by one instruction -/

theorem control_idx (code : U8) (ops : List U8) (a : U8) (k : Spec.Ctl) :
    (Spec.control code ops a k).idx =
      if code = 0xDD then .ix else if code = 0xFD then .iy else .hl := by
  by_cases h : code = 0xDD
  · subst h; rfl
  by_cases h2 : code = 0xFD
  · subst h2; rfl
  rw [if_neg h, if_neg h2]
  simp only [Spec.control, if_neg h, if_neg h2]
  split_ifs
  · rfl
  · rfl
  · rfl
  · rw [controlEd_eq]
    split <;> rfl
  · rfl

/-- The flip-flops after an instruction, by its bytes. -/
def iffAfter : List U8 → Bool × Bool → Bool × Bool
  | 0xF3 :: _, _ => (false, false)
  | 0xFB :: _, _ => (true, true)
  | 0xED :: x :: _, (i1, i2) => (if x &&& 0xC7 = 0x45 then i2 else i1, i2)
  | _, i => i

theorem control_iffs {code : U8} {ops : List U8} {i : Spec.Ix} (a : U8) (k : Spec.Ctl)
    (hl : ops.length = Spec.moreOpcodes i code) :
    ((Spec.control code ops a k).iff1, (Spec.control code ops a k).iff2) =
      iffAfter (code :: ops) (k.iff1, k.iff2) := by
  by_cases h1 : code = 0xF3
  · subst h1; rfl
  by_cases h2 : code = 0xFB
  · subst h2; rfl
  by_cases h3 : code = 0xED
  · subst h3
    obtain ⟨x, rfl⟩ := List.length_eq_one_iff.1 (hl.trans rfl)
    show ((Spec.controlEd x a _).iff1, (Spec.controlEd x a _).iff2) = iffAfter [0xED, x] _
    have hx : (x = 0x46 ∨ x = 0x4E ∨ x = 0x66 ∨ x = 0x6E → ¬ x &&& 0xC7 = 0x45) ∧
        (x = 0x56 ∨ x = 0x76 → ¬ x &&& 0xC7 = 0x45) ∧
        (x = 0x5E ∨ x = 0x7E → ¬ x &&& 0xC7 = 0x45) ∧
        (x = 0x47 → ¬ x &&& 0xC7 = 0x45) ∧ (x = 0x4F → ¬ x &&& 0xC7 = 0x45) := by
      refine ⟨?_, ?_, ?_, ?_, ?_⟩
      · rintro (rfl | rfl | rfl | rfl) <;> decide
      · rintro (rfl | rfl) <;> decide
      · rintro (rfl | rfl) <;> decide
      · rintro rfl; decide
      · rintro rfl; decide
    obtain ⟨x1, x2, x3, x4, x5⟩ := hx
    show _ = (if x &&& 0xC7 = 0x45 then k.iff2 else k.iff1, k.iff2)
    unfold Spec.controlEd
    by_cases g1 : x = 0x46 ∨ x = 0x4E ∨ x = 0x66 ∨ x = 0x6E
    · rw [if_pos g1, if_neg (x1 g1)]
    rw [if_neg g1]
    by_cases g2 : x = 0x56 ∨ x = 0x76
    · rw [if_pos g2, if_neg (x2 g2)]
    rw [if_neg g2]
    by_cases g3 : x = 0x5E ∨ x = 0x7E
    · rw [if_pos g3, if_neg (x3 g3)]
    rw [if_neg g3]
    by_cases g4 : x = 0x47
    · rw [if_pos g4, if_neg (x4 g4)]
    rw [if_neg g4]
    by_cases g5 : x = 0x4F
    · rw [if_pos g5, if_neg (x5 g5)]
    rw [if_neg g5]
    by_cases g6 : x &&& 0xC7 = 0x45
    · rw [if_pos g6, if_pos g6]
    · rw [if_neg g6, if_neg g6]
  · have e : iffAfter (code :: ops) (k.iff1, k.iff2) = (k.iff1, k.iff2) := by
      unfold iffAfter
      split <;> simp_all
    rw [e]
    simp only [Spec.control, if_neg h1, if_neg h2, if_neg h3]
    split_ifs <;> rfl

/-- C27: after EI the flip-flops are set, and neither `irq` nor `nmi` is accepted. -/
theorem C27_after_ei (deb : Bool) (c : Cpu Q) {t : List (Ev σ)} {e c'}
    (h : (executeInstruction deb 0xFB c).Runs t (e, c')) :
    c'.isAfterEi = true ∧ c'.getIffs = (true, true) ∧
    (∀ deb', irq (σ := σ) deb' c' = .ret (none, c')) ∧ nmi (σ := σ) c' = .ret (false, c') := by
  have h := (Prog.runs_wp h (ok_instruction deb 0xFB c)).ctl
  have h1 : c'.lastEi = true := congrArg Spec.Ctl.ei h
  have h2 : c'.iff1 = true := congrArg Spec.Ctl.iff1 h
  have h3 : c'.iff2 = true := congrArg Spec.Ctl.iff2 h
  refine ⟨h1, Prod.ext h2 h3, fun deb' => C24_refused _ _ (.inr (.inr h1)), ?_⟩
  unfold nmi
  have : isIntAllowed c'.pfx c'.lastEi = false := by
    rw [isIntAllowed, h1]; exact Bool.and_false _
  rw [this]
  rfl

/-- C27: one complete instruction later, other than EI, DI or a prefix, with the flip-flops set, the
maskable interrupt is accepted. -/
theorem C27_next_instruction (deb : Bool) (code : U8) (c : Cpu Q) (hi : c.getIffs = (true, true))
    (hc : code ≠ 0xFB ∧ code ≠ 0xF3 ∧ code ≠ 0xDD ∧ code ≠ 0xFD) {t : List (Ev σ)} {e c'}
    (h : (executeInstruction deb code c).Runs t (e, c')) : c'.isIrqAllowed = true := by
  have h := Prog.runs_wp h (ok_instruction deb code c)
  have h1 : c'.lastEi = _ := congrArg Spec.Ctl.ei h.ctl
  rw [control_ei] at h1
  have h2 := congrArg Spec.Ctl.idx h.ctl
  rw [control_idx, if_neg hc.2.2.1, if_neg hc.2.2.2] at h2
  have h3 := congrArg (fun k => (Spec.Ctl.iff1 k, Spec.Ctl.iff2 k)) h.ctl
  simp only [] at h3
  rw [control_iffs _ _ h.fetched] at h3
  have h3 : (c'.iff1, c'.iff2) = iffAfter (code :: opcodes t) c.getIffs := h3
  rw [hi] at h3
  have h4 : iffAfter (code :: opcodes t) (true, true) = (true, true) := by
    unfold iffAfter
    split
    · next e => injection e with e _; exact absurd e hc.2.1
    · rfl
    · next e _ => simp_all
    · rfl
  rw [h4] at h3
  rw [irqAllowed_iff]
  refine ⟨congrArg Prod.fst h3, ?_, ?_⟩
  · have : ixOf c'.pfx = .hl := h2
    show c'.pfx = none
    revert this
    rcases c'.pfx with _ | _ | _ <;> first | exact fun _ => rfl | exact fun h => nomatch h
  · show c'.lastEi = false
    rw [h1]
    exact beq_eq_false_iff_ne.2 hc.1

/-- `execute_next` called several times, each time delivering the single opcode `EI`. -/
inductive EiRun : Cpu Q → List (Ev σ) → Cpu Q → Prop
  | one {deb c t e c'} (h : (executeNext deb c).Runs t (e, c')) (hb : bytes t = [0xFB])
    (hi : c.isIrqAllowed = false) (hh : c.isHalt = false) : EiRun c t c'
  | more {deb c t d u e c'} (h : EiRun c t d) (h' : (executeNext deb d).Runs u (e, c'))
    (hb : bytes u = [0xFB]) : EiRun c (t ++ u) c'

theorem ei_step {deb : Bool} {c c' : Cpu Q} {t : List (Ev σ)} {e}
    (h : (executeNext deb c).Runs t (e, c')) (hb : bytes t = [0xFB])
    (hi : c.isIrqAllowed = false) (hh : c.isHalt = false) :
    c'.isAfterEi = true ∧ c'.isHalt = false ∧ ∀ v ∈ t, v.req.isInstr = true := by
  have h := Prog.runs_wp h (ok_next deb c)
  cases h with
  | irq ts u ht ha hr =>
    exact absurd ((irqAllowed_iff c).2 ha) (by rw [hi]; exact Bool.false_ne_true)
  | halted q hq ts ht hh' he hc => exact absurd hh' (by rw [show c.halt = false from hh]; exact Bool.false_ne_true)
  | instr q hq ts ir code u ht hh' hI =>
    subst ht
    obtain ⟨h1, h2, h3⟩ := counts_quiet (quiet_body hq)
    rw [bytes_append, h3] at hb
    have hb : code :: bytes u = [0xFB] := hb
    injection hb with hc _
    subst hc
    refine ⟨congrArg Spec.Ctl.ei hI.ctl, congrArg Spec.Ctl.halted hI.ctl, ?_⟩
    intro v hv
    rcases List.mem_append.1 hv with hv | hv
    · exact isInstr_body hq v hv
    · rcases List.mem_cons.1 hv with rfl | hv
      · rfl
      · rcases List.mem_cons.1 hv with rfl | hv
        · rfl
        · exact hI.calls v hv

/-- C27: throughout a run of EI instructions of any length no interrupt is acknowledged and none
is accepted after it. -/
theorem C27_run {c c' : Cpu Q} {t : List (Ev σ)} (h : EiRun c t c') :
    (∀ v ∈ t, v.req.isInstr = true) ∧ c'.isAfterEi = true ∧ c'.isHalt = false ∧
      c'.isIrqAllowed = false ∧ c'.isNmiAllowed = false := by
  have fin : ∀ c' : Cpu Q, c'.isAfterEi = true →
      c'.isIrqAllowed = false ∧ c'.isNmiAllowed = false := by
    intro c' h
    have h : c'.lastEi = true := h
    simp [Cpu.isIrqAllowed, Cpu.isNmiAllowed, isIntAllowed, h]
  induction h with
  | one h hb hi hh =>
    obtain ⟨h1, h2, h3⟩ := ei_step h hb hi hh
    exact ⟨h3, h1, h2, fin _ h1⟩
  | more h h' hb ih =>
    obtain ⟨i1, i2, i3, i4, _⟩ := ih
    obtain ⟨h1, h2, h3⟩ := ei_step h' hb i4 i3
    refine ⟨?_, h1, h2, fin _ h1⟩
    intro v hv
    rcases List.mem_append.1 hv with hv | hv
    · exact i1 v hv
    · exact h3 v hv

/-! ## C28: the interrupt flip-flops -/

/-- C28: the flip-flops after `execute_instruction`, by the bytes of the instruction: only DI, EI
and RETN/RETI change them. -/
theorem C28_instruction (deb : Bool) (code : U8) (c : Cpu Q) {t : List (Ev σ)} {e c'}
    (h : (executeInstruction deb code c).Runs t (e, c')) :
    c'.getIffs = iffAfter (code :: bytes t) c.getIffs := by
  have h := Prog.runs_wp h (ok_instruction deb code c)
  have h3 := congrArg (fun k => (Spec.Ctl.iff1 k, Spec.Ctl.iff2 k)) h.ctl
  simp only [] at h3
  rw [control_iffs _ _ h.fetched] at h3
  rw [bytes_instr h.calls]
  exact h3

/-- C28: an accepted interrupt clears both; in mode 0 the instruction delivered follows. -/
theorem C28_irq (deb : Bool) (c : Cpu Q) {t : List (Ev σ)} {r c'}
    (h : (irq deb c).Runs t (some r, c')) :
    c'.getIffs = if c.getIm = .mode0 then iffAfter (bytes t) (false, false) else (false, false) := by
  unfold irq at h
  split at h
  · obtain ⟨u, v, a, rfl, h1, h2⟩ := Prog.runs_bind.1 h
    obtain ⟨rfl, h2⟩ := Prog.runs_ret h2
    cases h2
    obtain ⟨v, ts, w, x, h, rfl⟩ := Prog.runs_wp h1 (ok_irqNoCheck deb c)
    have h3 := congrArg (fun k => (Spec.Ctl.iff1 k, Spec.Ctl.iff2 k)) h.ctl
    simp only [] at h3
    rw [control_iffs _ _ h.fetched] at h3
    have hb : bytes (⟨.addIrq c.wake.pc, ts⟩ :: ⟨.irqData c.wake.pc ts, (v, w)⟩ :: x) =
        v :: opcodes (⟨.addIrq c.wake.pc, ts⟩ :: ⟨.irqData c.wake.pc ts, (v, w)⟩ :: x) := by
      exact congrArg (v :: ·) (bytes_instr (t := x) h.calls)
    rw [List.append_nil, hb]
    refine (show a.2.getIffs = _ from h3).trans ?_
    unfold Cpu.getIm
    cases c.im <;> rfl
  · obtain ⟨_, h2⟩ := Prog.runs_ret h
    cases h2

/-- C28: an accepted non-maskable interrupt clears the first and keeps the second. -/
theorem C28_nmi (c : Cpu Q) {t : List (Ev σ)} {c'} (h : (nmi c).Runs t (true, c')) :
    c'.getIffs = (false, c.getIffs.2) := by
  unfold nmi at h
  split at h
  · obtain ⟨u, v, a, rfl, h1, h2⟩ := Prog.runs_bind.1 h
    obtain ⟨rfl, h2⟩ := Prog.runs_ret h2
    cases h2
    have := (Prog.runs_wp h1 (ok_nmiNoCheck _)).ctl
    exact Prod.ext (congrArg Spec.Ctl.iff1 this :) (congrArg Spec.Ctl.iff2 this :)
  · obtain ⟨_, h2⟩ := Prog.runs_ret h
    cases h2

theorem mv_iff {P : U8 → Prop} {k k' : Spec.Ctl} {t : List (Ev σ)} (h : Mv P k t k') :
    (k.iff1 = true → k.iff2 = true) → k'.iff1 = true → k'.iff2 = true := by
  have key : ∀ (code : U8) (ops : List U8) (a : U8) (k : Spec.Ctl),
      (k.iff1 = true → k.iff2 = true) →
      (Spec.control code ops a k).iff1 = true → (Spec.control code ops a k).iff2 = true := by
    intro code ops a k h
    rw [control_eq]
    dsimp only
    split
    · exact h
    · exact h
    · exact h
    · exact fun h => absurd h Bool.false_ne_true
    · exact fun _ => rfl
    · rw [controlEd_eq]
      split <;> first | exact h | exact id
    · exact h
  induction h with
  | quiet => exact id
  | halted => exact id
  | clearEi => exact id
  | fetch => exact fun h => key _ _ _ _ h
  | exec => exact fun h => key _ _ _ _ h
  | irq => exact fun h => key _ _ _ _ nofun
  | nmi => exact fun _ h => nomatch h
  | trans _ _ ih ih' => exact fun h => ih' (ih h)

/-- C28: IFF1 implies IFF2, over any history of calls of the execution and interrupt methods, with
any answers of the host. -/
theorem C28_invariant {P : U8 → Prop} {c c' : Cpu Q} {t : List (Ev σ)} (h : Hist P c t c')
    (hi : c.getIffs.1 = true → c.getIffs.2 = true) : c'.getIffs.1 = true → c'.getIffs.2 = true :=
  mv_iff (mv_hist h) hi

/-- C28: in particular it holds after any history from reset. -/
theorem C28_from_reset {P : U8 → Prop} {c c' : Cpu Q} {t : List (Ev σ)}
    (h : Hist P c.reset t c') : c'.getIffs.1 = true → c'.getIffs.2 = true :=
  C28_invariant h nofun

theorem mv_handler {k k' : Spec.Ctl} {t : List (Ev σ)}
    (h : Mv (fun b => b ≠ 0xED ∧ b ≠ 0xFB ∧ b ≠ 0xF3) k t k') (hk : k.iff1 = false)
    (hb : ∀ b ∈ bytes t, b ≠ 0xFB ∧ b ≠ 0xF3)
    (hr : ∀ x, x &&& 0xC7 = 0x45 → ¬ [0xED, x] <:+: bytes t) :
    k'.iff1 = false ∧ k'.iff2 = k.iff2 := by
  have key : ∀ {code : U8} {ops : List U8} {i : Spec.Ix} (a : U8) (k : Spec.Ctl),
      ops.length = Spec.moreOpcodes i code → code ≠ 0xFB → code ≠ 0xF3 →
      (∀ x, x &&& 0xC7 = 0x45 → code :: ops ≠ [0xED, x]) →
      (Spec.control code ops a k).iff1 = k.iff1 ∧ (Spec.control code ops a k).iff2 = k.iff2 := by
    intro code ops i a k hl h1 h2 h3
    have h := control_iffs a k hl
    have e : iffAfter (code :: ops) (k.iff1, k.iff2) = (k.iff1, k.iff2) := by
      by_cases hd : code = 0xED
      · subst hd
        obtain ⟨x, rfl⟩ := List.length_eq_one_iff.1 (hl.trans rfl)
        show (if x &&& 0xC7 = 0x45 then k.iff2 else k.iff1, k.iff2) = _
        rw [if_neg fun hx => h3 x hx rfl]
      · unfold iffAfter
        split <;> simp_all
    rw [e] at h
    exact ⟨congrArg Prod.fst h, congrArg Prod.snd h⟩
  induction h with
  | quiet => exact ⟨hk, rfl⟩
  | halted => exact ⟨hk, rfl⟩
  | clearEi => exact ⟨hk, rfl⟩
  | fetch k b a ir ts code u acc hu hl hm =>
    have hbt : bytes (⟨.addM1 a, ts⟩ :: ⟨.readOpcode a ir ts, code⟩ :: u) = code :: opcodes u := by
      show code :: bytes u = _
      rw [bytes_instr hu]
    rw [hbt] at hb hr
    have hc := hb code List.mem_cons_self
    have := key acc { k with r := Spec.refresh k.r 1, ei := b && k.ei, halted := b && k.halted } hl
      hc.1 hc.2 (fun x hx h => hr x hx (h ▸ List.infix_rfl))
    exact ⟨this.1.trans hk, this.2⟩
  | exec k code u acc hp hu hl hm =>
    have := key acc { k with ei := false, halted := false } hl hp.2.1 hp.2.2
      (fun x hx h => hp.1 (List.cons.inj h).1)
    exact ⟨this.1.trans hk, this.2⟩
  | irq k a ts b ts' v w u acc hi hu hl hm => exact absurd hi (by rw [hk]; exact Bool.false_ne_true)
  | nmi => exact ⟨rfl, rfl⟩
  | trans h h' ih ih' =>
    rw [bytes_append] at hb hr
    have h1 := ih hk (fun b hb' => hb b (List.mem_append_left _ hb'))
      (fun x hx => (infix_left (hr x hx)).1)
    have h2 := ih' h1.1 (fun b hb' => hb b (List.mem_append_right _ hb'))
      (fun x hx => (infix_left (hr x hx)).2)
    exact ⟨h2.1, h2.2.trans h1.2⟩

/-- C28: a non-maskable interrupt, then a handler of any length (itself possibly interrupted by
further ones) that delivers no EI, DI, RETN or RETI, then RETN: IFF1 is again what IFF2 was, and so
what IFF1 was if both were equal. -/
theorem C28_nmi_retn {c d d' c' : Cpu Q} {t u v : List (Ev σ)} {deb e} {x : U8}
    (h : (nmi c).Runs t (true, d))
    (hh : Hist (fun b => b ≠ 0xED ∧ b ≠ 0xFB ∧ b ≠ 0xF3) d u d')
    (hb : ∀ b ∈ bytes u, b ≠ 0xFB ∧ b ≠ 0xF3)
    (hr : ∀ x, x &&& 0xC7 = 0x45 → ¬ [0xED, x] <:+: bytes u)
    (hx : x &&& 0xC7 = 0x45)
    (h' : (executeInstruction deb 0xED d').Runs v (e, c')) (hv : bytes v = [x]) :
    c'.getIffs = (c.getIffs.2, c.getIffs.2) ∧
    (c.getIffs.1 = c.getIffs.2 → c'.getIffs = c.getIffs) := by
  have h1 := C28_nmi c h
  have h2 := mv_handler (mv_hist hh) (congrArg Prod.fst h1) hb hr
  have h3 := C28_instruction deb 0xED d' h'
  rw [hv] at h3
  have h4 : d'.getIffs = (false, c.getIffs.2) :=
    Prod.ext h2.1 (h2.2.trans (congrArg Prod.snd h1))
  rw [h4] at h3
  have h5 : c'.getIffs = (c.getIffs.2, c.getIffs.2) := by
    refine h3.trans ?_
    show (if x &&& 0xC7 = 0x45 then _ else _, _) = _
    rw [if_pos hx]
  exact ⟨h5, fun hc => h5.trans (Prod.ext hc.symm rfl)⟩

end

/-- Non-vacuity for C24 and C14: with an interrupt pending and enabled, `execute_next` accepts it
and runs the restart. -/
example : ∃ (t : List (Ev (tsSig 16 Unit Unit))) (e : Res _) (c' : Cpu NMOS),
    (executeNext false ((Cpu.new.setIffs true true).setIm .mode1)).Runs t (e, c') ∧
    (∃ ts u, t = ⟨.asTimestamp, ts⟩ :: ⟨.isIrq ts, true⟩ :: u) ∧ c'.getPc = 0x38 :=
  ⟨_, _, _, Prog.runs_run (ramHost (demoIo true 0xFF none none)) _ (0, program [], ()),
    ⟨_, _, rfl⟩, by decide +kernel⟩

/-- Non-vacuity for C27: two EI instructions in a row. -/
example : ∃ (t : List (Ev (tsSig 16 Unit Unit))) (c' : Cpu NMOS),
    EiRun Cpu.new t c' ∧ c'.getPc = 2 := by
  refine ⟨_, _, .more (deb := false) (.one (deb := false)
    (Prog.runs_run demo _ (0, program [0xFB, 0xFB], ())) ?_ rfl rfl)
    (Prog.runs_run demo _ (0, program [0xFB, 0xFB], ())) ?_, ?_⟩ <;> decide +kernel

/-- Memory of the next example: `LD A,I` at the address of the handler. -/
def nmiMem : Mem := fun a => if a = 0x66 then 0xED else if a = 0x67 then 0x57 else 0x45
/-- The CPU after the interrupt. -/
def nmiCpu : Cpu NMOS := ((nmi (Cpu.new.setIffs true true)).run demo (0, nmiMem, ())).1.2
/-- The CPU after the handler. -/
def nmiCpu' : Cpu NMOS := ((executeNext false nmiCpu).run demo (0, nmiMem, ())).1.2

/-- Non-vacuity for C28: `nmi`, a handler made of `LD A,I`, and `RETN`. -/
example : ∃ (t u v : List (Ev (tsSig 16 Unit Unit))) (d d' c' : Cpu NMOS) (e : Res _),
    (nmi (Cpu.new.setIffs true true)).Runs t (true, d) ∧
    Hist (fun b => b ≠ 0xED ∧ b ≠ 0xFB ∧ b ≠ 0xF3) d u d' ∧
    (∀ b ∈ bytes u, b ≠ 0xFB ∧ b ≠ 0xF3) ∧ (∀ x, x &&& 0xC7 = 0x45 → ¬ [0xED, x] <:+: bytes u) ∧
    (executeInstruction false 0xED d').Runs v (e, c') ∧ bytes v = [0x45] ∧
    c'.getIffs = (true, true) := by
  have h1 : (nmi (Cpu.new.setIffs true true)).Runs _ (true, nmiCpu) :=
    runs_demo demo _ (0, nmiMem, ()) (by decide +kernel)
  have h2 : (executeNext false nmiCpu).Runs _ (_, nmiCpu') :=
    Prog.runs_run demo (executeNext false nmiCpu) (0, nmiMem, ())
  have hb : bytes ((executeNext false nmiCpu).trace demo (0, nmiMem, ())) = [0xED, 0x57] := by
    decide +kernel
  refine ⟨_, _, _, _, _, _, _, h1, .next (.start _) false h2, ?_, ?_,
    Prog.runs_run demo (executeInstruction false 0xED nmiCpu') (0, nmiMem, ()), ?_, ?_⟩
  · rw [List.nil_append, hb]
    decide
  · intro x hx h
    rw [List.nil_append, hb] at h
    have := h.eq_of_length rfl
    simp only [List.cons.injEq, and_true, true_and] at this
    subst this
    exact absurd hx (by decide)
  · decide +kernel
  · decide +kernel

end Z80
