import Verif.Proofs.Fuel
import Verif.Props.Control

/-!
# Execution with a limit (C30, C31, C32)
-/

namespace Z80
open Ex

variable {σ : Sig} {Q : Type}

section
variable [Flavour Q]

/-! ## C30: the halted state excludes a pending prefix and EI -/

/-- The condition checked by the two `debug_assert!` of `execute_with_limit`. -/
def Calm (c : Cpu Q) : Prop := c.isHalt = true → c.pfx = none ∧ c.isAfterEi = false

/-- The instruction bytes executed last, and the marks they leave. -/
theorem instr_last {c d : Cpu Q} {code : U8} {t : List (Ev σ)} {e} (h : InstrOk c code t e d) :
    Calm d ∧ (d.lastEi = true → code = 0xFB ∧ bytes t = []) ∧
      (d.halt = true → code = 0x76 ∧ bytes t = []) := by
  have h1 : d.lastEi = (code == 0xFB) := (congrArg Spec.Ctl.ei h.ctl :).trans (control_ei _ _ _ _)
  have h2 : d.halt = (code == 0x76) :=
    (congrArg Spec.Ctl.halted h.ctl :).trans (control_halted _ _ _ _)
  have h3 := (congrArg Spec.Ctl.idx h.ctl :).trans (control_idx _ _ _ _)
  have h3 : ixOf d.pfx = _ := h3
  have hb : ∀ x : U8, x = 0xFB ∨ x = 0x76 → code = x → bytes t = [] := by
    rintro x hx rfl
    rw [bytes_instr h.calls]
    refine List.length_eq_zero_iff.1 (h.fetched.trans ?_)
    rcases hx with rfl | rfl <;> rfl
  refine ⟨fun hd => ?_, fun hd => ?_, fun hd => ?_⟩
  · rw [show d.halt = true from hd] at h2
    have h2 := beq_iff_eq.1 h2.symm
    rw [h2] at h1 h3
    refine ⟨?_, h1⟩
    have h3 : ixOf d.pfx = .hl := h3
    cases hp : d.pfx with
    | none => rfl
    | some p => rw [hp] at h3; cases p <;> cases h3
  · rw [hd] at h1
    have h1 := beq_iff_eq.1 h1.symm
    exact ⟨h1, hb _ (.inl rfl) h1⟩
  · rw [hd] at h2
    have h2 := beq_iff_eq.1 h2.symm
    exact ⟨h2, hb _ (.inr rfl) h2⟩

theorem irq_last {deb : Bool} {c d : Cpu Q} {t : List (Ev σ)} {e}
    (h : (irqNoCheck deb c).Runs t (e, d)) :
    Calm d ∧ (d.lastEi = true → (bytes t).getLast? = some 0xFB) ∧
      (d.halt = true → (bytes t).getLast? = some 0x76) := by
  obtain ⟨v, ts, w, u, h, rfl⟩ := Prog.runs_wp h (ok_irqNoCheck deb c)
  have ho : opcodes (⟨.addIrq c.wake.pc, ts⟩ :: ⟨.irqData c.wake.pc ts, (v, w)⟩ :: u) =
    opcodes u := rfl
  have h1 : d.lastEi = (irqCode (imOf c.im) v == 0xFB) :=
    (congrArg Spec.Ctl.ei h.ctl :).trans (control_ei _ _ _ _)
  have h2 : d.halt = (irqCode (imOf c.im) v == 0x76) :=
    (congrArg Spec.Ctl.halted h.ctl :).trans (control_halted _ _ _ _)
  have h3 := (congrArg Spec.Ctl.idx h.ctl :).trans (control_idx _ _ _ _)
  have h3 : ixOf d.pfx = _ := h3
  have hb : ∀ x : U8, x = 0xFB ∨ x = 0x76 → irqCode (imOf c.im) v = x →
      (bytes (⟨.addIrq c.wake.pc, ts⟩ :: ⟨.irqData c.wake.pc ts, (v, w)⟩ :: u)).getLast? = some x := by
    intro x hx hc
    have hf := h.fetched
    rw [ho, hc] at hf
    have hl : opcodes u = [] := List.length_eq_zero_iff.1 (hf.trans (by
      rcases hx with rfl | rfl <;> rfl))
    have hv : v = x := by
      unfold irqCode at hc
      split_ifs at hc
      · exact hc
      · rcases hx with rfl | rfl <;> exact absurd hc (by decide)
      · rcases hx with rfl | rfl <;> exact absurd hc (by decide)
    show (v :: bytes u).getLast? = _
    rw [bytes_instr (t := u) h.calls, hl, hv]; rfl
  refine ⟨fun hd => ?_, fun hd => ?_, fun hd => ?_⟩
  · rw [show d.halt = true from hd] at h2
    have h2 := beq_iff_eq.1 h2.symm
    rw [h2] at h1 h3
    refine ⟨?_, h1⟩
    have h3 : ixOf d.pfx = .hl := h3
    cases hp : d.pfx with
    | none => rfl
    | some p => rw [hp] at h3; cases p <;> cases h3
  · rw [hd] at h1
    exact hb _ (.inl rfl) (beq_iff_eq.1 h1.symm)
  · rw [hd] at h2
    exact hb _ (.inr rfl) (beq_iff_eq.1 h2.symm)

/-- The marks after `execute_next` come from the last instruction byte. -/
theorem next_last {deb : Bool} {c d : Cpu Q} {t : List (Ev σ)} {e}
    (h : (executeNext deb c).Runs t (e, d)) :
    (Calm c → Calm d) ∧
    (d.lastEi = true → (bytes t).getLast? = some 0xFB ∨ bytes t = [] ∧ c.lastEi = true) ∧
    (d.halt = true → (bytes t).getLast? = some 0x76 ∨ bytes t = [] ∧ c.halt = true) := by
  cases Prog.runs_wp h (ok_next deb c) with
  | irq ts u ht ha hr =>
    subst ht
    obtain ⟨h1, h2, h3⟩ := irq_last hr
    exact ⟨fun _ => h1, fun hd => .inl (h2 hd), fun hd => .inl (h3 hd)⟩
  | halted q hq ts ht hh he hc =>
    have hc : d = c.incR := hc
    subst hc
    have hb : bytes t = [] := by
      rw [ht, bytes_append, (counts_quiet (quiet_body hq)).2.2]; rfl
    exact ⟨id, fun hd => .inr ⟨hb, hd⟩, fun _ => .inr ⟨hb, hh⟩⟩
  | instr q hq ts ir code u ht hh hi =>
    obtain ⟨h1, h2, h3⟩ := instr_last hi
    have hb : bytes t = code :: bytes u := by
      rw [ht, bytes_append, (counts_quiet (quiet_body hq)).2.2]; rfl
    refine ⟨fun _ => h1, fun hd => .inl ?_, fun hd => .inl ?_⟩
    · rw [hb, (h2 hd).2, (h2 hd).1]; rfl
    · rw [hb, (h3 hd).2, (h3 hd).1]; rfl

theorem getLast?_cases {α : Type} {t u : List α} {x : α} (h : u.getLast? = some x) :
    (t ++ u).getLast? = some x := by
  rw [List.getLast?_append, h]; rfl

/-- The same for the plain loop. -/
theorem go_last {l : σ.L} {c d : Cpu Q} {t : List (Ev σ)} {e} (h : Go l c t e d) :
    (Calm c → Calm d) ∧
    (d.lastEi = true → (bytes t).getLast? = some 0xFB ∨ bytes t = [] ∧ c.lastEi = true) ∧
    (d.halt = true → (bytes t).getLast? = some 0x76 ∨ bytes t = [] ∧ c.halt = true) := by
  induction h with
  | stop h he => exact next_last h
  | last h =>
    rw [bytes_append, show bytes [(⟨.isPastLimit l, true⟩ : Ev σ)] = [] from rfl, List.append_nil]
    exact next_last h
  | @step c u d t e c' h h' ih =>
    obtain ⟨h1, h2, h3⟩ := next_last h
    obtain ⟨g1, g2, g3⟩ := ih
    rw [bytes_append, show bytes ((⟨.isPastLimit l, false⟩ : Ev σ) :: t) = bytes t from rfl]
    refine ⟨fun hc => g1 (h1 hc), fun hd => ?_, fun hd => ?_⟩
    · rcases g2 hd with hg | ⟨hg, hd⟩
      · exact .inl (getLast?_cases hg)
      · rw [hg, List.append_nil]
        exact h2 hd
    · rcases g3 hd with hg | ⟨hg, hd⟩
      · exact .inl (getLast?_cases hg)
      · rw [hg, List.append_nil]
        exact h3 hd

theorem nexts_last {l : σ.L} {c d : Cpu Q} {t : List (Ev σ)} {e} (h : Nexts l c t e d) :
    (Calm c → Calm d) ∧
    (d.lastEi = true → (bytes t).getLast? = some 0xFB ∨ bytes t = [] ∧ c.lastEi = true) ∧
    (d.halt = true → (bytes t).getLast? = some 0x76 ∨ bytes t = [] ∧ c.halt = true) := by
  rcases h with ⟨rfl, rfl, rfl⟩ | ⟨u, rfl, h⟩
  · exact ⟨id, fun h => .inr ⟨rfl, h⟩, fun h => .inr ⟨rfl, h⟩⟩
  · have h := go_last h
    exact h

/-- `execute_with_limit` keeps the condition when no device puts `EI` on the bus and interrupt
requests are not taken back between two queries. -/
theorem limit_calm {n : Nat} {l : σ.L} {c d : Cpu Q} {t : List (Ev σ)} {e}
    (h : (executeWithLimit n l c).Runs t (some (e, d))) (hN : NoEi t) (hT : NoTakeBack t)
    (hc : Calm c) : Calm d := by
  cases hh : c.halt with
  | false => exact (nexts_last (Prog.runs_wp h (limit_next n l c hh) _ _ rfl hN)).1 hc
  | true =>
    rcases Prog.runs_wp h (limit_halted n l c hh (hc hh).1 (hc hh).2) _ _ rfl hN hT with
      h | ⟨_, _, _, _, _, h⟩
    · exact (nexts_last h).1 hc
    · exact (nexts_last h).1 hc

theorem irq_calm {deb : Bool} {c d : Cpu Q} {t : List (Ev σ)} {e} (hc : Calm c)
    (r : (irq deb c).Runs t (e, d)) : Calm d := by
  unfold Z80.irq at r
  split at r
  · obtain ⟨u, v, a, rfl, h1, h2⟩ := Prog.runs_bind.1 r
    obtain ⟨rfl, h2⟩ := Prog.runs_ret h2
    cases h2
    exact (irq_last h1).1
  · obtain ⟨rfl, h2⟩ := Prog.runs_ret r
    cases h2
    exact hc

theorem nmi_calm {c d : Cpu Q} {t : List (Ev σ)} {e} (hc : Calm c)
    (r : (nmi c).Runs t (e, d)) : Calm d := by
  unfold Z80.nmi at r
  split at r
  · obtain ⟨u, v, a, rfl, h1, h2⟩ := Prog.runs_bind.1 r
    obtain ⟨rfl, h2⟩ := Prog.runs_ret h2
    cases h2
    have h3 := congrArg Spec.Ctl.halted (Prog.runs_wp h1 (ok_nmiNoCheck _)).ctl
    have h3 : d.isHalt = false := h3
    intro hd
    rw [h3] at hd
    cases hd
  · obtain ⟨rfl, h2⟩ := Prog.runs_ret r
    cases h2
    exact hc

/-- C30, except for hosts that answer an interrupt acknowledge with the byte of `EI` or take an
interrupt request back when asked a second time; see `C30_refuted` and `C30_refuted_prefix`. In
every history of execution and interrupt methods from a state in which the condition holds (in
particular from reset), a halted CPU has no pending prefix and no pending EI. -/
theorem C30_halt_excludes_pending_partial {P : U8 → Prop} {c d : Cpu Q} {t : List (Ev σ)}
    (h : Hist P c t d) (hc : Calm c) (hN : NoEi t) (hT : NoTakeBack t) : Calm d := by
  induction h with
  | start => exact hc
  | next _ deb r ih => exact (next_last r).1 (ih hN.left hT.left)
  | irq _ deb r ih => exact irq_calm (ih hN.left hT.left) r
  | nmi _ r ih => exact nmi_calm (ih hN.left hT.left) r
  | limit _ n l r ih => exact limit_calm r hN.right hT.right (ih hN.left hT.left)
  | instr _ deb code hp r ih => exact (instr_last (Prog.runs_wp r (ok_instruction deb code _))).1

/-- A CPU after reset satisfies the condition. -/
theorem C30_reset (c : Cpu Q) : Calm c.reset ∧ Calm (Cpu.new : Cpu Q) :=
  ⟨nofun, nofun⟩

/-- C30 without `execute_with_limit`: no condition on the host is needed. -/
theorem C30_without_limit {c d : Cpu Q} {t : List (Ev σ)} (hc : Calm c) :
    (∀ deb e, (executeNext deb c).Runs t (e, d) → Calm d) ∧
    (∀ deb code e, (executeInstruction deb code c).Runs t (e, d) → Calm d) ∧
    (∀ deb e, (irq deb c).Runs t (e, d) → Calm d) ∧
    (∀ e, (nmi c).Runs t (e, d) → Calm d) :=
  ⟨fun _ _ r => (next_last r).1 hc, fun deb code _ r =>
    (instr_last (Prog.runs_wp r (ok_instruction deb code _))).1, fun _ _ r => irq_calm hc r,
    fun _ r => nmi_calm hc r⟩

/-! ## C31: `execute_with_limit` as repeated `execute_next` -/

/-- C31 for a running CPU, when no device puts the opcode of `EI` on the bus: `execute_with_limit`
makes the same calls with the same result as the loop that tests the limit and calls
`execute_next`, in both directions. -/
theorem C31_limit_refines_next_partial (l : σ.L) {c : Cpu Q} (hh : c.isHalt = false)
    {t : List (Ev σ)} (hN : NoEi t) (e : Res σ) (c' : Cpu Q) :
    (∃ n, (executeWithLimit n l c).Runs t (some (e, c'))) ↔ Nexts l c t e c' :=
  ⟨fun ⟨n, h⟩ => Prog.runs_wp h (limit_next n l c hh) _ _ rfl hN, fun h => nexts_limit h hh hN⟩

/-- C31 for a halted CPU: the same, or the same except that the interrupt request which ends the
halted state is asked for twice. -/
theorem C31_limit_refines_next_halted_partial (l : σ.L) {c : Cpu Q} (hh : c.isHalt = true)
    (hc : Calm c) {n : Nat} {t : List (Ev σ)} (hN : NoEi t) (hT : NoTakeBack t) {e : Res σ}
    {c' : Cpu Q} (h : (executeWithLimit n l c).Runs t (some (e, c'))) : HaltedNext l c t e c' :=
  Prog.runs_wp h (limit_halted n l c hh (hc hh).1 (hc hh).2) _ _ rfl hN hT

/-- The bound on the number of iterations in the model makes no difference once it suffices. -/
theorem C31_bound {n m : Nat} (h : n ≤ m) {l : σ.L} {c : Cpu Q} {t : List (Ev σ)}
    {r : Res σ × Cpu Q} (hr : (executeWithLimit n l c).Runs t (some r)) :
    (executeWithLimit m l c).Runs t (some r) := Prog.le_runs (limit_le h l c) hr

/-! ## C32: the reasons to return -/

/-- C32: breaks are reported exactly when the host asked for them. In a run of `execute_with_limit`
* the result is `Ok` exactly when the last call is the test of the limit `l` answered "reached", and
  no earlier test was answered so;
* the result is `WriteIo(o)` or `Reti(r)` exactly when the host requested that break; it requested no
  other break and no instruction byte was fetched after it;
* the result is `Halt` only when the last instruction byte was that of `HALT`, and the CPU is halted. -/
theorem C32_reasons {n : Nat} {l : σ.L} {c c' : Cpu Q} {t : List (Ev σ)} {e : Res σ}
    (h : (executeWithLimit n l c).Runs t (some (e, c'))) :
    (e = .ok ↔ t.getLast? = some ⟨.isPastLimit l, true⟩) ∧
    (∀ v ∈ t.dropLast, ∀ k, v ≠ ⟨.isPastLimit k, true⟩) ∧
    causes t = resV e ∧
    (∀ a v b, t = a ++ v :: b → v.cause.isSome = true → bytes b = []) ∧
    (e = .halt → (bytes t).getLast? = some 0x76 ∧ c'.isHalt = true) ∧ e ≠ .ub := by
  have h := Prog.runs_wp h (limit_left n l c) _ _ rfl
  refine ⟨h.ok, h.past, h.caused.1, fun a v b ht hv => ?_, h.halt, h.noUb⟩
  have := h.caused.2
  rw [ht] at this
  clear h ht
  induction a with
  | nil => exact this.1 hv
  | cons x a ih => exact ih this.2

/-- C32 for `execute_next`, `execute_instruction` and `irq`. -/
theorem C32_reasons_single {deb : Bool} {c c' : Cpu Q} {t : List (Ev σ)} {e : Res σ} (code : U8)
    (h : (executeNext deb c).Runs t (e, c') ∨ (executeInstruction deb code c).Runs t (e, c') ∨
      (irq deb c).Runs t (some e, c')) :
    causes t = resV e ∧ (∀ a v b, t = a ++ v :: b → v.cause.isSome = true → bytes b = []) := by
  have h : Caused t e := by
    rcases h with h | h | h
    · have := Prog.runs_wp h (caused_next deb c)
      exact this
    · have := Prog.runs_wp h (caused_instruction deb code c)
      exact this
    · unfold Z80.irq at h
      split at h
      · obtain ⟨u, v, a, rfl, h1, h2⟩ := Prog.runs_bind.1 h
        obtain ⟨rfl, h2⟩ := Prog.runs_ret h2
        cases h2
        rw [List.append_nil]
        have := Prog.runs_wp h1 (caused_irq deb c)
        exact this
      · obtain ⟨rfl, h2⟩ := Prog.runs_ret h
        cases h2
  refine ⟨h.1, fun a v b ht hv => ?_⟩
  have := h.2
  rw [ht] at this
  clear h ht
  induction a with
  | nil => exact this.1 hv
  | cons x a ih => exact ih this.2

/-- C32: nothing is executed when the limit is already reached: the only call is the test. -/
theorem C32_limit_already_reached {n : Nat} {l : σ.L} {c c' : Cpu Q} {t : List (Ev σ)} {e : Res σ}
    (h : (executeWithLimit n l c).Runs t (some (e, c'))) :
    (∃ b u, t = ⟨.isPastLimit l, b⟩ :: u) ∧
    (t.head? = some ⟨.isPastLimit l, true⟩ → t.length = 1 ∧ e = .ok ∧ c' = c) := by
  have first : ∃ b u, t = ⟨.isPastLimit l, b⟩ :: u ∧ (b = true → u = [] ∧ e = .ok ∧ c' = c) := by
    unfold executeWithLimit at h
    split at h
    · cases n with
      | zero => cases (Prog.runs_ret h).2
      | succ n =>
        obtain ⟨b, u, rfl, h'⟩ := Prog.runs_call h
        refine ⟨b, u, rfl, ?_⟩
        rintro rfl
        obtain ⟨rfl, h'⟩ := Prog.runs_ret h'
        cases h'
        exact ⟨rfl, rfl, rfl⟩
    · obtain ⟨b, u, rfl, h'⟩ := Prog.runs_call h
      refine ⟨b, u, rfl, ?_⟩
      rintro rfl
      obtain ⟨rfl, h'⟩ := Prog.runs_ret h'
      cases h'
      exact ⟨rfl, rfl, rfl⟩
  obtain ⟨b, u, rfl, hb⟩ := first
  refine ⟨⟨b, u, rfl⟩, fun ht => ?_⟩
  have : b = true := by
    injection ht with ht
    injection ht
  obtain ⟨rfl, h'⟩ := hb this
  exact ⟨rfl, h'⟩

end

/-! ## Counterexamples and instances -/

/-- Devices that answer the interrupt queries in turn as listed, then with "no", and put byte `v` on
the bus when acknowledged. -/
def scriptIo (v : U8) : Handler (tsSig 16 Unit Unit) (List Bool)
  | .isIrq _, s => (s.headD false, s.tail)
  | .irqData _ _, s => ((v, none), s)
  | r, s => ((demoIo false 0 none none r ()).1, s)

/-- A machine with these devices. -/
abbrev scripted (v : U8) := ramHost (scriptIo v)

/-- A run that does not run out of iterations. -/
theorem runs_some {σ : Sig} {S α β : Type} (H : Handler σ S) (p : Prog σ (Option (α × β))) (h : S)
    (hs : (p.run H h).1.isSome = true) :
    p.Runs (p.trace H h) (some (((p.run H h).1.get hs).1, ((p.run H h).1.get hs).2)) := by
  have h1 := Prog.runs_run H p h
  revert hs
  generalize (p.run H h).1 = r at h1
  intro hs
  cases r with
  | none => cases hs
  | some x => exact h1

/-- The same when the reason to end is known. -/
theorem runs_reason {σ : Sig} {S α β : Type} (H : Handler σ S) (p : Prog σ (Option (α × β))) (h : S)
    (b : β) {e : α} (hs : (p.run H h).1.map Prod.fst = some e) :
    p.Runs (p.trace H h) (some (e, ((p.run H h).1.map Prod.snd).getD b)) := by
  have h1 := Prog.runs_run H p h
  revert hs
  generalize (p.run H h).1 = r at h1
  intro hs
  cases r with
  | none => cases hs
  | some x => cases hs; exact h1

theorem noEi_of_bytes {σ : Sig} {t : List (Ev σ)} (h : 0xFB ∉ bytes t) : NoEi t := by
  intro pc ts v hv hf
  exact h (List.mem_filterMap.2 ⟨_, hv, congrArg some hf⟩)

/-- The bytes put on the bus by interrupting devices. -/
def irqBytes {σ : Sig} (t : List (Ev σ)) : List U8 :=
  t.filterMap fun
    | ⟨.irqData _ _, v⟩ => some v.1
    | _ => none

theorem noEi_iff {σ : Sig} {t : List (Ev σ)} : NoEi t ↔ 0xFB ∉ irqBytes t := by
  constructor
  · intro h hm
    obtain ⟨⟨r, a⟩, he, hf⟩ := List.mem_filterMap.1 hm
    cases r <;> first | (cases hf; done) | skip
    injection hf with hf
    exact h _ _ _ he hf
  · intro h pc ts v hv hf
    exact h (List.mem_filterMap.2 ⟨_, hv, congrArg some hf⟩)

/-- The answers to interrupt queries. -/
def irqAnswers {σ : Sig} (t : List (Ev σ)) : List Bool :=
  t.filterMap fun
    | ⟨.isIrq _, b⟩ => some b
    | _ => none

theorem noTakeBack_of_answers {σ : Sig} {t : List (Ev σ)} (h : false ∉ irqAnswers t) :
    NoTakeBack t := by
  intro ts ts' hi
  exact h (List.mem_filterMap.2 ⟨⟨.isIrq ts', false⟩, hi.subset (by simp), rfl⟩)

/-- A CPU with interrupts enabled. -/
def intCpu : Cpu NMOS := Cpu.new.setIffs true true

/-- C31 fails for a running CPU when a device answers the interrupt acknowledge in mode 0 with the
opcode of `EI`: the CPU remains marked as just after `EI` while further instructions are executed,
which repeated `execute_next` never does. -/
theorem C31_refuted : ∃ (n : Nat) (l : BitVec 16) (c : Cpu NMOS)
    (t : List (Ev (tsSig 16 Unit Unit))) (e : Res (tsSig 16 Unit Unit)) (c' : Cpu NMOS),
    c.isHalt = false ∧ (executeWithLimit n l c).Runs t (some (e, c')) ∧ ¬ Nexts l c t e c' := by
  refine ⟨9, 12, intCpu, _, _, _, rfl,
    runs_some (scripted 0xFB) _ (0, program [], [true]) (by decide +kernel), fun h => ?_⟩
  rcases (nexts_last h).2.1 (by decide +kernel) with h | ⟨_, h⟩
  · exact absurd h (by decide +kernel)
  · exact absurd h (by decide +kernel)

/-- The CPU halted by its first instruction, interrupts enabled. -/
def haltedCpu : Cpu NMOS := ((executeNext false intCpu).run demo (0, program [0x76], ())).1.2

/-- C31 fails for a halted CPU when the interrupt request is taken back between the two queries: the
CPU executes instructions (here `NOP`, the host having replaced the program) still marked as halted,
which repeated `execute_next` never does. -/
theorem C31_refuted_halted : ∃ (n : Nat) (l : BitVec 16) (c : Cpu NMOS)
    (t : List (Ev (tsSig 16 Unit Unit))) (e : Res (tsSig 16 Unit Unit)) (c' : Cpu NMOS),
    c.isHalt = true ∧ Calm c ∧ NoEi t ∧
    (executeWithLimit n l c).Runs t (some (e, c')) ∧ ¬ HaltedNext l c t e c' := by
  have hc : Calm haltedCpu := fun _ => by decide +kernel
  refine ⟨9, 12, haltedCpu, _, _, _, by decide +kernel, hc, ?_,
    runs_some (scripted 0xFF) _ (0, program [], [true, false]) (by decide +kernel), fun h => ?_⟩
  · exact noEi_of_bytes (by decide +kernel)
  · have key : ∀ t' : List (Ev (tsSig 16 Unit Unit)), bytes t' = bytes ((executeWithLimit 9
        (12 : BitVec 16) haltedCpu).trace (scripted 0xFF) (0, program [], [true, false])) →
        ∀ e c', c'.isHalt = true → ¬ Nexts (12 : BitVec 16) haltedCpu t' e c' := by
      intro t' hb e c' hh h
      rcases (nexts_last h).2.2 hh with h | ⟨h, _⟩
      · rw [hb] at h
        exact absurd h (by decide +kernel)
      · rw [hb] at h
        exact absurd h (by decide +kernel)
    rcases h with h | ⟨a, ts, ts', b, ht, h⟩
    · exact key _ rfl _ _ (by decide +kernel) h
    · refine key _ ?_ _ _ (by decide +kernel) h
      rw [ht]
      simp only [bytes_append]
      rfl

/-- C30 fails when a device answers the interrupt acknowledge in mode 0 with the opcode of `EI` and
`HALT` follows: the CPU is halted with a pending EI after a single call of `execute_with_limit` from
reset. Program: `EI; NOP; HALT`. -/
theorem C30_refuted : ∃ (t : List (Ev (tsSig 16 Unit Unit))) (c' : Cpu NMOS),
    Hist (fun _ => False) Cpu.new t c' ∧ NoTakeBack t ∧ ¬ Calm c' := by
  refine ⟨_, _, .limit (.start _) 9 (100 : BitVec 16) (runs_some (scripted 0xFB) _
    (0, program [0xFB, 0x00, 0x76], [true]) (by decide +kernel)), ?_, fun h => ?_⟩
  · exact noTakeBack_of_answers (by decide +kernel)
  · have := h (by decide +kernel)
    exact absurd this.2 (by decide +kernel)

/-- The machine of the next example. -/
def startCpu : Cpu NMOS := Cpu.new
/-- The CPU after `EI; HALT` executed with a limit. -/
@[irreducible] def haltedCpu' : Cpu NMOS := (((executeWithLimit 9 (100 : BitVec 16) startCpu).run demo
  (0, program [0xFB, 0x76], ())).1.map Prod.snd).getD startCpu

/-- C30 fails for a prefix too: when the interrupt request is taken back between the two queries and
the host has replaced the `HALT` opcode by `DD`, the CPU is halted with a pending prefix. -/
theorem C30_refuted_prefix : ∃ (t : List (Ev (tsSig 16 Unit Unit))) (c' : Cpu NMOS),
    Hist (fun _ => False) Cpu.new t c' ∧ NoEi t ∧ ¬ Calm c' := by
  have h1 : ∃ t, (executeWithLimit (σ := tsSig 16 Unit Unit) 9 (100 : BitVec 16) startCpu).Runs t
      (some (.halt, haltedCpu')) ∧ NoEi t := by
    unfold haltedCpu'
    exact ⟨_, runs_reason demo _ (0, program [0xFB, 0x76], ()) startCpu (by rfl),
      noEi_iff.2 (by decide +kernel)⟩
  obtain ⟨t, h1, hN⟩ := h1
  have h2 := runs_some (scripted 0xFF) (executeWithLimit 9 (4 : BitVec 16) haltedCpu')
    (0, program [0xFB, 0xDD], [true, false]) (by decide +kernel)
  refine ⟨_, _, .limit (.limit (.start _) 9 (100 : BitVec 16) h1) 9 (4 : BitVec 16) h2,
    ?_, fun h => ?_⟩
  · intro pc ts v hv
    rcases List.mem_append.1 hv with hv | hv
    · exact hN pc ts v hv
    · exact noEi_iff.2 (by decide +kernel) pc ts v hv
  · have := h (by decide +kernel)
    exact absurd this.1 (by decide +kernel)

/-- Non-vacuity for C30, C31 and C32: a run of several instructions with an accepted interrupt in
mode 1, ended by the limit. -/
example : ∃ (n : Nat) (l : BitVec 16) (c : Cpu NMOS)
    (t : List (Ev (tsSig 16 Unit Unit))) (c' : Cpu NMOS),
    c.isHalt = false ∧ Calm c ∧ NoEi t ∧ NoTakeBack t ∧ (bytes t).length = 4 ∧
    (executeWithLimit n l c).Runs t (some (.ok, c')) :=
  ⟨9, 24, intCpu.setIm .mode1, _, _, rfl, nofun, noEi_of_bytes (by decide +kernel),
    noTakeBack_of_answers (by decide +kernel), by decide +kernel,
    runs_reason (scripted 0xFF) _ (0, program [], [true]) intCpu (by rfl)⟩

/-- Non-vacuity for C31 with a halted CPU, woken up by an interrupt. -/
example : ∃ (n : Nat) (l : BitVec 16) (c : Cpu NMOS)
    (t : List (Ev (tsSig 16 Unit Unit))) (c' : Cpu NMOS),
    c.isHalt = true ∧ Calm c ∧ NoEi t ∧ NoTakeBack t ∧
    (executeWithLimit n l c).Runs t (some (.ok, c')) ∧ c'.isHalt = false :=
  ⟨9, 24, haltedCpu.setIm .mode1, _, _, by decide +kernel, fun _ => by decide +kernel,
    noEi_of_bytes (by decide +kernel), noTakeBack_of_answers (by decide +kernel),
    runs_reason (scripted 0xFF) _ (0, program [0x76], [true, true]) intCpu (by rfl),
    by decide +kernel⟩

/-- Non-vacuity for C32: `OUT (0),A` with a break requested. -/
example : ∃ (t : List (Ev (tsSig 16 Unit Unit))) (c' : Cpu NMOS) (n : Nat),
    (executeWithLimit n (100 : BitVec 16) Cpu.new).Runs t (some (.writeIo (), c')) :=
  ⟨_, _, 9, runs_reason (ramHost (demoIo false 0 (some ()) none)) _ (0, program [0, 0xD3, 0], ())
    intCpu (by rfl)⟩

/-- Non-vacuity for C32: `RETI` with a break requested. -/
example : ∃ (t : List (Ev (tsSig 16 Unit Unit))) (c' : Cpu NMOS) (n : Nat),
    (executeWithLimit n (100 : BitVec 16) Cpu.new).Runs t (some (.reti (), c')) :=
  ⟨_, _, 9, runs_reason (ramHost (demoIo false 0 none (some ()))) _ (0, program [0, 0xED, 0x4D], ())
    intCpu (by rfl)⟩

end Z80
