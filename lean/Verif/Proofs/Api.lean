import Verif.Proofs.Ctl
import Verif.Proofs.Runs

/-!
# Control state after the execution and interrupt methods, for every host
-/

namespace Z80
open Ex

variable {σ : Sig} {Q : Type}

/-- Control state of a CPU as the programmer sees it. -/
def Cpu.view (c : Cpu Q) : Spec.Ctl :=
  ⟨c.ir.hi, c.getR, c.iff1, c.iff2, imOf c.im, c.halt, c.lastEi, ixOf c.pfx⟩

/-- Is the call an interrupt acknowledge cycle. -/
def Ev.isAck : Ev σ → Bool
  | ⟨.addIrq _, _⟩ => true
  | _ => false

/-- The number of interrupt acknowledge cycles in a sequence of calls. -/
def acks (t : List (Ev σ)) : Nat := t.countP Ev.isAck

theorem acks_instr {t : List (Ev σ)} (h : ∀ e ∈ t, e.req.isInstr = true) : acks t = 0 := by
  rw [acks, List.countP_eq_zero]
  rintro ⟨r, a⟩ he
  have := h _ he
  cases r <;> first | exact Bool.false_ne_true | exact absurd this Bool.false_ne_true

/-- What `execute_instruction` does to the control state. -/
structure InstrOk (c : Cpu Q) (code : U8) (t : List (Ev σ)) (e : Res σ) (c' : Cpu Q) : Prop where
  calls : ∀ v ∈ t, v.req.isInstr = true
  fetched : (opcodes t).length = Spec.moreOpcodes (ixOf c.pfx) code
  m1 : m1s t = (opcodes t).length
  ctl : c'.view = Spec.control code (opcodes t) c.af.hi { c.view with ei := false, halted := false }
  noUb : e ≠ .ub
  halt : e = .halt ↔ code = 0x76

variable [Flavour Q]

omit [Flavour Q] in
theorem toRes_halt (e : Exit σ) : e.toRes = .halt ↔ e = .halt := by
  cases e <;> simp [Exit.toRes]
omit [Flavour Q] in
theorem toRes_ub (e : Exit σ) : e.toRes = .ub ↔ e = .ub := by
  cases e <;> simp [Exit.toRes]

theorem ok_instruction (deb : Bool) (code : U8) (c : Cpu Q) :
    (executeInstruction (σ := σ) deb code c).wp fun t r => InstrOk c code t r.1 r.2 := by
  refine (Prog.wp_bind _ _ _).2 (Prog.wp_mono ?_ (ok_code code _))
  intro t r h
  show InstrOk c code (t ++ []) r.1.toRes r.2.store
  rw [List.append_nil]
  exact ⟨h.calls, h.fetched, h.m1, h.ctl, fun h' => h.noUb ((toRes_ub _).1 h'),
    (toRes_halt _).trans h.halt⟩

/-- The instruction started by an interrupt acknowledged with byte `v`. -/
def irqCode (im : Nat) (v : U8) : U8 :=
  if im = 0 then v else if im = 1 then 0xFF else 0xC3

/-- What an accepted maskable interrupt does to the control state; `v` is the byte delivered by
the host. -/
structure IrqOk (c : Cpu Q) (v : U8) (t : List (Ev σ)) (e : Res σ) (c' : Cpu Q) : Prop where
  calls : ∀ e ∈ t.drop 2, e.req.isInstr = true
  m1 : m1s t = (opcodes t).length
  ack : acks t = 1
  fetched : (opcodes t).length = Spec.moreOpcodes (ixOf c.pfx) (irqCode (imOf c.im) v)
  ctl : c'.view = Spec.control (irqCode (imOf c.im) v) (opcodes t) c.af.hi
    { c.view with iff1 := false, iff2 := false, ei := false, halted := false,
                  r := Spec.refresh c.view.r 1 }
  noUb : e ≠ .ub
  halt : e = .halt ↔ irqCode (imOf c.im) v = 0x76

omit [Flavour Q] in
theorem opcodes_append (t u : List (Ev σ)) : opcodes (t ++ u) = opcodes t ++ opcodes u := by
  simp [opcodes]
omit [Flavour Q] in
theorem m1s_append (t u : List (Ev σ)) : m1s (t ++ u) = m1s t + m1s u := by
  simp [m1s]
omit [Flavour Q] in
theorem acks_append (t u : List (Ev σ)) : acks (t ++ u) = acks t + acks u := by
  simp [acks]

omit [Flavour Q] in
theorem wp_ask {α : Type} {r : Req σ} {f : r.Ans → Prog σ α} {P : List (Ev σ) → α → Prop}
    (h : ∀ a, (f a).wp fun t x => P (⟨r, a⟩ :: t) x) : ((ask r).bind f).wp P := h

omit [Flavour Q] in
theorem wp_askWait {α : Type} {b : U16} {o : Option U16} {f : Unit → Prog σ α}
    {P : List (Ev σ) → α → Prop}
    (h : ∀ u : List (Ev σ), (∀ e ∈ u, ∃ w, o = some w ∧ e = ⟨.addWait b w, ()⟩) →
      (f ()).wp fun t x => P (u ++ t) x) :
    ((askWait b o).bind f).wp P := by
  cases o with
  | none => exact h [] (fun _ h => absurd h List.not_mem_nil)
  | some w =>
    intro u
    exact h [⟨.addWait b w, ()⟩] (fun e he => ⟨w, rfl, List.mem_singleton.1 he⟩)

omit [Flavour Q] in
theorem wake_view (c : Cpu Q) : c.wake.view = { c.view with halted := false } := by
  unfold Cpu.wake
  by_cases h : c.halt = true
  · rw [if_pos h]; rfl
  · rw [if_neg h]; simp only [Cpu.view, Bool.eq_false_iff.2 h]

omit [Flavour Q] in
theorem ack_view (c : Cpu Q) : c.disableInterrupts.incR.wake.view =
    { c.view with iff1 := false, iff2 := false, halted := false, r := Spec.refresh c.view.r 1 } := by
  rw [wake_view]
  have := refresh_rOf c.ir c.r 1
  simp only [Cpu.view, Spec.Ctl.mk.injEq]
  exact ⟨rfl, this, rfl, rfl, rfl, trivial, rfl, rfl⟩

omit [Flavour Q] in
theorem wake_keeps (c : Cpu Q) : c.wake.af = c.af ∧ c.wake.pfx = c.pfx ∧ c.wake.im = c.im := by
  unfold Cpu.wake
  by_cases h : c.halt = true
  · rw [if_pos h]; exact ⟨rfl, rfl, rfl⟩
  · rw [if_neg h]; exact ⟨rfl, rfl, rfl⟩

theorem ok_irqNoCheck (deb : Bool) (c : Cpu Q) :
    (irqNoCheck (σ := σ) deb c).wp fun t r => ∃ v ts w u, IrqOk c v t r.1 r.2 ∧
      t = ⟨.addIrq c.wake.pc, ts⟩ :: ⟨.irqData c.wake.pc ts, (v, w)⟩ :: u := by
  have hpc : c.disableInterrupts.incR.wake.pc = c.wake.pc := by
    unfold Cpu.wake
    cases h : c.halt <;> simp [Cpu.disableInterrupts, Cpu.incR, h]
  have hv := ack_view c
  have hk := wake_keeps c.disableInterrupts.incR
  unfold irqNoCheck
  rw [← hpc]
  simp only [] at hk ⊢
  generalize c.disableInterrupts.incR.wake = c1 at *
  refine wp_ask fun ts => wp_ask fun v => wp_askWait fun w hw => ?_
  have hw0 : opcodes w = [] ∧ m1s w = 0 ∧ acks w = 0 := by
    refine ⟨List.filterMap_eq_nil_iff.2 ?_, List.countP_eq_zero.2 ?_, List.countP_eq_zero.2 ?_⟩ <;>
    · intro e he
      obtain ⟨x, _, rfl⟩ := hw e he
      simp [Ev.opcode, Ev.isM1, Ev.isAck]
  have fin : ∀ {t : List (Ev σ)} {u : List (Ev σ)} {e : Res σ} {c2 c' : Cpu Q},
      (∀ v ∈ u, v.req.isBody = true) →
      InstrOk c2 (irqCode (imOf c.im) v.1) t e c' → c2.pfx = c.pfx → c2.af = c.af →
      { c2.view with ei := false, halted := false } =
        { c1.view with ei := false, halted := false } →
      ∃ v' ts' w' u', IrqOk c v' (⟨.addIrq c1.pc, ts⟩ :: ⟨.irqData c1.pc ts, v⟩ :: (w ++ (u ++ t)))
        e c' ∧ (⟨.addIrq c1.pc, ts⟩ :: ⟨.irqData c1.pc ts, v⟩ :: (w ++ (u ++ t)) : List (Ev σ)) =
        ⟨.addIrq c1.pc, ts'⟩ :: ⟨.irqData c1.pc ts', (v', w')⟩ :: u' := by
    intro t u e c2 c' hu h hp ha hvw
    refine ⟨v.1, ts, v.2, w ++ (u ++ t), ?_, rfl⟩
    have ho : opcodes (⟨.addIrq c1.pc, ts⟩ :: ⟨.irqData c1.pc ts, v⟩ :: (w ++ (u ++ t))) =
        opcodes t := by
      show opcodes (w ++ (u ++ t)) = _
      rw [opcodes_append, opcodes_append, opcodes_body hu, hw0.1]; rfl
    have hm : m1s (⟨.addIrq c1.pc, ts⟩ :: ⟨.irqData c1.pc ts, v⟩ :: (w ++ (u ++ t))) = m1s t := by
      rw [m1s, List.countP_cons_of_neg (by exact Bool.false_ne_true),
        List.countP_cons_of_neg (by exact Bool.false_ne_true)]
      show m1s _ = _
      rw [m1s_append, m1s_append, m1s_body hu, hw0.2.1]; omega
    have hacks : acks (⟨.addIrq c1.pc, ts⟩ :: ⟨.irqData c1.pc ts, v⟩ :: (w ++ (u ++ t))) = 1 := by
      rw [acks, List.countP_cons_of_pos rfl, List.countP_cons_of_neg (by exact Bool.false_ne_true)]
      show acks _ + 1 = _
      rw [acks_append, acks_append, acks_instr (isInstr_body hu), hw0.2.2, acks_instr h.calls]
    refine ⟨?_, by rw [ho, hm]; exact h.m1, hacks, by rw [ho, h.fetched, hp], ?_, h.noUb, h.halt⟩
    · intro e he
      rcases List.mem_append.1 (he : e ∈ w ++ (u ++ t)) with he | he
      · obtain ⟨_, _, rfl⟩ := hw e he
        rfl
      · rcases List.mem_append.1 he with he | he
        · exact isInstr_body hu e he
        · exact h.calls e he
    · rw [ho, h.ctl, ha, hvw, hv]
  have hpx : c1.pfx = c.pfx := hk.2.1
  have haf : c1.af = c.af := hk.1
  have him : c1.im = c.im := hk.2.2
  rw [him]
  cases hi : c.im with
  | mode0 =>
    rw [hi] at fin
    exact Prog.wp_mono (fun t r h => fin (u := []) (fun _ h => absurd h List.not_mem_nil) h hpx haf rfl)
      (ok_instruction deb v.1 c1)
  | mode1 =>
    rw [hi] at fin
    exact Prog.wp_mono (fun t r h => fin (u := []) (fun _ h => absurd h List.not_mem_nil) h hpx haf rfl)
      (ok_instruction deb 0xFF#8 c1)
  | mode2 =>
    rw [hi] at fin
    intro x ts1 x1 ts2 x2
    refine Prog.wp_mono (fun t r h => ?_) (ok_instruction deb 0xC3#8 _)
    refine fin (u := [_, _, _, _, _]) ?_ h hpx haf rfl
    intro e he
    simp only [List.mem_cons, List.not_mem_nil, or_false] at he
    rcases he with rfl | rfl | rfl | rfl | rfl <;> rfl

/-- What an accepted non-maskable interrupt does to the control state. -/
structure NmiOk (c : Cpu Q) (t : List (Ev σ)) (c' : Cpu Q) : Prop where
  m1 : m1s t = 1
  calls : ∀ v ∈ t, v.req.isInstr = true
  opc : opcodes t = []
  ctl : c'.view = { c.view with iff1 := false, ei := false, halted := false,
                                r := Spec.refresh c.view.r 1 }

theorem ok_nmiNoCheck (c : Cpu Q) : (nmiNoCheck (σ := σ) c).wp fun t r => NmiOk c t r := by
  intro ts u ts1 u1 ts2 u2
  have := refresh_rOf c.ir c.r 1
  refine ⟨rfl, ?_, rfl, ?_⟩
  · intro e he
    simp only [List.mem_cons, List.not_mem_nil, or_false] at he
    rcases he with rfl | rfl | rfl | rfl | rfl | rfl <;> rfl
  · simp only [Cpu.view, Spec.Ctl.mk.injEq]
    exact ⟨rfl, this, rfl, rfl, rfl, rfl, rfl, rfl⟩

omit [Flavour Q] in
theorem wp_askIrq {α : Type} {b : Bool} {f : Bool → Prog σ α} {P : List (Ev σ) → α → Prop}
    (h1 : b = false → (f false).wp P)
    (h2 : ∀ ts a, b = true → (f a).wp fun t x => P (⟨.asTimestamp, ts⟩ :: ⟨.isIrq ts, a⟩ :: t) x) :
    ((askIrq b).bind f).wp P := by
  cases b
  · exact h1 rfl
  · exact fun ts a => h2 ts a rfl

/-- The ways an `execute_next` can go. -/
inductive NextOk (deb : Bool) (c : Cpu Q) (t : List (Ev σ)) (e : Res σ) (c' : Cpu Q) : Prop
  /-- a maskable interrupt was accepted -/
  | irq (ts u) (ht : t = ⟨.asTimestamp, ts⟩ :: ⟨.isIrq ts, true⟩ :: u)
    (ha : c.iff1 = true ∧ c.pfx = none ∧ c.lastEi = false)
    (h : (irqNoCheck deb c).Runs u (e, c'))
  /-- nothing but an M1 cycle -/
  | halted (q) (hq : ∀ v ∈ q, v.req.isBody = true) (ts) (ht : t = q ++ [⟨.addM1 c.pc, ts⟩])
    (hh : c.halt = true) (he : e = .ok) (hc : c' = c.incR)
  /-- an instruction was fetched and executed -/
  | instr (q) (hq : ∀ v ∈ q, v.req.isBody = true) (ts ir code u)
    (ht : t = q ++ ⟨.addM1 c.pc, ts⟩ :: ⟨.readOpcode c.pc ir ts, code⟩ :: u)
    (hh : c.halt = false) (h : InstrOk { c.incR with pc := c.pc + 1#16 } code u e c')

theorem ok_next (deb : Bool) (c : Cpu Q) :
    (executeNext (σ := σ) deb c).wp fun t r => NextOk deb c t r.1 r.2 := by
  have rest : ∀ q : List (Ev σ), (∀ v ∈ q, v.req.isBody = true) →
      ((if c.halt then (haltStep c).bind fun c => pure (.ok, c) else fetchExecute deb c :
        Prog σ (Res σ × Cpu Q))).wp fun t r => NextOk deb c (q ++ t) r.1 r.2 := by
    intro q hq
    by_cases hh : c.halt = true
    · rw [if_pos hh]
      exact fun ts => .halted q hq ts rfl hh rfl rfl
    · rw [if_neg hh]
      intro ts code
      refine Prog.wp_mono (fun u r h => ?_) (ok_instruction deb code _)
      exact .instr q hq ts _ code u rfl (Bool.eq_false_iff.2 hh) h
  unfold executeNext
  refine wp_askIrq ?_ ?_
  · intro _
    exact rest [] (fun _ h => absurd h List.not_mem_nil)
  · intro ts a hb
    cases a with
    | true =>
      refine Prog.wp_mono (fun u r h => ?_) (Prog.wp_self (irqNoCheck deb c))
      refine .irq ts u rfl ?_ h
      simp only [Cpu.isIrqAllowed, isIntAllowed, Bool.and_eq_true, Option.isNone_iff_eq_none,
        Bool.not_eq_true'] at hb
      exact hb
    | false =>
      refine rest [⟨.asTimestamp, ts⟩, ⟨.isIrq ts, false⟩] ?_
      intro e he
      simp only [List.mem_cons, List.not_mem_nil, or_false] at he
      rcases he with rfl | rfl <;> rfl

end Z80
