import Verif.Spec.Pace
import Verif.Proofs.Marks
import Verif.Proofs.Limit
import Verif.Proofs.Timing

/-!
# Steps of `execute_with_limit` and the time they take
-/

set_option linter.constructorNameAsVariable false

namespace Z80
open Spec
variable {O R : Type} {σ : Sig}

/-- Number of accesses to devices in a sequence of cycles. -/
def devs (l : List Cyc) : Nat :=
  (l.map fun | .inp _ _ _ | .out _ _ _ | .ack _ _ _ => 1 | _ => 0).sum

theorem devs_append (l l' : List Cyc) : devs (l ++ l') = devs l + devs l' := by simp [devs]
theorem accesses_append (l l' : List (Ev σ)) : accesses (l ++ l') = accesses l + accesses l' := by
  simp [accesses]

theorem devs0 (o : Opt) (x : Ix) (k : I0) (r : Regs) :
    (cycles0 (O := O) (R := R) o x k r).Ends fun l _ => devs l ≤ 1 := by
  cases k with
  | djnz | jrCc _ =>
    simp only [cycles0, Tree.Ends]
    intros
    split <;> (simp only [relCycles, fin, Tree.Ends]; try intros) <;>
      exact Nat.le_of_ble_eq_true rfl
  | retCc _ | callCc _ =>
    simp only [cycles0, Tree.Ends]
    try intros
    split <;> (simp only [pushCycles, popCycles, fin, Tree.Ends]; try intros) <;>
      exact Nat.le_of_ble_eq_true rfl
  | incR g | decR g | ldRN g | aluR _ g =>
    cases x <;> cases g <;>
      (simp only [cycles0, operand, modifyCycles, fin, Tree.Ends]; try intros) <;>
      exact Nat.le_of_ble_eq_true rfl
  | ldRR d g =>
    cases x <;> cases d <;> cases g <;>
      (simp only [cycles0, operand, fin, Tree.Ends]; try intros) <;>
      exact Nat.le_of_ble_eq_true rfl
  | _ =>
    (simp only [cycles0, relCycles, pushCycles, popCycles, fin, Tree.Ends]; try intros) <;>
      exact Nat.le_of_ble_eq_true rfl

theorem devsCb (k : ICb) (r : Regs) :
    (cbCycles (O := O) (R := R) k r).Ends fun l _ => devs l ≤ 1 := by
  rcases k with ⟨k, g⟩ | ⟨n, g⟩ | ⟨n, g⟩ | ⟨n, g⟩ <;> cases g <;>
    (simp only [cbCycles, modifyCycles, fin, Tree.Ends]; try intros) <;>
      exact Nat.le_of_ble_eq_true rfl

theorem devsXCb (k : ICb) (a : U16) (r : Regs) :
    (xcbCycles (O := O) (R := R) k a r).Ends fun l _ => devs l ≤ 1 := by
  rcases k with ⟨k, g⟩ | ⟨n, g⟩ | ⟨n, g⟩ | ⟨n, g⟩ <;>
    (simp only [xcbCycles, modifyCycles, fin, Tree.Ends]; try intros) <;>
      exact Nat.le_of_ble_eq_true rfl

theorem devsEd (o : Opt) (k : IEd) (r : Regs) :
    (edCycles (O := O) (R := R) o k r).Ends fun l _ => devs l ≤ 1 := by
  cases k with
  | blk b d rep =>
    cases b <;> simp only [edCycles, blkCycles, repeatCycles, Tree.Ends] <;> intros <;> split <;>
      exact Nat.le_of_ble_eq_true rfl
  | ldAI | ldAR =>
    simp only [edCycles, ldAIrCycles, Tree.Ends]
    split
    · exact fun _ => Nat.le_of_ble_eq_true rfl
    · exact Nat.le_of_ble_eq_true rfl
  | _ => (simp only [edCycles, popCycles, fin, Tree.Ends]; try intros) <;>
      exact Nat.le_of_ble_eq_true rfl

theorem devsOp (o : Opt) (op : U8) (r : Regs) :
    (opCycles (O := O) (R := R) o op r).Ends fun l _ => devs l ≤ 1 := by
  unfold opCycles
  dsimp only
  split
  · exact Nat.le_of_ble_eq_true rfl
  · exact Nat.le_of_ble_eq_true rfl
  · exact fun v => ends_end.2 (ends_mono (devsEd _ _ _) fun l _ h => by simpa [devs] using h)
  · split
    · exact fun v => ends_end.2 (ends_mono (devsCb _ _) fun l _ h => by simpa [devs] using h)
    · exact fun d v => ends_end.2 (ends_mono (devsXCb _ _ _) fun l _ h => by simpa [devs] using h)
  · exact ends_end.2 (devs0 _ _ _ _)

theorem accesses_filter (t : List (Ev σ)) :
    accesses (t.filter fun e => !e.req.isDebug) = accesses t := by
  induction t with
  | nil => rfl
  | cons e t ih =>
    obtain ⟨r, x⟩ := e
    cases r <;> first
      | exact congrArg (_ + ·) ih
      | exact ih.trans (Nat.zero_add _).symm

theorem performs_accesses {l : List Cyc} {t : List (Ev σ)} (h : Performs l t) :
    accesses t = devs l := by
  induction h with
  | nil => rfl
  | @cons c l t u hc _ ih =>
    rw [accesses_append, ih]
    refine (congrArg (· + devs l) ?_ : _ = devs [c] + devs l).trans (devs_append [c] l).symm
    cases hc with
    | @inp p v w ts => cases w <;> rfl
    | @out p v w ts x => cases w <;> rfl
    | @ack p v w ts => cases w <;> rfl
    | _ => rfl

theorem t0_range : ∀ op : U8, ∀ b, 4 ≤ t0 (decode op) b ∧ t0 (decode op) b ≤ 21 := by
  intro op
  have := all8_spec (p := fun op => [true, false].all fun b =>
    decide (4 ≤ t0 (decode op) b ∧ t0 (decode op) b ≤ 21)) (by decide +kernel) op
  intro b
  rw [List.all_eq_true] at this
  have := of_decide_eq_true (this b (by cases b <;> decide))
  exact this

theorem tX_range : ∀ op : U8, ∀ b, 8 ≤ tX (decode op) b ∧ tX (decode op) b ≤ 25 := by
  intro op
  have := all8_spec (p := fun op => [true, false].all fun b =>
    decide (8 ≤ tX (decode op) b ∧ tX (decode op) b ≤ 25)) (by decide +kernel) op
  intro b
  rw [List.all_eq_true] at this
  have := of_decide_eq_true (this b (by cases b <;> decide))
  exact this

theorem tEd_range (k : IEd) (b : Bool) : 4 ≤ tEd k b ∧ tEd k b ≤ 21 := by
  cases k <;> cases b <;> exact ⟨Nat.le_of_ble_eq_true rfl, Nat.le_of_ble_eq_true rfl⟩

theorem tCb_range (k : ICb) : 4 ≤ tCb k ∧ tCb k ≤ 21 := by
  rcases k with ⟨k, g⟩ | ⟨n, g⟩ | ⟨n, g⟩ | ⟨n, g⟩ <;> cases g <;> exact ⟨by simp [tCb], by simp [tCb]⟩

theorem tXCb_range (k : ICb) : 8 ≤ tXCb k ∧ tXCb k ≤ 25 := by
  cases k <;> exact ⟨by simp [tXCb], by simp [tXCb]⟩

/-- An instruction takes from 4 to 21 T-states, those of a prefix before it apart. -/
theorem published_range (op : U8) (r : Regs) (ops data : List U8) :
    4 + (if r.idx = .hl then 0 else 4) ≤ published op r ops data ∧
      published op r ops data ≤ 21 + (if r.idx = .hl then 0 else 4) := by
  have h0 := t0_range op (taken (decode op) r)
  have hX := tX_range op (taken (decode op) r)
  have hE := fun c b => tEd_range (decodeEd c) b
  have hC := fun c => tCb_range (decodeCb c)
  have hXC := fun c => tXCb_range (decodeCb c)
  unfold published
  dsimp only
  have hEd := hE (ops.headD 0) (again (decodeEd (ops.headD 0)) r data)
  have hCb := hC (ops.headD 0)
  have hXCb := hXC (data.tail.headD 0)
  by_cases hx : r.idx = .hl
  · simp only [hx, if_true]
    split <;> omega
  · simp only [hx, if_false]
    split <;> omega

theorem _root_.Z80.Spec.Timely.weaken {o : Option σ.Ts} {t : List (Ev σ)} (h : Timely none t) : Timely o t := by
  induction t generalizing o with
  | nil => trivial
  | cons e t ih =>
    refine ⟨fun x hx => absurd (h.1 x hx) nofun, ?_⟩
    obtain ⟨r, a⟩ := e
    cases r <;> first | exact ih h.2 | exact h.2

theorem _root_.Z80.Spec.Timely.append {o : Option σ.Ts} {t u : List (Ev σ)} (h : Timely o t) (h' : Timely none u) :
    Timely o (t ++ u) := by
  induction t generalizing o with
  | nil => exact h'.weaken
  | cons e t ih => exact ⟨h.1, ih h.2⟩

theorem timely_filter {o : Option σ.Ts} {t : List (Ev σ)} (h : Timely o (t.filter fun e => !e.req.isDebug)) :
    Timely o t := by
  induction t generalizing o with
  | nil => trivial
  | cons e t ih =>
    rw [List.filter_cons] at h
    cases hd : e.req.isDebug with
    | true =>
      rw [hd] at h
      have h1 := ih h
      obtain ⟨r, a⟩ := e
      cases r <;> first | exact ⟨nofun, h1⟩ | cases hd
    | false =>
      rw [hd] at h
      exact ⟨h.1, ih h.2⟩

theorem performs_timely {l : List Cyc} {t : List (Ev σ)} (h : Performs l t) : Timely none t := by
  induction h with
  | nil => trivial
  | @cons c l t u hc _ ih =>
    refine Timely.append ?_ ih
    cases hc with
    | @inp p v w ts => cases w <;> simp [Timely, carries, stamp?, waitCalls, given]
    | @out p v w ts x => cases w <;> simp [Timely, carries, stamp?, waitCalls, given]
    | @ack p v w ts => cases w <;> simp [Timely, carries, stamp?, waitCalls, given]
    | _ => simp [Timely, carries, stamp?, given]

/-- Bounds on the T-states and device accesses of a part of a run without test of the limit. -/
structure Took (lo hi d : Nat) (t : List (Ev σ)) : Prop where
  lo : lo ≤ clocked t
  hi : clocked t ≤ hi
  dev : accesses t ≤ d
  wait : Spec.waited t = asked t
  calm : ∀ e ∈ t, e.tests = false
  timely : Timely none t

namespace Took

theorem nil : Took (σ := σ) 0 0 0 [] :=
  ⟨Nat.le_refl _, Nat.le_refl _, Nat.le_refl _, rfl, fun _ h => absurd h List.not_mem_nil, trivial⟩

theorem append {a b d a' b' d' : Nat} {t u : List (Ev σ)} (h : Took a b d t) (h' : Took a' b' d' u) :
    Took (a + a') (b + b') (d + d') (t ++ u) := by
  obtain ⟨h1, h2, h3, h4, h5, h6⟩ := h
  obtain ⟨h1', h2', h3', h4', h5', h6'⟩ := h'
  refine ⟨?_, ?_, ?_, ?_, fun e he => ?_, h6.append h6'⟩
  · rw [clocked_append]; omega
  · rw [clocked_append]; omega
  · rw [accesses_append]; omega
  · rw [waited_append, asked_append, h4, h4']
  · exact (List.mem_append.1 he).elim (h5 e) (h5' e)

theorem mono {a b d a' b' d' : Nat} {t : List (Ev σ)} (h : Took a b d t) (ha : a' ≤ a) (hb : b ≤ b')
    (hd : d ≤ d') : Took a' b' d' t :=
  ⟨Nat.le_trans ha h.lo, Nat.le_trans h.hi hb, Nat.le_trans h.dev hd, h.wait, h.calm, h.timely⟩

end Took

theorem Prog.rel_runs {α β : Type} {R : α → β → Prop} {p : Prog σ α} {q : Prog σ β} (h : Rel R p q)
    {t : List (Ev σ)} {a : α} (hr : p.Runs t a) : ∃ b, q.Runs t b ∧ R a b := by
  induction p generalizing q t with
  | ret x =>
    cases q with
    | ret b =>
      obtain ⟨rfl, rfl⟩ := Prog.runs_ret hr
      exact ⟨b, .ret b, h⟩
    | call r k => exact h.elim
  | call r k ih =>
    cases q with
    | ret b => exact h.elim
    | call r' k' =>
      obtain ⟨rfl, h⟩ := h
      obtain ⟨x, u, rfl, hr'⟩ := Prog.runs_call hr
      obtain ⟨b, h1, h2⟩ := ih x (h x) hr'
      exact ⟨b, .call r k' x u b h1, h2⟩

theorem took_askIrq {b a : Bool} {t : List (Ev σ)} (h : (askIrq b).Runs t a) : Took 0 0 0 t := by
  cases b with
  | false =>
    obtain ⟨rfl, _⟩ := Prog.runs_ret h
    exact .nil
  | true =>
    obtain ⟨ts, u, rfl, h1⟩ := Prog.runs_call h
    obtain ⟨x, u, rfl, h2⟩ := Prog.runs_call h1
    obtain ⟨rfl, _⟩ := Prog.runs_ret h2
    exact ⟨Nat.le_refl _, Nat.le_refl _, Nat.le_refl _, rfl, by simp [Ev.tests],
        by simp [Timely, carries, stamp?, given]⟩

variable {Q : Type} [FlavourSpec Q]

theorem instr_tests {e : Ev σ} (h : e.req.isInstr = true) : e.tests = false := by
  obtain ⟨r, x⟩ := e
  cases r <;> first | rfl | cases h

theorem took_published {deb : Bool} {op : U8} {c : Cpu Q} {t : List (Ev σ)} {r : Res σ × Cpu Q}
    (h : (executeInstruction deb op c).Runs t r) {n : Nat}
    (hn : ∀ ops data, published op (abs c) ops data ≤ 4 + (if (abs c).idx = .hl then 0 else 4) + n) :
    Took 0 n 1 t := by
  have hc := (Prog.runs_wp h (ok_instruction deb op c)).calls
  obtain ⟨l, e, h1, h2, _⟩ := drives_path (drive_instruction deb op c) h
  have ht := ends_path (costOp _ op (abs c)) h1
  have := hn (Spec.opcodes l) (bytesRead l)
  rw [← performs_clocked h2, clocked_filter] at ht
  refine ⟨Nat.zero_le _, by omega, ?_, ?_, fun e he => instr_tests (hc e he), timely_filter (performs_timely h2)⟩
  · rw [← accesses_filter, performs_accesses h2]
    exact ends_path (devsOp _ op (abs c)) h1
  · rw [← waited_filter, ← asked_filter]
    exact performs_waited h2

theorem took_instruction {deb : Bool} {op : U8} {c : Cpu Q} {t : List (Ev σ)} {r : Res σ × Cpu Q}
    (h : (executeInstruction deb op c).Runs t r) : Took 0 17 1 t := by
  refine took_published h fun ops data => ?_
  have := published_range op (abs c) ops data
  omega

theorem published_jp (r : Regs) (ops data) :
    published 0xC3#8 r ops data ≤ 4 + (if r.idx = .hl then 0 else 4) + 6 := by
  have hd : decode 0xC3#8 = .jp := by decide
  unfold published
  rw [hd]
  cases r.idx <;> exact Nat.le_of_ble_eq_true rfl

theorem took_fetch {c : Cpu Q} {t : List (Ev σ)} {r : Res σ × Cpu Q}
    (h : (fetchExecute false c).Runs t r) : Took 4 21 1 t := by
  obtain ⟨ts, u, rfl, h'⟩ := Prog.runs_call h
  obtain ⟨x, u, rfl, h2⟩ := Prog.runs_call h'
  have h1 : Took 4 4 0 [(⟨.addM1 c.pc, ts⟩ : Ev σ), ⟨.readOpcode c.pc c.incR.getIr ts, x⟩] :=
    ⟨Nat.le_refl _, Nat.le_refl _, Nat.le_refl _, rfl, by simp [Ev.tests],
        by simp [Timely, carries, stamp?, given]⟩
  exact h1.append (took_instruction h2)

theorem took_step {c : Cpu Q} {t : List (Ev σ)} {r : Exit σ × Cpu Q}
    (h : (stepStored c).Runs t r) : Took 4 21 1 t := by
  obtain ⟨a, h1, rfl⟩ := Prog.runs_map.1 h
  obtain ⟨b, h2, _⟩ := Prog.rel_runs
    (Markless.nextInstruction (σ := σ) (c.load false) (c.unmark.load false) rfl) h1
  have h3 : (stepStored c.unmark).Runs t _ := Prog.runs_map.2 ⟨b, h2, rfl⟩
  refine took_fetch (c := c) (r := (b.1.toRes, b.2.store)) ?_
  rw [fetchExecute_eq]
  exact Prog.runs_map.2 ⟨_, h3, rfl⟩

omit [FlavourSpec Q] in
theorem took_halt {c d : Cpu Q} {t : List (Ev σ)} (h : (haltStep c).Runs t d) : Took 4 4 0 t := by
  obtain ⟨ts, u, rfl, h1⟩ := Prog.runs_call h
  obtain ⟨rfl, _⟩ := Prog.runs_ret h1
  exact ⟨Nat.le_refl _, Nat.le_refl _, Nat.le_refl _, rfl, by simp [Ev.tests],
        by simp [Timely, carries, stamp?, given]⟩

theorem took_irq {deb : Bool} {c : Cpu Q} {t : List (Ev σ)} {r : Res σ × Cpu Q}
    (h : (irqNoCheck deb c).Runs t r) : Took 6 23 2 t := by
  have hx : irqNoCheck (σ := σ) deb c = .call (.addIrq c.disableInterrupts.incR.wake.pc) fun ts =>
    .call (.irqData c.disableInterrupts.incR.wake.pc ts) fun v =>
    (askWait c.disableInterrupts.incR.wake.pc v.2).bind fun _ =>
    irqBody deb c.disableInterrupts.incR.wake v.1 := rfl
  rw [hx] at h
  generalize c.disableInterrupts.incR.wake = c' at h
  obtain ⟨ts, u, rfl, h'⟩ := Prog.runs_call h
  obtain ⟨⟨v, w⟩, u, rfl, h2⟩ := Prog.runs_call h'
  obtain ⟨p, u, ⟨⟩, rfl, hw, h3⟩ := Prog.runs_bind.1 h2
  have h1 : Took 6 6 1 ((⟨.addIrq c'.pc, ts⟩ : Ev σ) :: ⟨.irqData c'.pc ts, (v, w)⟩ :: p) := by
    cases w with
    | none =>
      obtain ⟨rfl, _⟩ := Prog.runs_ret hw
      exact ⟨Nat.le_refl _, Nat.le_refl _, Nat.le_refl _, rfl, by simp [Ev.tests],
        by simp [Timely, carries, stamp?, given]⟩
    | some w =>
      obtain ⟨⟨⟩, p, rfl, hw'⟩ := Prog.runs_call hw
      obtain ⟨rfl, _⟩ := Prog.runs_ret hw'
      exact ⟨Nat.le_refl _, Nat.le_refl _, Nat.le_refl _,
        by simp [Spec.waited, asked, Ev.waited, Ev.asked, waits], by simp [Ev.tests],
        by simp [Timely, carries, stamp?, given]⟩
  suffices h4 : Took 0 17 1 u from h1.append h4
  clear h1 h2 h' h hx
  unfold irqBody at h3
  cases hm : c'.im with
  | mode0 => rw [hm] at h3; exact took_instruction h3
  | mode1 => rw [hm] at h3; exact took_instruction h3
  | mode2 =>
    rw [hm] at h3
    obtain ⟨x, u, rfl, h4⟩ := Prog.runs_call h3
    have h4 : (Prog.bind (pushCpu c'.pc c') fun d => executeInstruction deb 0xC3#8
      (d.setPc ((c'.getIr &&& 0xFF00#16) ||| v.setWidth 16))).Runs u r := h4
    obtain ⟨p, u, c2, rfl, hw, h5⟩ := Prog.runs_bind.1 h4
    have h6 : Took 0 6 0 p := by
      obtain ⟨ts, p, rfl, g1⟩ := Prog.runs_call hw
      obtain ⟨x, p, rfl, g2⟩ := Prog.runs_call g1
      obtain ⟨ts', p, rfl, g3⟩ := Prog.runs_call g2
      obtain ⟨x', p, rfl, g4⟩ := Prog.runs_call g3
      obtain ⟨rfl, _⟩ := Prog.runs_ret g4
      exact ⟨Nat.zero_le _, Nat.le_refl _, Nat.le_refl _, rfl, by simp [Ev.tests],
        by simp [Timely, carries, stamp?, given]⟩
    have h7 : Took 0 1 0 [(⟨.addNoMreq c'.getIr X1, x⟩ : Ev σ)] :=
      ⟨Nat.zero_le _, Nat.le_refl _, Nat.le_refl _, rfl, by simp [Ev.tests],
        by simp [Timely, carries, stamp?, given]⟩
    exact (h7.append (h6.append (took_published h5 fun _ _ => published_jp _ _ _))).mono
      (Nat.le_refl _) (by decide) (Nat.le_refl _)

/-! ### Laps between tests of the limit -/

/-- What follows a test of the limit answered "not reached": laps of 4 to 23 T-states, each ended by
a test; the last one may be left at any time. The number counts the laps known to take at least 4
T-states. -/
inductive Laps (l : σ.L) : Nat → List (Ev σ) → Prop
  | part {u} : Took 0 23 2 u → Laps l 0 u
  | full {u} : Took 4 23 2 u → Laps l 1 u
  | past {u} : Took 4 23 2 u → Laps l 1 (u ++ [⟨.isPastLimit l, true⟩])
  | lap {u t n} : Took 4 23 2 u → Laps l n t → Laps l (n + 1) (u ++ ⟨.isPastLimit l, false⟩ :: t)

theorem Laps.free {l : σ.L} {n : Nat} {t q : List (Ev σ)} (hq : Took 0 0 0 q) (h : Laps l n t) :
    Laps l n (q ++ t) := by
  have go : ∀ {a u}, Took a 23 2 u → Took a 23 2 (q ++ u) := fun h =>
    (hq.append h).mono (by omega) (by omega) (by omega)
  cases h with
  | part h => exact .part (go h)
  | full h => exact .full (go h)
  | past h => rw [← List.append_assoc]; exact .past (go h)
  | lap h h' => rw [← List.append_assoc]; exact .lap (go h) h'

/-- Laps, the last of which has just begun. -/
def Open (l : σ.L) (t : List (Ev σ)) : Prop :=
  ∀ m u, Laps l m u → ∃ k, m ≤ k ∧ Laps l k (t ++ u)

/-- The trace of the inner loop. -/
def LoopLaps (n : Nat) (l : σ.L) (t : List (Ev σ)) : Option (Reason σ × Cpu Q) → Prop
  | none => ∃ m, n ≤ m ∧ Laps l m t
  | some (.irq, _) => Open l t
  | some _ => ∃ m, 1 ≤ m ∧ Laps l m t

theorem loop_laps (n : Nat) (l : σ.L) (c : Cpu Q) {t : List (Ev σ)} {r}
    (h : (loopC n l c).Runs t r) : LoopLaps n l t r := by
  induction n generalizing c t with
  | zero =>
    obtain ⟨rfl, rfl⟩ := Prog.runs_ret h
    exact ⟨0, Nat.le_refl _, .part (Took.nil.mono (by decide) (by decide) (by decide))⟩
  | succ n ih =>
    obtain ⟨u, t, ⟨e, d⟩, rfl, h1, h2⟩ := Prog.runs_bind.1 h
    have hs := (took_step h1).mono (Nat.le_refl _) (by decide : 21 ≤ 23) (by decide : 1 ≤ 2)
    have hlap : ∀ {v r}, LoopLaps (Q := Q) n l v r →
        LoopLaps (Q := Q) (n + 1) l (u ++ ⟨.isPastLimit l, false⟩ :: v) r := by
      intro v r hv
      rcases r with _ | ⟨e, d⟩
      · obtain ⟨m, hm, hv⟩ := hv
        exact ⟨m + 1, by omega, .lap hs hv⟩
      · cases e with
        | irq =>
          intro m w hw
          obtain ⟨k, hk, h⟩ := hv m w hw
          refine ⟨k + 1, by omega, ?_⟩
          rw [List.append_assoc]
          exact .lap hs h
        | _ =>
          obtain ⟨m, -, hv⟩ := hv
          exact ⟨m + 1, by omega, .lap hs hv⟩
    have hfree : ∀ {q v r}, Took 0 0 0 q → LoopLaps n l v r → LoopLaps (Q := Q) n l (q ++ v) r := by
      intro q v r hq hv
      rcases r with _ | ⟨e, d⟩
      · obtain ⟨m, hm, hv⟩ := hv
        exact ⟨m, hm, hv.free hq⟩
      · cases e with
        | irq =>
          intro m w hw
          obtain ⟨k, hk, h⟩ := hv m w hw
          refine ⟨k, hk, ?_⟩
          rw [List.append_assoc]
          exact h.free hq
        | _ =>
          obtain ⟨m, hm, hv⟩ := hv
          exact ⟨m, hm, hv.free hq⟩
    cases e with
    | cont =>
      obtain ⟨past, t, rfl, h3⟩ := Prog.runs_call h2
      cases past with
      | true =>
        obtain ⟨rfl, rfl⟩ := Prog.runs_ret h3
        exact ⟨1, Nat.le_refl _, .past hs⟩
      | false =>
        have h3 : (Prog.bind (askIrq (isIntAllowed d.pfx false && d.iff1)) fun i =>
          (if i then pure (some (.irq, d)) else loopC n l d : Prog σ _)).Runs t r := h3
        obtain ⟨q, v, i, rfl, h4, h5⟩ := Prog.runs_bind.1 h3
        refine hlap ?_
        cases i with
        | true =>
          obtain ⟨rfl, rfl⟩ := Prog.runs_ret h5
          rw [List.append_nil]
          exact fun m u hu => ⟨m, Nat.le_refl _, hu.free (took_askIrq h4)⟩
        | false => exact hfree (took_askIrq h4) (ih _ h5)
    | enableInt =>
      obtain ⟨past, t, rfl, h3⟩ := Prog.runs_call h2
      cases past with
      | true =>
        obtain ⟨rfl, rfl⟩ := Prog.runs_ret h3
        exact ⟨1, Nat.le_refl _, .past hs⟩
      | false => exact hlap (ih _ h3)
    | _ =>
      obtain ⟨rfl, rfl⟩ := Prog.runs_ret h2
      rw [List.append_nil]
      exact ⟨1, Nat.le_refl _, .full hs⟩

/-- The trace after a test of the limit answered "not reached". -/
def OuterLaps {α : Type} (n : Nat) (l : σ.L) (t : List (Ev σ)) : Option α → Prop
  | none => ∃ m, n ≤ m ∧ Laps l m t
  | some _ => ∃ m, 1 ≤ m ∧ Laps l m t

theorem OuterLaps.lap {α : Type} {n : Nat} {l : σ.L} {t u : List (Ev σ)} {r : Option α}
    (hu : Took 4 23 2 u) (h : OuterLaps n l t r) :
    OuterLaps (n + 1) l (u ++ ⟨.isPastLimit l, false⟩ :: t) r := by
  cases r with
  | none => obtain ⟨m, hm, h⟩ := h; exact ⟨m + 1, by omega, .lap hu h⟩
  | some _ => obtain ⟨m, hm, h⟩ := h; exact ⟨m + 1, by omega, .lap hu h⟩

theorem OuterLaps.free {α : Type} {n : Nat} {l : σ.L} {t q : List (Ev σ)} {r : Option α}
    (hq : Took 0 0 0 q) (h : OuterLaps n l t r) : OuterLaps n l (q ++ t) r := by
  cases r with
  | none => obtain ⟨m, hm, h⟩ := h; exact ⟨m, hm, h.free hq⟩
  | some _ => obtain ⟨m, hm, h⟩ := h; exact ⟨m, hm, h.free hq⟩

theorem OuterLaps.open {α : Type} {n : Nat} {l : σ.L} {t q : List (Ev σ)} {r : Option α}
    (hq : Open l q) (h : OuterLaps n l t r) : OuterLaps n l (q ++ t) r := by
  cases r with
  | none =>
    obtain ⟨m, hm, h⟩ := h
    obtain ⟨k, hk, h⟩ := hq m t h
    exact ⟨k, by omega, h⟩
  | some _ =>
    obtain ⟨m, hm, h⟩ := h
    obtain ⟨k, hk, h⟩ := hq m t h
    exact ⟨k, by omega, h⟩

theorem OuterLaps.mono {α : Type} {n n' : Nat} {l : σ.L} {t : List (Ev σ)} {r : Option α}
    (hn : n' ≤ n) (h : OuterLaps n l t r) : OuterLaps n' l t r := by
  cases r with
  | none => obtain ⟨m, hm, h⟩ := h; exact ⟨m, by omega, h⟩
  | some _ => exact h

/-- Acceptance of an interrupt, and what follows. -/
theorem accept_laps {n k : Nat} {l : σ.L} {c : Cpu Q} {t : List (Ev σ)} {r}
    {f : Cpu Q → Prog σ (Option (Res σ × Cpu Q))}
    (hf : ∀ d t r, (f d).Runs t r → OuterLaps k l t r) (hk : n ≤ k + 1)
    (h : (Prog.bind (irqNoCheck false c) fun r => (match r.1 with
      | .ok => do
        let past ← ask (.isPastLimit l)
        if past then pure (some (.ok, r.2)) else f r.2
      | e => pure (some (e, r.2)) : Prog σ (Option (Res σ × Cpu Q)))).Runs t r) :
    OuterLaps n l t r := by
  obtain ⟨u, t, ⟨e, d⟩, rfl, h1, h2⟩ := Prog.runs_bind.1 h
  have hs := (took_irq h1).mono (by decide : 4 ≤ 6) (Nat.le_refl _) (Nat.le_refl _)
  cases e with
  | ok =>
    obtain ⟨past, t, rfl, h3⟩ := Prog.runs_call h2
    cases past with
    | true =>
      obtain ⟨rfl, rfl⟩ := Prog.runs_ret h3
      exact ⟨1, Nat.le_refl _, .past hs⟩
    | false => exact ((hf _ _ _ h3).lap hs).mono hk
  | _ =>
    obtain ⟨rfl, rfl⟩ := Prog.runs_ret h2
    rw [List.append_nil]
    exact ⟨1, Nat.le_refl _, .full hs⟩

theorem outer_laps (n : Nat) (l : σ.L) (k : Nat) (c : Cpu Q) {t : List (Ev σ)} {r}
    (h : (limitOuter n l k c).Runs t r) : OuterLaps (min n k) l t r := by
  induction k generalizing c t r with
  | zero =>
    obtain ⟨rfl, rfl⟩ := Prog.runs_ret h
    exact ⟨0, by omega, .part (Took.nil.mono (by decide) (by decide) (by decide))⟩
  | succ k ih =>
    obtain ⟨u, t, x, rfl, h1, h2⟩ := Prog.runs_bind.1 h
    rw [loop_eq] at h1
    have h3 := loop_laps n l c h1
    rcases x with _ | ⟨e, d⟩
    · obtain ⟨rfl, rfl⟩ := Prog.runs_ret h2
      obtain ⟨m, hm, h3⟩ := h3
      rw [List.append_nil]
      exact ⟨m, by omega, h3⟩
    · cases e with
      | irq =>
        exact OuterLaps.open h3 (accept_laps (fun d t r h => ih d h) (by omega) h2)
      | _ =>
        obtain ⟨rfl, rfl⟩ := Prog.runs_ret h2
        rw [List.append_nil]
        exact h3

theorem start_laps (n : Nat) (l : σ.L) (c : Cpu Q) {t : List (Ev σ)} {r}
    (h : (limitStart n l c).Runs t r) : OuterLaps n l t r := by
  have ho : ∀ (c : Cpu Q) t r, (limitOuter n l n c).Runs t r → OuterLaps n l t r := fun (c : Cpu Q) t r h => by
    have := outer_laps n l n c h
    rwa [Nat.min_self] at this
  unfold limitStart at h
  split at h
  · exact ho _ _ _ h
  · obtain ⟨q, t, i, rfl, h1, h2⟩ := Prog.runs_bind.1 h
    refine OuterLaps.free (took_askIrq h1) ?_
    cases i with
    | true => exact accept_laps (fun d t r h => ho d t r h) (by omega) h2
    | false => exact ho _ _ _ h2

/-- The trace of `execute_with_limit` begins with a test of the limit. -/
def TestLaps {α : Type} (n : Nat) (l : σ.L) (t : List (Ev σ)) (r : Option α) : Prop :=
  t = [⟨.isPastLimit l, true⟩] ∧ r ≠ none ∨ ∃ u, t = ⟨.isPastLimit l, false⟩ :: u ∧ OuterLaps n l u r

theorem halted_laps (n : Nat) (l : σ.L) (m : Nat) (hm : m + 1 ≤ n) (c : Cpu Q) {t : List (Ev σ)} {r}
    (h : (limitHalted n l (m + 1) c).Runs t r) : TestLaps (m + 1) l t r := by
  induction m generalizing c t with
  | zero =>
    obtain ⟨past, t, rfl, h1⟩ := Prog.runs_call h
    cases past with
    | true =>
      obtain ⟨rfl, rfl⟩ := Prog.runs_ret h1
      exact .inl ⟨rfl, nofun⟩
    | false =>
      refine .inr ⟨t, rfl, ?_⟩
      have h1 : (Prog.bind (askIrq c.iff1) fun i => (if i then limitStart n l c
        else haltStep c >>= limitHalted n l (0) : Prog σ _)).Runs t r := h1
      obtain ⟨q, v, i, rfl, h2, h3⟩ := Prog.runs_bind.1 h1
      refine OuterLaps.free (took_askIrq h2) ?_
      cases i with
      | true => exact (start_laps _ _ _ h3).mono hm
      | false =>
        obtain ⟨u, v, d, rfl, h4, h5⟩ := Prog.runs_bind.1 h3
        obtain ⟨rfl, rfl⟩ := Prog.runs_ret h5
        rw [List.append_nil]
        exact ⟨1, Nat.le_refl _, .full ((took_halt h4).mono (by decide) (by decide) (by decide))⟩
  | succ m ih =>
    obtain ⟨past, t, rfl, h1⟩ := Prog.runs_call h
    cases past with
    | true =>
      obtain ⟨rfl, rfl⟩ := Prog.runs_ret h1
      exact .inl ⟨rfl, nofun⟩
    | false =>
      refine .inr ⟨t, rfl, ?_⟩
      have h1 : (Prog.bind (askIrq c.iff1) fun i => (if i then limitStart n l c
        else haltStep c >>= limitHalted n l (m + 1) : Prog σ _)).Runs t r := h1
      obtain ⟨q, v, i, rfl, h2, h3⟩ := Prog.runs_bind.1 h1
      refine OuterLaps.free (took_askIrq h2) ?_
      cases i with
      | true => exact (start_laps _ _ _ h3).mono hm
      | false =>
        obtain ⟨u, v, d, rfl, h4, h5⟩ := Prog.runs_bind.1 h3
        have hs := (took_halt h4).mono (Nat.le_refl _) (by decide : 4 ≤ 23) (by decide : 0 ≤ 2)
        rcases ih (by omega) d h5 with ⟨rfl, hr⟩ | ⟨w, rfl, hw⟩
        · cases r with
          | none => exact absurd rfl hr
          | some _ => exact ⟨1, Nat.le_refl _, .past hs⟩
        · exact hw.lap hs

theorem limit_laps (n : Nat) (l : σ.L) (c : Cpu Q) {t : List (Ev σ)} {r}
    (h : (executeWithLimit n l c).Runs t r) : n = 0 ∧ t = [] ∨ TestLaps n l t r := by
  unfold executeWithLimit at h
  split at h
  · cases n with
    | zero =>
      obtain ⟨rfl, rfl⟩ := Prog.runs_ret h
      exact .inl ⟨rfl, rfl⟩
    | succ n => exact .inr (halted_laps (n + 1) l n (Nat.le_refl _) c h)
  · obtain ⟨past, t, rfl, h1⟩ := Prog.runs_call h
    cases past with
    | true =>
      obtain ⟨rfl, rfl⟩ := Prog.runs_ret h1
      exact .inr (.inl ⟨rfl, nofun⟩)
    | false => exact .inr (.inr ⟨t, rfl, start_laps _ _ _ h1⟩)

omit [FlavourSpec Q] in
theorem laps_timely {l : σ.L} {n : Nat} {t : List (Ev σ)} (h : Laps l n t) : Timely none t := by
  induction h with
  | part h => exact h.timely
  | full h => exact h.timely
  | past h => exact h.timely.append ⟨nofun, trivial⟩
  | lap h _ ih => exact h.timely.append ⟨nofun, ih⟩

theorem limit_timely (n : Nat) (l : σ.L) (c : Cpu Q) {t : List (Ev σ)} {r}
    (h : (executeWithLimit n l c).Runs t r) : Timely none t := by
  rcases limit_laps n l c h with ⟨_, rfl⟩ | ⟨rfl, _⟩ | ⟨u, rfl, h1⟩
  · trivial
  · exact ⟨nofun, trivial⟩
  · have : ∃ m, Laps l m u := by
      cases r with
      | none => obtain ⟨m, _, h1⟩ := h1; exact ⟨m, h1⟩
      | some _ => obtain ⟨m, _, h1⟩ := h1; exact ⟨m, h1⟩
    obtain ⟨m, h2⟩ := this
    exact ⟨nofun, laps_timely h2⟩

theorem nmi_timely {c : Cpu Q} {t : List (Ev σ)} {r : Bool × Cpu Q} (h : (nmi c).Runs t r) : Timely none t := by
  unfold nmi at h
  split at h
  · obtain ⟨u, v, a, rfl, h1, h2⟩ := Prog.runs_bind.1 h
    obtain ⟨rfl, _⟩ := Prog.runs_ret h2
    obtain ⟨l, e, _, h2, _⟩ := nmi_path c h1
    rw [List.append_nil]
    exact timely_filter (performs_timely h2)
  · cases h; trivial

end Z80
