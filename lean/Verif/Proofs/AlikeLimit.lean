import Verif.Proofs.Keep
import Verif.Proofs.Fuel
import Verif.Props.Alike
import Verif.Spec.Clockwork
import Verif.Proofs.Lap

/-!
# Hosts that behave alike: `execute_with_limit`
-/

namespace Z80
open Spec
variable {Ts Ts' O R L L' S S' Q : Type} [FlavourSpec Q] {H : Handler ⟨Ts, O, R, L⟩ S} {H' : Handler ⟨Ts', O, R, L'⟩ S'}
  {E : Ts → Ts' → Prop} {A : S → S' → Prop}

/-- The two programs, from states that correspond, end in such states and with results that are the same to the eye. -/
def Match (H : Handler ⟨Ts, O, R, L⟩ S) (H' : Handler ⟨Ts', O, R, L'⟩ S') (A : S → S' → Prop) {α α' γ : Type}
    (p : Prog ⟨Ts, O, R, L⟩ α) (p' : Prog ⟨Ts', O, R, L'⟩ α') (f : α → γ) (f' : α' → γ) : Prop :=
  ∀ s s', A s s' → f (p.run H s).1 = f' (p'.run H' s').1 ∧ A (p.run H s).2 (p'.run H' s').2

variable {α α' β β' γ δ : Type}

theorem Match.bind {f : α → γ} {f' : α' → γ} {g : β → δ} {g' : β' → δ} {p p'} (h : Match H H' A p p' f f') {k k'}
    (hk : ∀ a a', f a = f' a' → Match H H' A (k a) (k' a') g g') : Match H H' A (p.bind k) (p'.bind k') g g' := by
  intro s s' hs
  rw [Prog.run_bind, Prog.run_bind]
  exact hk _ _ (h s s' hs).1 _ _ (h s s' hs).2

theorem Match.ret {g : β → δ} {g' : β' → δ} {b : β} {b' : β'} (h : g b = g' b') :
    Match H H' A (.ret b) (.ret b') g g' := fun _ _ hs => ⟨h, hs⟩

theorem match_tree (h : HostsAlike H H' E A) (b : Tree O R α) :
    Match H H' A (Tree.calls (σ := ⟨Ts, O, R, L⟩) b) (Tree.calls (σ := ⟨Ts', O, R, L'⟩) b) id id :=
  fun s s' hs => alike_tree h b s s' hs

theorem match_step (h : HostsAlike H H' E A) {c d : Cpu Q} (hc : abs c = abs d) :
    Match H H' A (stepStored c) (stepStored d) keeps keeps := by
  intro s s' hs
  have e := congrArg (fun p => p.run H s) (keep_step (σ := ⟨Ts, O, R, L⟩) c)
  have e' := congrArg (fun p => p.run H' s') (keep_step (σ := ⟨Ts', O, R, L'⟩) d)
  simp only [(run_map _ _ _).1] at e e'
  rw [Prod.mk.injEq] at e e'
  rw [e.1, e.2, e'.1, e'.2, ← hc]
  generalize abs c = r
  have h1 := h.addM1 r.pc s s' hs
  have h2 := h.readOpcode r.pc r.bumpR.ir _ _ _ _ h1.1 h1.2
  unfold stepKeep
  show (((Tree.calls _).map _).run H _).1 = (((Tree.calls _).map _).run H' _).1 ∧ A (((Tree.calls _).map _).run H _).2 (((Tree.calls _).map _).run H' _).2
  rw [(run_map _ _ _).1, (run_map _ _ _).1, ← h2.1]
  have ht := alike_tree h (opKeep (O := O) (R := R) (FlavourSpec.opt Q)
    (H (.readOpcode r.pc r.bumpR.ir (H (.addM1 r.pc) s).1) (H (.addM1 r.pc) s).2).1 (r.bumpR.skip 1)) _ _ h2.2
  exact ⟨by rw [ht.1], ht.2⟩

theorem match_irq (h : HostsAlike H H' E A) {c d : Cpu Q} (hc : abs c = abs d) (hp : c.pfx = none) (hp' : d.pfx = none) :
    Match H H' A (irqNoCheck false c) (irqNoCheck false d) seenR seenR := by
  intro s s' hs
  have q : ∀ {σ : Sig} (c : Cpu Q), (irqNoCheck false c : Prog σ _).erase = irqNoCheck false c := by
    intro σ c
    rw [← erase_irq, erase_erase]
  have := alike_drives h (drive_interrupt_keep c hp) (hc ▸ drive_interrupt_keep d hp') (q c) (q d) hs
  exact ⟨Prod.ext this.2.1 this.1, this.2.2⟩

theorem match_ask (h : HostsAlike H H' E A) (b : Bool) : Match H H' A (askIrq b) (askIrq b) id id := by
  intro s s' hs
  cases b with
  | false => exact ⟨rfl, hs⟩
  | true =>
    have h1 := h.asTimestamp s s' hs
    exact h.isIrq _ _ _ _ h1.1 h1.2

theorem match_halt (h : HostsAlike H H' E A) {c d : Cpu Q} (hc : abs c = abs d) :
    Match H H' A (haltStep c) (haltStep d) abs abs := by
  intro s s' hs
  have e : ∀ c : Cpu Q, abs c.incR = (abs c).bumpR := by
    intro c
    simp only [abs, absS, Cpu.load, Cpu.getPc, code_simps, spec_simps, norm_simps]
  have hpc : c.pc = d.pc := (congrArg Regs.pc hc :)
  refine ⟨?_, ?_⟩
  · show abs c.incR = abs d.incR
    rw [e, e, hc]
  · show A (H (.addM1 c.pc) s).2 (H' (.addM1 d.pc) s').2
    rw [hpc]
    exact (h.addM1 d.pc s s' hs).2

/-- The parts of the state that `execute_with_limit` looks at. -/
theorem abs_marks {c d : Cpu Q} (hc : abs c = abs d) : c.lastEi = d.lastEi ∧ c.halt = d.halt ∧ c.iff1 = d.iff1 ∧
    (c.pfx = none ↔ d.pfx = none) ∧ isIntAllowed c.pfx false = isIntAllowed d.pfx false := by
  have e1 : c.lastEi = d.lastEi := (congrArg Regs.ei hc :)
  have e2 : c.halt = d.halt := (congrArg Regs.halted hc :)
  have e3 : c.iff1 = d.iff1 := (congrArg Regs.iff1 hc :)
  have e4 : ixOf c.pfx = ixOf d.pfx := (congrArg Regs.idx hc :)
  have e5 : c.pfx = d.pfx := by
    generalize c.pfx = x at e4
    generalize d.pfx = y at e4
    rcases x with _ | _ | _ <;> rcases y with _ | _ | _ <;> first | rfl | cases e4
  rw [e5]
  exact ⟨e1, e2, e3, Iff.rfl, rfl⟩

theorem abs_noMark {c d : Cpu Q} (hc : abs c = abs d) :
    abs { c with lastEi := false } = abs { d with lastEi := false } := by
  show { abs c with ei := false } = { abs d with ei := false }
  rw [hc]

/-- What is seen of the results of the loops. -/
def seenLoop {σ : Sig} (r : Option (Reason σ × Cpu Q)) : Option ((Bool × Option (Out σ.O σ.R)) × Regs × Bool) :=
  r.map fun r => (match r.1 with
    | .limitReached => (false, some .ok)
    | .enableInt => (false, some .ok)
    | .irq => (true, some .ok)
    | .halt => (false, some .halt)
    | .writeIo o => (false, some (.writeIo o))
    | .reti x => (false, some (.reti x))
    | .ub => (false, none), abs r.2, decide (r.2.pfx = none))

@[inherit_doc seenLoop]
def seenLimit {σ : Sig} (r : Option (Res σ × Cpu Q)) : Option (Regs × Option (Out σ.O σ.R)) := r.map seenR

section
variable {l : L} {l' : L'}

theorem Match.past (hl : LimitsAlike H H' A l l') {g : β → δ} {g' : β' → δ} {p q p' q'} (h : Match H H' A p p' g g')
    (h' : Match H H' A q q' g g') :
    Match H H' A ((ask (.isPastLimit l)).bind fun b => if b then p else q)
      ((ask (.isPastLimit l')).bind fun b => if b then p' else q') g g' := by
  have ha : Match H H' A (ask (σ := ⟨Ts, O, R, L⟩) (.isPastLimit l)) (ask (σ := ⟨Ts', O, R, L'⟩) (.isPastLimit l'))
      (id : Bool → Bool) (id : Bool → Bool) := fun s s' hs => hl s s' hs
  refine Match.bind ha ?_
  rintro b b' (rfl : b = b')
  cases b
  · exact h'
  · exact h

theorem match_loop (h : HostsAlike H H' E A) (hl : LimitsAlike H H' A l l') (n : Nat) {c d : Cpu Q}
    (hc : abs c = abs d) : Match H H' A (loopC n l c) (loopC n l' d) seenLoop seenLoop := by
  induction n generalizing c d with
  | zero => exact .ret rfl
  | succ n ih =>
    refine Match.bind (match_step h hc) ?_
    rintro ⟨e, c1⟩ ⟨e', d1⟩ hk
    have k1 := congrArg (fun x : Bool × _ => x.1) hk
    have k2 : outX e = outX e' := congrArg (fun x : Bool × _ => x.2.1) hk
    have k3 : abs c1 = abs d1 := congrArg (fun x : Bool × _ => x.2.2) hk
    obtain ⟨m1, m2, m3, m4, m5⟩ := abs_marks k3
    have same : ∀ {r : Reason ⟨Ts, O, R, L⟩} {r' : Reason ⟨Ts', O, R, L'⟩}, seenLoop (some (r, c1)) = seenLoop (some (r', d1)) →
        Match H H' A (.ret (some (r, c1))) (.ret (some (r', d1))) seenLoop seenLoop := fun h => .ret h
    have hm : decide (c1.pfx = none) = decide (d1.pfx = none) := decide_eq_decide.2 m4
    cases e <;> cases e' <;> first
      | (cases k1; done)
      | (cases k2; done)
      | skip
    · refine .past hl (same ?_) ?_
      · simp only [seenLoop, Option.map_some, k3, hm]
      · rw [m5, m3]
        refine Match.bind (match_ask h _) ?_
        rintro b b' (rfl : b = b')
        cases b
        · exact ih k3
        · exact same (by simp only [seenLoop, Option.map_some, k3, hm])
    · refine .past hl (same ?_) (ih (abs_noMark k3))
      simp only [seenLoop, Option.map_some, k3, hm]
    · exact same (by simp only [seenLoop, Option.map_some, k3, hm])
    · cases k2
      exact same (by simp only [seenLoop, Option.map_some, k3, hm])
    · cases k2
      exact same (by simp only [seenLoop, Option.map_some, k3, hm])
    · exact same (by simp only [seenLoop, Option.map_some, k3, hm])

theorem Match.bind_wp {f : α → γ} {f' : α' → γ} {g : β → δ} {g' : β' → δ} {p p'} (h : Match H H' A p p' f f') {P : α → Prop}
    (hw : p.wp fun _ a => P a) {k k'} (hk : ∀ a a', f a = f' a' → P a → Match H H' A (k a) (k' a') g g') :
    Match H H' A (p.bind k) (p'.bind k') g g' := by
  intro s s' hs
  rw [Prog.run_bind, Prog.run_bind]
  exact hk _ _ (h s s' hs).1 (Prog.runs_wp (Prog.runs_run H p s) hw) _ _ (h s s' hs).2

/-- The loop ends for an interrupt only where one is allowed. -/
theorem loop_irq {σ : Sig} (n : Nat) (l : σ.L) (c : Cpu Q) :
    (loopC (σ := σ) n l c).wp fun _ r => ∀ d, r = some (.irq, d) → d.pfx = none := by
  induction n generalizing c with
  | zero => exact fun d h => by cases h
  | succ n ih =>
    refine (Prog.wp_bind _ _ _).2 (Prog.wp_mono (fun t r _ => ?_) (ok_stepStored c))
    obtain ⟨e, c1⟩ := r
    cases e with
    | cont =>
      intro past
      cases past with
      | true => exact fun d h => by cases h
      | false =>
        refine (Prog.wp_bind (askIrq _) _ _).2 ?_
        cases hi : (isIntAllowed c1.pfx false && c1.iff1) with
        | false => exact ih c1
        | true =>
          intro ts i
          cases i with
          | false => exact ih c1
          | true =>
            intro d hd
            cases hd
            simp only [isIntAllowed, Bool.and_eq_true, Option.isNone_iff_eq_none] at hi
            exact hi.1.1
    | enableInt =>
      intro past
      cases past with
      | true => exact fun d h => by cases h
      | false => exact ih _
    | _ => exact fun d h => by cases h

/-- What follows an interrupt. -/
def irqThen {σ : Sig} (l : σ.L) (k : Cpu Q → Prog σ (Option (Res σ × Cpu Q))) (c : Cpu Q) :
    Prog σ (Option (Res σ × Cpu Q)) :=
  (irqNoCheck false c).bind fun r => match r.1 with
    | .ok => (ask (.isPastLimit l)).bind fun b => if b then .ret (some (.ok, r.2)) else k r.2
    | e => .ret (some (e, r.2))

theorem match_irqThen (h : HostsAlike H H' E A) (hl : LimitsAlike H H' A l l') {c d : Cpu Q}
    (hc : abs c = abs d) (hp : c.pfx = none)
    {k : Cpu Q → Prog ⟨Ts, O, R, L⟩ (Option (Res ⟨Ts, O, R, L⟩ × Cpu Q))}
    {k' : Cpu Q → Prog ⟨Ts', O, R, L'⟩ (Option (Res ⟨Ts', O, R, L'⟩ × Cpu Q))}
    (hk : ∀ c d : Cpu Q, abs c = abs d → Match H H' A (k c) (k' d) seenLimit seenLimit) :
    Match H H' A (irqThen l k c) (irqThen l' k' d) seenLimit seenLimit := by
  refine Match.bind (match_irq h hc hp ((abs_marks hc).2.2.2.1.1 hp)) ?_
  rintro ⟨e, c1⟩ ⟨e', d1⟩ hr
  have k2 : outS e = outS e' := congrArg Prod.snd hr
  have k3 : abs c1 = abs d1 := congrArg Prod.fst hr
  have same : ∀ {r : Res ⟨Ts, O, R, L⟩} {r' : Res ⟨Ts', O, R, L'⟩}, outS r = outS r' →
      Match H H' A (.ret (some (r, c1))) (.ret (some (r', d1))) seenLimit seenLimit := by
    intro r r' h
    refine .ret ?_
    show some (abs c1, outS r) = some (abs d1, outS r')
    rw [k3, h]
  cases e <;> cases e' <;> first
    | (cases k2; done)
    | skip
  · exact .past hl (same rfl) (hk _ _ k3)
  all_goals exact same k2

theorem match_outer (h : HostsAlike H H' E A) (hl : LimitsAlike H H' A l l') (n k : Nat) {c d : Cpu Q}
    (hc : abs c = abs d) : Match H H' A (limitOuter n l k c) (limitOuter n l' k d) seenLimit seenLimit := by
  induction k generalizing c d with
  | zero => exact .ret rfl
  | succ k ih =>
    rw [outer_eq, outer_eq]
    refine Match.bind_wp (P := fun r => ∀ d, r = some (.irq, d) → d.pfx = none) (match_loop h hl n hc)
      (loop_irq (σ := ⟨Ts, O, R, L⟩) n l c) ?_
    rintro (_ | ⟨e, c1⟩) (_ | ⟨e', d1⟩) hr hw
    · exact .ret rfl
    · cases hr
    · cases hr
    · have hr := Option.some.inj hr
      have k2 := congrArg Prod.fst hr
      have k3 : abs c1 = abs d1 := congrArg (fun x : (Bool × _) × Regs × Bool => x.2.1) hr
      have same : ∀ {r : Res ⟨Ts, O, R, L⟩} {r' : Res ⟨Ts', O, R, L'⟩}, outS r = outS r' →
          Match H H' A (.ret (some (r, c1))) (.ret (some (r', d1))) seenLimit seenLimit := by
        intro r r' h
        refine .ret ?_
        show some (abs c1, outS r) = some (abs d1, outS r')
        rw [k3, h]
      cases e <;> cases e' <;> first
        | (cases k2; done)
        | exact same rfl
        | (cases k2; exact same rfl)
        | exact match_irqThen h hl k3 (hw c1 rfl) fun c d hc => ih hc

theorem match_start (h : HostsAlike H H' E A) (hl : LimitsAlike H H' A l l') (n : Nat) {c d : Cpu Q}
    (hc : abs c = abs d) : Match H H' A (limitStart n l c) (limitStart n l' d) seenLimit seenLimit := by
  obtain ⟨m1, m2, m3, m4, m5⟩ := abs_marks hc
  unfold limitStart
  cases hx : c.lastEi with
  | true =>
    rw [if_pos rfl, if_pos (m1.symm.trans hx)]
    exact match_outer h hl n n (abs_noMark hc)
  | false =>
    rw [if_neg Bool.false_ne_true, if_neg (by rw [← m1, hx]; exact Bool.false_ne_true), ← m3, ← m5]
    refine Match.bind_wp (P := fun b => b = true → c.pfx = none) (match_ask h _) ?_ ?_
    · cases hi : (isIntAllowed c.pfx false && c.iff1) with
      | false => exact nofun
      | true =>
        simp only [isIntAllowed, Bool.and_eq_true, Option.isNone_iff_eq_none] at hi
        exact fun ts i _ => hi.1.1
    · rintro b b' (rfl : b = b') hb
      cases b with
      | false => exact match_outer h hl n n hc
      | true => exact match_irqThen h hl hc (hb rfl) fun c d hc => match_outer h hl n n hc

theorem match_halted (h : HostsAlike H H' E A) (hl : LimitsAlike H H' A l l') (n m : Nat) {c d : Cpu Q}
    (hc : abs c = abs d) : Match H H' A (limitHalted n l m c) (limitHalted n l' m d) seenLimit seenLimit := by
  induction m generalizing c d with
  | zero => exact .ret rfl
  | succ m ih =>
    refine .past hl (.ret ?_) ?_
    · exact congrArg (fun r => some (r, some Out.ok)) hc
    · rw [(abs_marks hc).2.2.1]
      refine Match.bind (match_ask h _) ?_
      rintro b b' (rfl : b = b')
      cases b with
      | true => exact match_start h hl n hc
      | false => exact Match.bind (match_halt h hc) fun c d hc => ih hc

theorem match_limit (h : HostsAlike H H' E A) (hl : LimitsAlike H H' A l l') (n : Nat) {c d : Cpu Q}
    (hc : abs c = abs d) : Match H H' A (executeWithLimit n l c) (executeWithLimit n l' d) seenLimit seenLimit := by
  unfold executeWithLimit
  rw [(abs_marks hc).2.1]
  split
  · exact match_halted h hl n n hc
  · exact .past hl (.ret (congrArg (fun r => some (r, some Out.ok)) hc)) (match_start h hl n hc)

end
end Z80
