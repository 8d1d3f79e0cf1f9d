import Verif.Props.RalStep
import Verif.Model.RalThread

/-!
# C68: running to completion steps over calls

`run_for` and `run_to_completion`, for all programs, devices and states.
-/

namespace Z80.Ral
open Spec Spec.Ral

variable {Q D : Type}

/-- So many calls of a method of the debugger that returned nothing, with their durations added up. -/
inductive Frames {M A : Type} (f : M → Option (Option A × Nat × M)) : Nat → M → Nat → M → Prop
  | nil (m) : Frames f 0 m 0 m
  | cons {k m ts m1 u m'} : f m = some (none, ts, m1) → Frames f k m1 u m' → Frames f (k + 1) m (ts + u) m'

/-- C68: `run_for` calls the method until it returns something, at most `frames + 1` times, and adds up the durations. It
fails only if the method does or the sum is too large. -/
theorem C68_run_for {M A : Type} {f : M → Option (Option A × Nat × M)} {frames start : Nat} {m m' : M} {r : Option A}
    {ts : Nat} : runFor f frames start m = some (r, ts, m') ↔
      ∃ k s u v, k ≤ frames ∧ Frames f k m u s ∧ f s = some (r, v, m') ∧ ts = start + u + v ∧ ts < 2 ^ 32 ∧
        (r = none → k = frames) := by
  induction frames generalizing start m with
  | zero =>
    rw [runFor]
    constructor
    · intro h
      cases hf : f m with
      | none => rw [hf] at h; cases h
      | some x =>
        obtain ⟨r1, t1, m1⟩ := x
        rw [hf] at h
        dsimp only at h
        unfold add32 at h
        by_cases hl : start + t1 < 2 ^ 32
        · rw [if_pos hl] at h
          cases r1 <;> cases h <;> exact ⟨0, m, 0, t1, Nat.le_refl 0, .nil m, hf, rfl, hl, fun _ => rfl⟩
        · rw [if_neg hl] at h
          cases h
    · rintro ⟨k, s, u, v, hk, h1, h2, rfl, h4, -⟩
      obtain rfl : k = 0 := by omega
      cases h1
      rw [h2]
      dsimp only
      unfold add32
      rw [Nat.add_zero] at h4 ⊢
      rw [if_pos h4]
      cases r <;> rfl
  | succ n ih =>
    rw [runFor]
    constructor
    · intro h
      cases hf : f m with
      | none => rw [hf] at h; cases h
      | some x =>
        obtain ⟨r1, t1, m1⟩ := x
        rw [hf] at h
        dsimp only at h
        unfold add32 at h
        by_cases hl : start + t1 < 2 ^ 32
        · rw [if_pos hl] at h
          cases r1 with
          | some d =>
            cases h
            exact ⟨0, m, 0, t1, Nat.zero_le _, .nil m, hf, rfl, hl, nofun⟩
          | none =>
            obtain ⟨k, s, u, v, hk, h1, h2, h3, h4, h5⟩ := ih.1 h
            exact ⟨k + 1, s, t1 + u, v, by omega, .cons hf h1, h2, by omega, h4, fun h => by rw [h5 h]⟩
        · rw [if_neg hl] at h
          cases h
    · rintro ⟨k, s, u, v, hk, h1, h2, rfl, h4, h5⟩
      cases h1 with
      | nil =>
        rw [h2]
        dsimp only
        unfold add32
        rw [Nat.add_zero] at h4 ⊢
        rw [if_pos h4]
        cases r with
        | some d => rfl
        | none => exact absurd (h5 rfl) (by omega)
      | cons e1 e2 =>
        rename_i k t1 m1 u
        rw [e1]
        dsimp only
        unfold add32
        rw [if_pos (by omega)]
        dsimp only
        exact ih.2 ⟨k, s, u, v, by omega, e2, h2, by omega, h4, fun h => by have := h5 h; omega⟩

/-- Running from `m` to `m'`, one `execute_next` after another; frames may end and seconds may pass in between. `P` holds of
each instruction: the machine before, the calls made and the machine after. -/
inductive Walk [Flavour Q] (dev : Device D) (deb : Bool) (P : Machine Q D → List (Ev ralSig) → Machine Q D → Prop) :
    Machine Q D → Machine Q D → Prop
  | refl (m) : Walk dev deb P m m
  | step {m t x y m'} (l : Nat) : m.executed dev deb = some (t, x) → (y = if l ≤ x.cur.toNat then x.endFrame dev l else x) →
    P m t y → Walk dev deb P y m' → Walk dev deb P m m'
  | wrap {m x m'} : m.wrapSecond dev = some x → Walk dev deb P x m' → Walk dev deb P m m'

section
variable [Flavour Q] {dev : Device D} {deb : Bool} {P : Machine Q D → List (Ev ralSig) → Machine Q D → Prop}

theorem Walk.trans {m m1 m' : Machine Q D} (h : Walk dev deb P m m1) (h' : Walk dev deb P m1 m') : Walk dev deb P m m' := by
  induction h with
  | refl => exact h'
  | step l h1 h2 h3 _ ih => exact .step l h1 h2 h3 (ih h')
  | wrap h1 _ ih => exact .wrap h1 (ih h')

/-- Not at the address `a`. -/
def Away (a : U16) (m : Machine Q D) (_ : List (Ev ralSig)) (_ : Machine Q D) : Prop := m.cpu.getPc ≠ a

theorem ticks_walk {a : U16} {limit k : Nat} {m m' : Machine Q D} (h : ticks dev limit k m = some m')
    (hp : ∀ j < k, ∀ s, ticks dev limit j m = some s → s.cpu.getPc ≠ a) : Walk dev false (Away a) m m' := by
  induction k generalizing m with
  | zero => cases h; exact .refl _
  | succ k ih =>
    obtain ⟨y, h1, h2⟩ := Option.bind_eq_some_iff.1 h
    obtain ⟨⟨t, x⟩, h3, h4⟩ := Option.map_eq_some_iff.1 h1
    refine .step limit h3 h4.symm (hp 0 (by omega) m rfl) (ih h2 fun j hj s hs => hp (j + 1) (by omega) s ?_)
    show (tick dev limit m).bind _ = _
    rw [h1]
    exact hs

/-- A call of `run_until_brkpt` with one break point. -/
theorem until_walk {search : List U16 → U16 → Machine.Found} (hs : Searches search) {n : Nat} {a : U16} {m m' : Machine Q D}
    {r : Option Nat} {ts : Nat} (h : m.runUntilBrkpt dev search n [a] = some (r, ts, m')) :
    Walk dev false (Away a) m m' ∧ (r ≠ none → m'.cpu.getPc = a) := by
  obtain ⟨m0, k, h1, h2, h3, -⟩ := C64_run_until_brkpt_partial hs (List.pairwise_singleton _ a) h
  refine ⟨.wrap h1 (ticks_walk h2.1 fun j hj s hs => ?_), fun hr => ?_⟩
  · have := (h2.2 j hj s hs).1
    exact fun he => this (he ▸ .head _)
  · cases r with
    | none => exact absurd rfl hr
    | some i =>
      have h3 : [a][i]? = some m'.cpu.getPc := h3
      cases i with
      | zero => injection h3 with h3; exact h3.symm
      | succ i => cases h3

theorem frames_walk {A : Type} {f : Machine Q D → Option (Option A × Nat × Machine Q D)}
    (hf : ∀ {m ts m'}, f m = some (none, ts, m') → Walk dev deb P m m') {k u : Nat} {m m' : Machine Q D}
    (h : Frames f k m u m') : Walk dev deb P m m' := by
  induction h with
  | nil => exact .refl _
  | cons h1 _ ih => exact (hf h1).trans ih

end

variable [FlavourSpec Q] {dev : Device D}

omit [FlavourSpec Q] in
theorem quiet_walk [Flavour Q] {limit : Nat} {P : Machine Q D → List (Ev ralSig) → Machine Q D → Prop} {m m' : Machine Q D}
    (h : Quiet dev limit P m m') : Walk dev true P m m' := by
  induction h with
  | refl => exact .refl _
  | step h1 h2 h3 _ ih => exact .step limit h1 (by rw [if_neg (by omega)]) h3 ih

/-- A call of `debug_runto_ret`: to a return, or past the end of the frame without one. -/
def Ret (dev : Device D) (d : CpuDebug) (m m' : Machine Q D) : Prop :=
  ∃ s t l l', Walk dev true NoReturn m s ∧ Round dev l s t m' l' ∧ records t = [d] ∧
    Returned s.cpu.getSp m'.cpu.getSp m'.cpu.getPc t

theorem ret_walk {n : Nat} {m m' : Machine Q D} {r : Option CpuDebug} {ts : Nat}
    (h : m.debugRuntoRet dev n = some (r, ts, m')) :
    match r with
    | none => Walk dev true NoReturn m m'
    | some d => Ret dev d m m' := by
  obtain ⟨m0, h1, -, s, t, l', h2, h3, h4⟩ := C65_debug_runto_ret h
  cases r with
  | some d => exact ⟨s, t, _, l', .wrap h1 (quiet_walk h2), h3, h4.1, h4.2⟩
  | none =>
    obtain ⟨x, h5, h6⟩ := h3
    refine .wrap h1 ((quiet_walk h2).trans (.step (m0.limit + m0.frame) h5 (y := m') ?_ h4.2 (.refl _)))
    split at h6
    · rw [if_pos ‹_›]; exact h6.1
    · rw [if_neg ‹_›]; exact h6.1

/-- A step of the debugger recorded the instruction `d`, the last one it executed, from `s`, making the calls `t`. -/
def Recorded (dev : Device D) (d : CpuDebug) (s : Machine Q D) (t : List (Ev ralSig)) (m' : Machine Q D) : Prop :=
  ∃ l l', Round dev l s t m' l' ∧ records t = [d]

/-- What a step recorded, and what is told of it. -/
theorem step_told {l : Nat} {m m' : Machine Q D} {d : CpuDebug} (h : Stepped dev l m (some d) m')
    (hv : m.cpu.getIm = .mode2 → Spec.ackOf ((executeNext true m.cpu).trace (tClock (Boards.host dev)) (m.cur, m.bus)) = []) :
    (∃ s t, Recorded dev d s t m' ∧ Told d s.cpu.getSp m'.cpu t) ∨ ∃ p, d = lone p m.cpu.getPc := by
  have told : ∀ {l : Nat} {s : Machine Q D} {t : List (Ev ralSig)} {m' : Machine Q D} {l' : Nat}, Round dev l s t m' l' → records t = [d] → (s.cpu.getIm ≠ .mode2 ∨ Spec.ackOf t = []) →
      Told d s.cpu.getSp m'.cpu t := by
    rintro l s t m' l' ⟨x, h1, h2⟩ h3 h4
    have hc : m'.cpu = x.cpu := by
      split at h2
      · rw [h2.1]; rfl
      · rw [h2.1]
    obtain ⟨-, e, hr⟩ := executed_goes h1
    rw [hc]
    exact C63_execute_next hr (h3 ▸ .head _) h4
  cases h with
  | instr h1 h2 h3 => exact .inl ⟨m, _, ⟨_, _, h1, h2⟩, told h1 h2 h3.symm⟩
  | vector h1 h2 h3 =>
    obtain ⟨x, h4, -⟩ := h1
    have h5 := hv h3
    obtain ⟨e, cpu, cur, bus, h6, -, -⟩ := executed_ok (dev := dev) true m
    rw [h4] at h6
    injection h6 with h6
    rw [← (Prod.mk.inj h6).1, h2] at h5
    cases h5
  | again h1 h2 h3 h4 h5 => exact .inr ⟨_, rfl⟩
  | prefixed h1 h2 h3 h4 h5 h6 h7 =>
    refine .inl ⟨_, _, ⟨_, _, h5, h6⟩, told h5 h6 (.inr ?_)⟩
    unfold Spec.ackOf at h7 ⊢
    rw [List.filterMap_append] at h7
    exact (List.append_eq_nil_iff.1 h7).2
  | prefixes => exact .inr ⟨_, rfl⟩

/-- A step that was neither a call nor a return: nothing (halted), a lone prefix, or an instruction that left SP alone or
is followed by the next one. -/
def Neither (dev : Device D) (m : Machine Q D) : Option CpuDebug → Prop
  | none => True
  | some d => (∃ p pc, d = lone p pc) ∨
    ∃ s t, Recorded dev d s t m ∧ (m.cpu.getSp = s.cpu.getSp ∨ m.cpu.getPc = d.next)

/-- What `run_to_completion` does after its step, which recorded `dbg` and left the machine `m`: from there to `m'` it takes
`u` T-states, prints `p` and returns `r`. -/
inductive Completed (dev : Device D) (search : List U16 → U16 → Machine.Found) (fps n : Nat) (m : Machine Q D) :
    Option CpuDebug → Option CpuDebug → Option CpuDebug → Nat → Machine Q D → Prop
  /-- the step was a return -/
  | ret {d s t} : Recorded dev d s t m → Returned s.cpu.getSp m.cpu.getSp m.cpu.getPc t →
    Completed dev search fps n m (some d) none (some d) 0 m
  /-- the step was a call: on to the instruction after it, without having been there, or so many frames -/
  | call {d s t u m'} : Recorded dev d s t m → Called d.next s.cpu.getSp m.cpu.getSp m.cpu.getPc t →
    Walk dev false (Away d.next) m m' →
    (m'.cpu.getPc = d.next ∨ Frames (Machine.runUntilBrkpt dev search n [d.next]) (fps + 1) m u m') →
    Completed dev search fps n m (some d) (some d) none u m'
  /-- otherwise on to the next return -/
  | next {dbg d u m'} : Neither dev m dbg → Ret dev d m m' → Completed dev search fps n m dbg none (some d) u m'
  /-- or so many frames -/
  | long {dbg u m'} : Neither dev m dbg → Walk dev true NoReturn m m' → Frames (Machine.debugRuntoRet dev n) (fps + 1) m u m' →
    Completed dev search fps n m dbg none none u m'

theorem frames_snoc {M A : Type} {f : M → Option (Option A × Nat × M)} {k u v : Nat} {m s m' : M} (h : Frames f k m u s)
    (h' : f s = some (none, v, m')) : Frames f (k + 1) m (u + v) m' := by
  induction h with
  | nil =>
    rw [Nat.zero_add v]
    exact Frames.cons (ts := v) (u := 0) h' (.nil m')
  | cons h1 _ ih =>
    have := Frames.cons h1 (ih h')
    rwa [← Nat.add_assoc] at this

omit [FlavourSpec Q] in
theorem lone_told (p : Prefix) (pc : U16) (c : Cpu Q) :
    wasJustARet (lone p pc) c = some false ∧ wasJustACall (lone p pc) c = some false := by
  cases p <;> exact ⟨rfl, rfl⟩

/-- C68: `run_to_completion` steps over a call and otherwise runs to the next return. The interrupts of mode 2, and those of
mode 0, are left out for its first step. -/
theorem C68_run_to_completion_partial {search : List U16 → U16 → Machine.Found} (hs : Searches search) {fps n : Nat}
    {m m0 m' : Machine Q D} (hw : m.wrapSecond dev = some m0) (hl : m0.limit + 3 * m0.frame < 2 ^ 32)
    (hv : m0.cpu.getIm ≠ .mode1 →
      Spec.ackOf ((executeNext true m0.cpu).trace (tClock (Boards.host dev)) (m0.cur, m0.bus)) = [])
    {r p : Option CpuDebug} {ts : Nat} (h : m.runToCompletion dev search fps (n + 2) = some (r, p, ts, m')) :
    ∃ dbg m1 u, Stepped dev (m0.limit + m0.frame) m0 dbg m1 ∧ ts = m1.cur.toNat - m0.cur.toNat + u ∧
      Completed dev search fps (n + 2) m1 dbg p r u m' := by
  obtain ⟨dbg, m1, h1, h2⟩ := C65_debug_step_partial hw hl n fun h => hv (by rw [h]; decide)
  refine ⟨dbg, m1, ?_⟩
  have rest : Neither dev m1 dbg → ((runFor (Machine.debugRuntoRet dev (n + 2)) fps (m1.cur.toNat - m0.cur.toNat) m1).bind
      fun x => some (x.1, (none : Option CpuDebug), x.2.1, x.2.2)) = some (r, p, ts, m') →
      ∃ u, Stepped dev (m0.limit + m0.frame) m0 dbg m1 ∧ ts = m1.cur.toNat - m0.cur.toNat + u ∧
      Completed dev search fps (n + 2) m1 dbg p r u m' := by
    intro hn h
    obtain ⟨⟨r1, t1, m2⟩, h3, h4⟩ := Option.bind_eq_some_iff.1 h
    injection h4 with h4
    injection h4 with e1 h4
    injection h4 with e2 h4
    injection h4 with e3 e4
    simp only at e1 e3 e4
    subst e1; subst e2; subst e3; subst e4
    obtain ⟨k, s, u, v, hk, h5, h6, h7, h8, h9⟩ := C68_run_for.1 h3
    refine ⟨u + v, h2, by omega, ?_⟩
    clear h
    have hq := frames_walk (dev := dev) (deb := true) (P := NoReturn) (fun h => ret_walk h) h5
    have hr := ret_walk h6
    cases r1 with
    | none =>
      obtain rfl := h9 rfl
      exact .long hn (hq.trans hr) (frames_snoc h5 h6)
    | some d =>
      obtain ⟨s', t, l, l', k1, k2⟩ := hr
      exact .next hn ⟨s', t, l, l', hq.trans k1, k2⟩
  unfold Machine.runToCompletion at h
  rw [h1] at h
  cases dbg with
  | none => exact rest trivial h
  | some d =>
    have h : ((wasJustARet d m1.cpu).bind fun ret => if ret then
        some (some d, (none : Option CpuDebug), m1.cur.toNat - m0.cur.toNat, m1) else
        (wasJustACall d m1.cpu).bind fun call => if call then
          (runFor (Machine.runUntilBrkpt dev search (n + 2) [d.next]) fps (m1.cur.toNat - m0.cur.toNat) m1).bind fun x =>
            some ((none : Option CpuDebug), some d, x.2.1, x.2.2)
        else (runFor (Machine.debugRuntoRet dev (n + 2)) fps (m1.cur.toNat - m0.cur.toNat) m1).bind
          fun x => some (x.1, (none : Option CpuDebug), x.2.1, x.2.2)) = some (r, p, ts, m') := h
    rcases step_told h2 (fun h => hv (by rw [h]; decide)) with ⟨s, t, h3, b, e, h4, h5, h6, h7, h8⟩ | ⟨q, rfl⟩
    · rw [h5] at h
      cases e with
      | true =>
        cases h
        exact ⟨0, h2, rfl, .ret h3 (h7 rfl)⟩
      | false =>
        have h : ((wasJustACall d m1.cpu).bind _) = some (r, p, ts, m') := h
        rw [h4] at h
        cases b with
        | true =>
          have h : ((runFor (Machine.runUntilBrkpt dev search (n + 2) [d.next]) fps (m1.cur.toNat - m0.cur.toNat) m1).bind
            fun x => some ((none : Option CpuDebug), some d, x.2.1, x.2.2)) = some (r, p, ts, m') := h
          obtain ⟨⟨r1, t1, m2⟩, k1, k2⟩ := Option.bind_eq_some_iff.1 h
          injection k2 with k2
          injection k2 with e1 k2
          injection k2 with e2 k2
          injection k2 with e3 e4
          simp only at e3 e4
          subst e1; subst e2; subst e3; subst e4
          obtain ⟨k, s', u, v, hk, k5, k6, k7, k8, k9⟩ := C68_run_for.1 k1
          refine ⟨u + v, h2, by omega, .call h3 (h6 rfl) ?_ ?_⟩
          · exact (frames_walk (fun h => (until_walk hs h).1) k5).trans (until_walk hs k6).1
          · cases r1 with
            | none =>
              obtain rfl := k9 rfl
              exact .inr (frames_snoc k5 k6)
            | some i => exact .inl ((until_walk hs k6).2 nofun)
        | false => exact rest (.inr ⟨s, t, h3, h8 rfl rfl⟩) h
    · obtain ⟨k1, k2⟩ := lone_told q m0.cpu.getPc m1.cpu
      rw [k1] at h
      have h : ((wasJustACall (lone q m0.cpu.getPc) m1.cpu).bind _) = some (r, p, ts, m') := h
      rw [k2] at h
      exact rest (.inl ⟨q, _, rfl⟩) h

/-- No interrupt was accepted, unless in mode 0, where a device may supply a prefix. -/
def Calm (m : Machine Q D) (t : List (Ev ralSig)) (_ : Machine Q D) : Prop :=
  Spec.ackOf t = [] ∨ m.cpu.getIm = .mode0

/-- C68: `DebugRunIrq` runs to the next interrupt, or for so many frames without one. -/
theorem C68_run_irq {fps n : Nat} {m m' : Machine Q D} {r : Option CpuDebug} {ts : Nat}
    (h : m.runToIrq dev fps n = some (r, ts, m')) :
    match r with
    | some d => ∃ s t l l', Walk dev true Calm m s ∧ Round dev l s t m' l' ∧ Spec.ackOf t ≠ [] ∧ Interrupted s t m' (some d)
    | none => Walk dev true Calm m m' ∧ Frames (Machine.debugRuntoInt dev n) (fps + 1) m ts m' := by
  obtain ⟨k, s, u, v, -, h1, h2, h3, -, h5⟩ := C68_run_for.1 h
  have mono : ∀ {limit : Nat} {m m' : Machine Q D}, Quiet dev limit NoInt m m' → Walk dev true Calm m m' := by
    intro limit m m' h
    induction h with
    | refl => exact .refl _
    | step h1 h2 h3 _ ih => exact .step limit h1 (by rw [if_neg (by omega)]) (.inl h3) ih
  have one : ∀ {m m' : Machine Q D} {ts}, m.debugRuntoInt dev n = some (none, ts, m') → Walk dev true Calm m m' := by
    intro m m' ts h
    obtain ⟨m0, h1, -, s, t, l', h2, ⟨x, h3, h4⟩, h5⟩ := C65_debug_runto_int_partial h
    refine .wrap h1 ((mono h2).trans (.step (m0.limit + m0.frame) h3 (y := m') ?_ ?_ (.refl _)))
    · split at h4
      · rw [if_pos ‹_›]; exact h4.1
      · rw [if_neg ‹_›]; exact h4.1
    · rcases h5 with ⟨-, h5⟩ | ⟨h5, -, -⟩
      · exact h5
      · exact .inl h5
  have hq := frames_walk (dev := dev) (deb := true) (P := Calm) one h1
  cases r with
  | none =>
    obtain rfl := h5 rfl
    refine ⟨hq.trans (one h2), ?_⟩
    rw [h3, Nat.zero_add]
    exact frames_snoc h1 h2
  | some d =>
    obtain ⟨m0, k1, -, s', t, l', k2, k3, k4⟩ := C65_debug_runto_int_partial h2
    rcases k4 with ⟨k4, k5⟩ | ⟨-, -, k5⟩
    · exact ⟨s', t, _, l', hq.trans (.wrap k1 (mono k2)), k3, k4, k5⟩
    · cases k5

/-! ### C68 is false for interrupts -/

/-- A machine about to accept an interrupt in mode 2, whose handler is at `h`; at 0 it waits in a loop. -/
def vectored (h : U8) (code : List U8) : Option (Machine NMOS Unit) :=
  (withRom ([0x18, 0xFE, h, 0x00] ++ List.replicate (h.toNat - 4) 0x00 ++ code) 0 1000).map fun m =>
    { m with cpu := { m.cpu with iff1 := true, iff2 := true, im := .mode2, sp := 0x8000 } }

/-- If the step accepts an interrupt of mode 2, then the record holds the address of its handler in place of code, and
that is taken for code. A handler at 0x00C9: entering it is taken for a return. -/
theorem C68_refuted_ret : (vectored 0xC9 []).bind (fun m => do
    let (r, _, _, m) ← m.runToCompletion (nagging 0x02) linear 3 99
    some (r.map fun d => (d.mnemonic, d.code), m.cpu.getPc, m.cpu.getSp)) =
      some (some ("IRQ#", [0xC9, 0x00]), 0x00C9, 0x7FFE) := by decide +kernel

/-- A handler at 0x00CD: entering it is taken for a call of two bytes. The handler returns at once to the loop at 0, but the
break point is at 2 and so the computer runs for all of the frames. -/
theorem C68_refuted_call : (vectored 0xCD [0xC9]).bind (fun m => do
    let (r, p, ts, m) ← { m with frame := 100 }.runToCompletion (nagging 0x02) linear 3 99
    some (r.isNone, p.map fun d => d.next, ts ≥ 400, m.cpu.getPc)) = some (true, some 2#16, true, 0#16) := by decide +kernel

/-- The same handler elsewhere is run to its return. -/
example : (vectored 0xCE [0xC9]).bind (fun m => do
    let (r, _, ts, m) ← { m with frame := 100 }.runToCompletion (nagging 0x02) linear 3 99
    some (r.map fun d => d.code, ts, m.cpu.getPc)) = some (some [0xC9], 29, 0#16) := by decide +kernel

/-! ### Cases -/

/-- `CALL 6; NOP; NOP; NOP` and at 6 `NOP; RET`. -/
def calling : Option (Machine NMOS Unit) := (withRom [0xCD, 6, 0, 0, 0, 0, 0x00, 0xC9] 0 1000).map fun m =>
  { m with cpu := { m.cpu with sp := 0x8000 } }

/-- The computer meets the conditions of `C68_run_to_completion_partial`. -/
example : calling.bind (fun m => do
    let m0 ← m.wrapSecond terminator
    some (decide (m0.limit + 3 * m0.frame < 2 ^ 32), (Spec.ackOf ((executeNext true m0.cpu).trace
      (tClock (Boards.host terminator)) (m0.cur, m0.bus))).isEmpty)) = some (true, true) := by decide +kernel

/-- Over the call to 3. -/
example : calling.bind (fun m => do
    let (r, p, ts, m) ← m.runToCompletion terminator linear 3 99
    some (r.isNone, p.map fun d => d.code, ts, m.cpu.getPc)) = some (true, some [0xCD, 6, 0], 31, 3#16) := by
  decide +kernel

/-- From there to the return. -/
example : calling.bind (fun m => do
    let (_, _, _, m) ← m.runToCompletion terminator linear 3 99
    let (r, p, ts, _) ← m.runToCompletion terminator linear 3 99
    some (r.map fun d => d.code, p.isNone, ts)) = some (some [0xC9], true, 26) := by
  decide +kernel

end Z80.Ral
