import Verif.Proofs.RalStep
import Verif.Props.RalBreak
import Verif.Props.Transparent

/-!
# C65: stepping the example computer with its debugger

`debug_step`, `debug_runto_int` and `debug_runto_ret`, for all programs, devices and states.
-/

namespace Z80.Ral
open Spec Spec.Ral

variable {Q D : Type}

theorem lastRecord_nil : ∀ {t : List (Ev ralSig)} (x : Option CpuDebug), records t = [] → lastRecord t x = x
  | [], _, _ => rfl
  | ⟨r, a⟩ :: t, x, h => by
    cases r <;> first | exact lastRecord_nil (t := t) x h | cases h

theorem lastRecord_one : ∀ {t : List (Ev ralSig)} {d : CpuDebug} (x : Option CpuDebug),
    records t = [d] → lastRecord t x = some d
  | [], _, _, h => by cases h
  | ⟨r, a⟩ :: t, d, x, h => by
    cases r <;> first
      | exact lastRecord_one (t := t) x h
      | (injection h with h1 h2; subst h1; exact lastRecord_nil (t := t) _ h2)

theorem lastData_nil : ∀ {t : List (Ev ralSig)} (x : Option U8), Spec.ackOf t = [] → lastData t x = x
  | [], _, _ => rfl
  | ⟨r, a⟩ :: t, x, h => by
    cases r <;> first | exact lastData_nil (t := t) x h | cases h

theorem lastData_one : ∀ {t : List (Ev ralSig)} {d : U8} (x : Option U8), Spec.ackOf t = [d] → lastData t x = some d
  | [], _, _, h => by cases h
  | ⟨r, a⟩ :: t, d, x, h => by
    cases r <;> first
      | exact lastData_one (t := t) x h
      | (injection h with h1 h2; subst h1; exact lastData_nil (t := t) _ h2)

theorem keepRet_nil : ∀ {t : List (Ev ralSig)} (x : Option CpuDebug), records t = [] → keepRet t x = some x
  | [], _, _ => rfl
  | ⟨r, a⟩ :: t, x, h => by
    cases r <;> first | exact keepRet_nil (t := t) x h | cases h

theorem keepRet_one : ∀ {t : List (Ev ralSig)} {d : CpuDebug} (x : Option CpuDebug), records t = [d] →
    keepRet t x = (keepsRet d).map fun b => if b then some d else x
  | [], _, _, h => by cases h
  | ⟨r, a⟩ :: t, d, x, h => by
    cases r <;> first
      | exact keepRet_one (t := t) x h
      | (injection h with h1 h2
         subst h1
         show (keepsRet _).bind _ = _
         cases keepsRet _ with
         | none => rfl
         | some b => exact keepRet_nil (t := t) _ h2)

/-- One `execute_next` with a debugger: the calls `t` made. A frame that has ended at the limit `l` is finished, and the
limit becomes `l'`. -/
def Round [Flavour Q] (dev : Device D) (l : Nat) (m : Machine Q D) (t : List (Ev ralSig)) (m' : Machine Q D) (l' : Nat) :
    Prop :=
  ∃ x, m.executed dev true = some (t, x) ∧
    if l ≤ x.cur.toNat then m' = x.endFrame dev l ∧ l' = l + m.frame else m' = x ∧ l' = l

/-- The record of a lone prefix. -/
def lone (p : Prefix) (pc : U16) : CpuDebug :=
  ⟨[match p with | .xdd => 0xDD | .yfd => 0xFD], "NOP*", pc, some p, .single (.reg16 (some p) .HL)⟩

/-- What a step is: from the machine `m`, with the frame ending at `l`, to the record and the machine after. -/
inductive Stepped [Flavour Q] (dev : Device D) (l : Nat) (m : Machine Q D) : Option CpuDebug → Machine Q D → Prop
  /-- the processor was halted and nothing happened -/
  | halted {t m' l'} : m.cpu.isHalt = true → Round dev l m t m' l' → records t = [] → m'.cpu.isHalt = true →
    Stepped dev l m none m'
  /-- an instruction, or one given by an interrupting device in mode 0 or 1 -/
  | instr {t m' l' d} : Round dev l m t m' l' → records t = [d] → (Spec.ackOf t = [] ∨ m.cpu.getIm ≠ .mode2) →
    Stepped dev l m (some d) m'
  /-- an interrupt in mode 2: where it occured, where the vector is and what it is -/
  | vector {t m' l' d v} : Round dev l m t m' l' → Spec.ackOf t = [v] → m.cpu.getIm = .mode2 → d.mnemonic = "IRQ#" →
    d.pc = m.cpu.getPc → d.args = .single (.imm16 (word m.cpu.getI v)) →
    d.code = [lo8 m'.cpu.getPc, hi8 m'.cpu.getPc] → Stepped dev l m (some d) m'
  /-- a prefix after another that was fetched before -/
  | again {t m' l' p} : Round dev l m t m' l' → records t = [] → Spec.ackOf t = [] → m.cpu.getPrefix = some p →
    m'.cpu.isAfterPrefix = true → Stepped dev l m (some (lone p m.cpu.getPc)) m'
  /-- a prefix and the instruction -/
  | prefixed {t m1 l1 p t' m' l' d} : Round dev l m t m1 l1 → records t = [] → m.cpu.getPrefix = none →
    m1.cpu.getPrefix = some p → Round dev l1 m1 t' m' l' → records t' = [d] → Spec.ackOf (t ++ t') = [] →
    Stepped dev l m (some d) m'
  /-- a prefix and another -/
  | prefixes {t m1 l1 p t' m' l'} : Round dev l m t m1 l1 → records t = [] → m.cpu.getPrefix = none →
    m1.cpu.getPrefix = some p → Round dev l1 m1 t' m' l' → records t' = [] → m'.cpu.isAfterPrefix = true →
    Spec.ackOf (t ++ t') = [] → Stepped dev l m (some (lone p m.cpu.getPc)) m'

/-- Any number of rounds before the limit, each as `P` says. -/
inductive Quiet [Flavour Q] (dev : Device D) (limit : Nat) (P : Machine Q D → List (Ev ralSig) → Machine Q D → Prop) :
    Machine Q D → Machine Q D → Prop
  | refl (m) : Quiet dev limit P m m
  | step {m t x m'} : m.executed dev true = some (t, x) → x.cur.toNat < limit → P m t x → Quiet dev limit P x m' →
    Quiet dev limit P m m'

/-- No interrupt was accepted. -/
def NoInt [Flavour Q] (_ : Machine Q D) (t : List (Ev ralSig)) (_ : Machine Q D) : Prop := Spec.ackOf t = []

/-- What was recorded, if anything, is not a return. An interrupt accepted in mode 2 is recorded as a jump. -/
def NoReturn [Flavour Q] (m : Machine Q D) (t : List (Ev ralSig)) (m' : Machine Q D) : Prop :=
  ∀ d ∈ records t, (m.cpu.getIm = .mode2 ∧ Spec.ackOf t ≠ []) ∨ m'.cpu.getSp = m.cpu.getSp ∨
    m'.cpu.getSp = m.cpu.getSp - 2 ∨ m'.cpu.getPc = d.next

/-- The last round of `debug_runto_int`, and what is returned. -/
def Interrupted [Flavour Q] (m : Machine Q D) (t : List (Ev ralSig)) (m' : Machine Q D) : Option CpuDebug → Prop
  | none => Spec.ackOf t = [] ∨ m.cpu.getIm = .mode0
  | some d => ∃ v, Spec.ackOf t = [v] ∧ match m.cpu.getIm with
    | .mode0 => True
    | .mode1 => records t = [d]
    | .mode2 => d.mnemonic = "IRQ#" ∧ d.pc = m.cpu.getPc ∧ d.args = .single (.imm16 (word m.cpu.getI v)) ∧
        d.code = [lo8 m'.cpu.getPc, hi8 m'.cpu.getPc]

/-- How a loop ends: quiet rounds, then a round that ends it. -/
def LastRound [Flavour Q] (dev : Device D) (limit : Nat) (P : Machine Q D → List (Ev ralSig) → Machine Q D → Prop)
    (E : Machine Q D → List (Ev ralSig) → Machine Q D → Prop) (m m' : Machine Q D) : Prop :=
  ∃ s t l', Quiet dev limit P m s ∧ Round dev limit s t m' l' ∧ E s t m'

/-- The end of `debug_runto_int`. -/
def IntEnd [Flavour Q] (limit : Nat) (r : Option CpuDebug) (m : Machine Q D) (t : List (Ev ralSig)) (m' : Machine Q D) :
    Prop :=
  (Spec.ackOf t ≠ [] ∧ Interrupted m t m' r) ∨ (Spec.ackOf t = [] ∧ limit ≤ m'.cur.toNat ∧ r = none)

/-- The end of `debug_runto_ret`. -/
def RetEnd [Flavour Q] (limit : Nat) (r : Option CpuDebug) (m : Machine Q D) (t : List (Ev ralSig)) (m' : Machine Q D) :
    Prop :=
  match r with
  | some d => records t = [d] ∧ Returned m.cpu.getSp m'.cpu.getSp m'.cpu.getPc t
  | none => limit ≤ m'.cur.toNat ∧ NoReturn m t m'

variable [FlavourSpec Q] {dev : Device D}

/-- A round happens. -/
theorem round_some (l : Nat) (m : Machine Q D) : ∃ t x m' l', m.executed dev true = some (t, x) ∧
    Round dev l m t m' l' ∧ m'.cpu = x.cpu ∧ Goes m.cpu t m'.cpu ∧ m'.frame = m.frame ∧ l ≤ l' ∧ l' ≤ l + m.frame ∧
    t = (executeNext true m.cpu).trace (tClock (Boards.host dev)) (m.cur, m.bus) ∧
    (l + m.frame < 2 ^ 32 → (if x.pastLimit l then (add32 l x.frame).map fun k => (k, x.endFrame dev l) else some (l, x)) =
      some (l', m')) := by
  obtain ⟨e, cpu, cur, bus, h1, h2, h3⟩ := executed_ok (dev := dev) true m
  have hg := Prog.runs_wp h3 (goes_next m.cpu)
  by_cases hl : l ≤ cur.toNat
  · refine ⟨_, _, Machine.endFrame dev l { m with cpu, cur, bus }, l + m.frame, h1, ⟨_, h1, ?_⟩, rfl, hg, rfl,
      Nat.le_add_right l m.frame, Nat.le_refl _, rfl, fun h => ?_⟩
    · rw [if_pos hl]
      exact ⟨rfl, rfl⟩
    · rw [if_pos (show Machine.pastLimit l _ = true from decide_eq_true hl)]
      have : add32 l m.frame = some (l + m.frame) := if_pos h
      show (add32 l m.frame).map _ = _
      rw [this]
      rfl
  · refine ⟨_, _, _, _, h1, ⟨_, h1, ?_⟩, rfl, hg, rfl, Nat.le_refl l, Nat.le_add_right _ _, rfl, fun h => ?_⟩
    · rw [if_neg hl]
      exact ⟨rfl, rfl⟩
    · rw [if_neg (by rw [Machine.pastLimit, decide_eq_false hl]; exact Bool.false_ne_true)]

theorem stepLoop_round {pc : U16} {n l l' : Nat} {pfx : Option Prefix} {data : Option U8} {m x m' : Machine Q D}
    {t : List (Ev ralSig)} (h1 : m.executed dev true = some (t, x))
    (h2 : (if x.pastLimit l then (add32 l x.frame).map fun k => (k, x.endFrame dev l) else some (l, x)) = some (l', m')) :
    Machine.stepLoop dev pc (n + 1) l pfx data m =
      if (lastRecord t none).isSome ∨ m'.cpu.halt then some (lastRecord t none, lastData t data, m')
      else if m'.cpu.pfx.isNone then none
      else match pfx with
        | some p => some (some (prefixDebug p pc), lastData t data, m')
        | none => Machine.stepLoop dev pc n l' m'.cpu.pfx (lastData t data) m' := by
  rw [Machine.stepLoop, h1]
  show Option.bind (if x.pastLimit l then _ else _) _ = _
  rw [h2]
  rfl

theorem lone_eq (p : Prefix) (pc : U16) : prefixDebug p pc = lone p pc := by cases p <;> rfl

theorem step_loop {m : Machine Q D} {l : Nat} (n : Nat) (hl : l + 2 * m.frame < 2 ^ 32)
    (hm : m.cpu.getIm = .mode0 →
      Spec.ackOf ((executeNext true m.cpu).trace (tClock (Boards.host dev)) (m.cur, m.bus)) = []) :
    ∃ raw data m', Machine.stepLoop dev m.cpu.getPc (n + 2) l m.cpu.pfx none m = some (raw, data, m') ∧
      ∃ dbg, (match data with
        | some v => irqDebugUpdate v m.cpu.getPc m'.cpu raw
        | none => some raw) = some dbg ∧ Stepped dev l m dbg m' := by
  obtain ⟨t, x, m1, l1, h1, hr, -, hg, hf, hl1, hl2, ht, hx⟩ := round_some (dev := dev) l m
  have hx := hx (by omega)
  rw [← ht] at hm
  rw [stepLoop_round h1 hx]
  have done : ∀ {d}, records t = [d] → (Spec.ackOf t = [] ∨ m.cpu.getIm ≠ .mode2) → (∀ v, Spec.ackOf t = [v] → m1.cpu.im ≠ .mode2) →
      Spec.ackOf t = [] ∨ (∃ v, Spec.ackOf t = [v]) → ∃ raw data m', (some (lastRecord t none, lastData t none, m1)) = some (raw, data, m') ∧
      ∃ dbg, (match data with
        | some v => irqDebugUpdate v m.cpu.getPc m'.cpu raw
        | none => some raw) = some dbg ∧ Stepped dev l m dbg m' := by
    intro d hd h2 h3 h4
    refine ⟨_, _, _, rfl, some d, ?_, .instr hr hd h2⟩
    rw [lastRecord_one none hd]
    rcases h4 with h4 | ⟨v, h4⟩
    · rw [lastData_nil none h4]
    · rw [lastData_one none h4]
      have := h3 v h4
      show irqDebugUpdate v _ m1.cpu (some d) = _
      unfold irqDebugUpdate Cpu.getIm
      cases hi : m1.cpu.im with
      | mode2 => exact absurd hi this
      | _ => rfl
  have first : Leaves t m1.cpu → Spec.ackOf t = [] → ∃ raw data m',
      (if (lastRecord t none).isSome ∨ m1.cpu.halt then some (lastRecord t none, lastData t none, m1)
      else if m1.cpu.pfx.isNone then none
      else match m.cpu.pfx with
        | some p => some (some (prefixDebug p m.cpu.getPc), lastData t none, m1)
        | none => Machine.stepLoop dev m.cpu.getPc (n + 1) l1 m1.cpu.pfx (lastData t none) m1) = some (raw, data, m') ∧
      ∃ dbg, (match data with
        | some v => irqDebugUpdate v m.cpu.getPc m'.cpu raw
        | none => some raw) = some dbg ∧ Stepped dev l m dbg m' := by
    intro hlv hack
    rcases hlv with ⟨h2, h3, h4⟩ | ⟨d, h2, -⟩
    · rw [lastRecord_nil none h2, if_neg (by rw [h3]; simp), lastData_nil none hack]
      obtain ⟨p1, hp1⟩ := Option.isSome_iff_exists.1 h4
      rw [hp1, if_neg (by simp)]
      cases hp : m.cpu.pfx with
      | some p =>
        refine ⟨_, _, _, rfl, _, rfl, ?_⟩
        rw [lone_eq]
        exact .again hr h2 hack hp h4
      | none =>
        obtain ⟨t', x', m2, l2, k1, kr, -, kg, kf, -, -, -, kx⟩ := round_some (dev := dev) l1 m1
        have kx := kx (by rw [hf]; omega)
        dsimp only
        rw [stepLoop_round k1 kx]
        rcases kg with ⟨e, -⟩ | ⟨-, e, ea⟩ | ⟨e, -⟩
        · rw [h3] at e; cases e
        · have ht' : Spec.ackOf (t ++ t') = [] := by
            unfold Spec.ackOf at hack ea ⊢
            rw [List.filterMap_append, hack, ea]
            rfl
          rcases e with ⟨g2, g3, g4⟩ | ⟨d, g2, -⟩
          · rw [lastRecord_nil none g2, if_neg (by rw [g3]; simp), lastData_nil none ea]
            obtain ⟨p2, hp2⟩ := Option.isSome_iff_exists.1 g4
            rw [hp2, if_neg (by simp)]
            refine ⟨_, _, _, rfl, _, rfl, ?_⟩
            rw [lone_eq]
            exact .prefixes hr h2 hp hp1 kr g2 g4 ht'
          · rw [lastRecord_one none g2, if_pos (.inl rfl), lastData_nil none ea]
            exact ⟨_, _, _, rfl, _, rfl, .prefixed hr h2 hp hp1 kr g2 ht'⟩
        · rw [hp1] at e; cases e
    · rw [if_pos (by rw [lastRecord_one none h2]; exact .inl rfl)]
      exact done h2 (.inl hack) (fun v hv => by rw [hack] at hv; cases hv) (.inl hack)
  rcases hg with ⟨e1, e2, e3, e4⟩ | ⟨e1, e2, e3⟩ | ⟨e1, ⟨v, e2⟩, e3⟩
  · rw [if_pos (.inr e2), lastRecord_nil none e3, lastData_nil none e4]
    exact ⟨_, _, _, rfl, _, rfl, .halted e1 hr e3 e2⟩
  · exact first e2 e3
  · split at e3
    · next hi =>
      obtain ⟨d, lo, hi', g1, g2, g3, g4, g5⟩ := e3
      rw [lastRecord_one none g1, if_pos (.inl rfl), lastData_one none e2]
      refine ⟨_, _, _, rfl, some { d with
        pc := m.cpu.getPc, mnemonic := "IRQ#", code := [lo, hi'], args := .single (.imm16 (word m.cpu.getI v)) }, ?_, ?_⟩
      · show irqDebugUpdate v _ m1.cpu (some d) = _
        unfold irqDebugUpdate Cpu.getIm
        rw [g4]
        dsimp only
        rw [g2, g5]
      · refine .vector hr e2 hi rfl rfl rfl ?_
        show [lo, hi'] = [lo8 m1.cpu.pc, hi8 m1.cpu.pc]
        rw [g3, lo8_word, hi8_word]
    · next hi =>
      have hne : m.cpu.getIm ≠ .mode0 := fun h => by rw [hm h] at e2; cases e2
      have h1' : m.cpu.im = .mode1 := by
        cases h : m.cpu.im with
        | mode0 => exact absurd h hne
        | mode1 => rfl
        | mode2 => exact absurd h hi
      rcases e3.1 with ⟨g1, g2, g3⟩ | ⟨d, g1, -⟩
      · exact absurd g1 (e3.2 h1').2
      · rw [if_pos (by rw [lastRecord_one none g1]; exact .inl rfl)]
        exact done g1 (.inr hi) (fun _ _ => by rw [(e3.2 h1').1]; nofun) (.inr ⟨v, e2⟩)

/-- C65: `debug_step` executes exactly one instruction, with its prefix, or lets an interrupt be accepted; it never
panics and needs no more than two calls of `execute_next`. The record is that of the instruction; lone prefixes and
interrupts in mode 2 have records of their own. Excepted is an interrupt accepted in mode 0. -/
theorem C65_debug_step_partial {m m0 : Machine Q D} (hw : m.wrapSecond dev = some m0)
    (hl : m0.limit + 3 * m0.frame < 2 ^ 32) (n : Nat)
    (hm : m0.cpu.getIm = .mode0 →
      Spec.ackOf ((executeNext true m0.cpu).trace (tClock (Boards.host dev)) (m0.cur, m0.bus)) = []) :
    ∃ dbg m', m.debugStep dev (n + 2) = some (dbg, m'.cur.toNat - m0.cur.toNat, m') ∧
      Stepped dev (m0.limit + m0.frame) m0 dbg m' := by
  obtain ⟨raw, data, m', h1, dbg, h2, h3⟩ := step_loop (dev := dev) (l := m0.limit + m0.frame) n (by omega) hm
  refine ⟨dbg, m', ?_, h3⟩
  unfold Machine.debugStep
  rw [hw]
  show (add32 m0.limit m0.frame).bind _ = _
  have : add32 m0.limit m0.frame = some (m0.limit + m0.frame) := if_pos (by omega)
  rw [this]
  show (Machine.stepLoop dev m0.cpu.getPc (n + 2) (m0.limit + m0.frame) m0.cpu.pfx none m0).bind _ = _
  rw [h1]
  cases data with
  | none => cases h2; rfl
  | some v =>
    show (irqDebugUpdate v m0.cpu.getPc m'.cpu raw).bind _ = _
    rw [show irqDebugUpdate v m0.cpu.getPc m'.cpu raw = some dbg from h2]
    rfl

/-- The end of the frame within the loops of `debug_runto_int` and `debug_runto_ret`. -/
theorem round_past {l : Nat} {m x : Machine Q D} {t : List (Ev ralSig)} (h : m.executed dev true = some (t, x)) :
    ∃ l', Round dev l m t (if x.pastLimit l then x.endFrame dev l else x) l' := by
  by_cases hl : l ≤ x.cur.toNat
  · rw [if_pos (show x.pastLimit l = true from decide_eq_true hl)]
    exact ⟨l + m.frame, x, h, by rw [if_pos hl]; exact ⟨rfl, rfl⟩⟩
  · rw [if_neg (by rw [Machine.pastLimit, decide_eq_false hl]; exact Bool.false_ne_true)]
    exact ⟨l, x, h, by rw [if_neg hl]; exact ⟨rfl, rfl⟩⟩

omit [FlavourSpec Q] in
theorem past_cpu {l : Nat} {x : Machine Q D} : (if x.pastLimit l then x.endFrame dev l else x).cpu = x.cpu := by
  split <;> rfl

omit [FlavourSpec Q] in
theorem past_cur {l : Nat} {x : Machine Q D} : (if x.pastLimit l then x.endFrame dev l else x).cur = x.cur := by
  split <;> rfl

theorem executed_goes {m x : Machine Q D} {t : List (Ev ralSig)} (h : m.executed dev true = some (t, x)) :
    Goes m.cpu t x.cpu ∧ ∃ e, (executeNext true m.cpu).Runs t (e, x.cpu) := by
  obtain ⟨e, cpu, cur, bus, h1, h2, h3⟩ := executed_ok (dev := dev) true m
  rw [h] at h1
  cases h1
  exact ⟨Prog.runs_wp (P := fun t r => Goes m.cpu t r.2) h3 (goes_next m.cpu), e, h3⟩

/-- The record kept by `debug_runto_int` has code. -/
def HasCode (dbg : Option CpuDebug) : Prop := ∀ d, dbg = some d → d.code ≠ []

omit [FlavourSpec Q] in
theorem goes_code {c c' : Cpu Q} {t : List (Ev ralSig)} (h : Goes c t c') {dbg : Option CpuDebug} (hd : HasCode dbg) :
    HasCode (lastRecord t dbg) := by
  have leaves : Leaves t c' → HasCode (lastRecord t dbg) := by
    rintro (⟨h1, -⟩ | ⟨d, h1, h2⟩)
    · rwa [lastRecord_nil dbg h1]
    · rw [lastRecord_one dbg h1]
      rintro _ ⟨⟩
      exact h2
  rcases h with ⟨-, -, e, -⟩ | ⟨-, e, -⟩ | ⟨-, -, e⟩
  · rwa [lastRecord_nil dbg e]
  · exact leaves e
  · split at e
    · obtain ⟨d, lo, hi, h1, h2, -⟩ := e
      rw [lastRecord_one dbg h1]
      rintro _ ⟨⟩
      rw [h2]
      exact List.cons_ne_nil _ _
    · exact leaves e.1

omit [FlavourSpec Q] in
theorem update_some {v : U8} {pc : U16} {c : Cpu Q} {dbg : Option CpuDebug} (hd : HasCode dbg) :
    ∃ r, irqDebugUpdate v pc c dbg = some r := by
  unfold irqDebugUpdate
  split
  · next d _ =>
    have := hd d rfl
    cases hc : d.code with
    | nil => exact absurd hc this
    | cons x l => exact ⟨_, rfl⟩
  · exact ⟨_, rfl⟩

/-- The decisions of `debug_runto_int` after a round. -/
theorem int_round {m x : Machine Q D} {t : List (Ev ralSig)} (h : m.executed dev true = some (t, x))
    (dbg : Option CpuDebug) :
    (Spec.ackOf t = [] ∧ lastData t none = none) ∨
    ∃ v, Spec.ackOf t = [v] ∧ lastData t none = some v ∧ ∀ r, irqDebugUpdate v m.cpu.getPc x.cpu (lastRecord t dbg) = some r → Interrupted m t x r := by
  obtain ⟨hg, -⟩ := executed_goes h
  rcases hg with ⟨-, -, -, e⟩ | ⟨-, -, e⟩ | ⟨-, ⟨v, e2⟩, e3⟩
  · exact .inl ⟨e, lastData_nil none e⟩
  · exact .inl ⟨e, lastData_nil none e⟩
  · refine .inr ⟨v, e2, lastData_one none e2, ?_⟩
    split at e3
    · next hi =>
      obtain ⟨d, lo, hi', g1, g2, g3, g4, g5⟩ := e3
      rw [lastRecord_one dbg g1]
      unfold irqDebugUpdate Cpu.getIm
      rw [g4]
      dsimp only
      rw [g2, g5]
      intro r hr
      cases hr
      refine ⟨v, e2, ?_⟩
      rw [show m.cpu.getIm = .mode2 from hi]
      refine ⟨rfl, rfl, rfl, ?_⟩
      show [lo, hi'] = [lo8 x.cpu.pc, hi8 x.cpu.pc]
      rw [g3, lo8_word, hi8_word]
    · next hi =>
      cases hm : m.cpu.im with
      | mode2 => exact absurd hm hi
      | mode1 =>
        obtain ⟨h1, h2⟩ := e3.2 hm
        rcases e3.1 with ⟨g1, -⟩ | ⟨d, g1, -⟩
        · exact absurd g1 h2
        · rw [lastRecord_one dbg g1]
          unfold irqDebugUpdate Cpu.getIm
          rw [h1]
          intro r hr
          cases hr
          refine ⟨v, e2, ?_⟩
          rw [show m.cpu.getIm = .mode1 from hm]
          exact g1
      | mode0 =>
        have hm' : m.cpu.getIm = .mode0 := hm
        intro r _
        cases r with
        | none => exact .inr hm'
        | some d => exact ⟨v, e2, by rw [hm']; trivial⟩

theorem last_step {limit : Nat} {P E : Machine Q D → List (Ev ralSig) → Machine Q D → Prop} {m x m' : Machine Q D}
    {t : List (Ev ralSig)} (h1 : m.executed dev true = some (t, x)) (h2 : x.cur.toNat < limit) (h3 : P m t x)
    (h : LastRound dev limit P E x m') : LastRound dev limit P E m m' := by
  obtain ⟨s, u, l', h4, h5⟩ := h
  exact ⟨s, u, l', .step h1 h2 h3 h4, h5⟩

theorem interrupted_cpu {m x y : Machine Q D} {t : List (Ev ralSig)} {r : Option CpuDebug} (h : y.cpu = x.cpu)
    (hi : Interrupted m t x r) : Interrupted m t y r := by
  unfold Interrupted at hi ⊢
  rwa [h]

theorem int_loop {limit : Nat} : ∀ {n : Nat} {m m' : Machine Q D} {dbg r : Option CpuDebug},
    Machine.intLoop dev limit n m.cpu.getPc dbg m = some (r, m') →
    LastRound dev limit NoInt (IntEnd limit r) m m'
  | 0, _, _, _, _, h => by cases h
  | n + 1, m, m', dbg, r, h => by
    obtain ⟨e, cpu, cur, bus, h1, -, -⟩ := executed_ok (dev := dev) true m
    generalize (executeNext true m.cpu).trace (tClock (Boards.host dev)) (m.cur, m.bus) = t at h1
    generalize ({ m with cpu, cur, bus } : Machine Q D) = x at h1
    rw [Machine.intLoop, h1] at h
    have h : (match lastData t none with
      | none => if x.pastLimit limit then some (none, if x.pastLimit limit then x.endFrame dev limit else x)
          else Machine.intLoop dev limit n (if x.pastLimit limit then x.endFrame dev limit else x).cpu.getPc
            (lastRecord t dbg) (if x.pastLimit limit then x.endFrame dev limit else x)
      | some v => (irqDebugUpdate v m.cpu.getPc (if x.pastLimit limit then x.endFrame dev limit else x).cpu
          (lastRecord t dbg)).map fun dbg => (dbg, if x.pastLimit limit then x.endFrame dev limit else x)) = some (r, m') := h
    obtain ⟨l', hr⟩ := round_past (dev := dev) (l := limit) h1
    rcases int_round h1 dbg with ⟨h2, h3⟩ | ⟨v, h2, h3, h4⟩
    · rw [h3] at h
      dsimp only at h
      by_cases hp : limit ≤ x.cur.toNat
      · have hp' : x.pastLimit limit = true := decide_eq_true hp
        rw [if_pos hp', if_pos hp'] at h
        rw [if_pos hp'] at hr
        cases h
        exact ⟨m, t, l', .refl m, hr, .inr ⟨h2, hp, rfl⟩⟩
      · have hp' : ¬ x.pastLimit limit = true := by rw [Machine.pastLimit, decide_eq_false hp]; exact Bool.false_ne_true
        rw [if_neg hp', if_neg hp'] at h
        exact last_step h1 (Nat.lt_of_not_le hp) h2 (int_loop h)
    · rw [h3] at h
      dsimp only at h
      rw [past_cpu] at h
      cases hu : irqDebugUpdate v m.cpu.getPc x.cpu (lastRecord t dbg) with
      | none => rw [hu] at h; cases h
      | some r' =>
        rw [hu] at h
        cases h
        exact ⟨m, t, l', .refl m, hr, .inl ⟨by rw [h2]; exact List.cons_ne_nil _ _, interrupted_cpu past_cpu (h4 _ hu)⟩⟩

/-- C65: `debug_runto_int` runs, within the frame, to the first interrupt that is accepted. -/
theorem C65_debug_runto_int_partial {n : Nat} {m m' : Machine Q D} {r : Option CpuDebug} {ts : Nat}
    (h : m.debugRuntoInt dev n = some (r, ts, m')) :
    ∃ m0, m.wrapSecond dev = some m0 ∧ ts = m'.cur.toNat - m0.cur.toNat ∧
      LastRound dev (m0.limit + m0.frame) NoInt (IntEnd (m0.limit + m0.frame) r) m0 m' := by
  unfold Machine.debugRuntoInt at h
  cases hw : m.wrapSecond dev with
  | none => rw [hw] at h; cases h
  | some m0 =>
    rw [hw] at h
    have h : ((add32 m0.limit m0.frame).bind fun limit => (Machine.intLoop dev limit n m0.cpu.getPc none m0).bind fun x =>
      some (x.1, x.2.cur.toNat - m0.cur.toNat, x.2)) = some (r, ts, m') := h
    cases ha : add32 m0.limit m0.frame with
    | none => rw [ha] at h; cases h
    | some limit =>
      rw [ha] at h
      have hl : limit = m0.limit + m0.frame := by
        unfold add32 at ha
        split at ha
        · cases ha; rfl
        · cases ha
      subst hl
      dsimp only [Option.bind] at h
      cases hi : Machine.intLoop dev (m0.limit + m0.frame) n m0.cpu.getPc none m0 with
      | none => rw [hi] at h; cases h
      | some x =>
        rw [hi] at h
        cases h
        exact ⟨m0, rfl, rfl, int_loop hi⟩

theorem int_paces (hd : Prompt dev) {limit : Nat} (hl : limit + 22 < 2 ^ 32) :
    ∀ {n : Nat} {m : Machine Q D} {dbg : Option CpuDebug}, m.cur.toNat + 23 < 2 ^ 32 → limit - m.cur.toNat < 4 * n →
    HasCode dbg → ∃ r, Machine.intLoop dev limit n m.cpu.getPc dbg m = some r
  | 0, _, _, _, h, _ => by omega
  | n + 1, m, dbg, h1, h2, hc => by
    obtain ⟨t, x, h3, h4, h5⟩ := executed_pace hd true m h1
    have hc' := goes_code (executed_goes h3).1 hc
    rw [Machine.intLoop, h3]
    show ∃ r, (match lastData t none with
      | none => if x.pastLimit limit then some (none, if x.pastLimit limit then x.endFrame dev limit else x)
          else Machine.intLoop dev limit n (if x.pastLimit limit then x.endFrame dev limit else x).cpu.getPc
            (lastRecord t dbg) (if x.pastLimit limit then x.endFrame dev limit else x)
      | some v => (irqDebugUpdate v m.cpu.getPc (if x.pastLimit limit then x.endFrame dev limit else x).cpu
          (lastRecord t dbg)).map fun dbg => (dbg, if x.pastLimit limit then x.endFrame dev limit else x)) = some r
    cases lastData t none with
    | none =>
      dsimp only
      by_cases hp : limit ≤ x.cur.toNat
      · have hp' : x.pastLimit limit = true := decide_eq_true hp
        rw [if_pos hp']
        exact ⟨_, rfl⟩
      · have hp' : ¬ x.pastLimit limit = true := by rw [Machine.pastLimit, decide_eq_false hp]; exact Bool.false_ne_true
        rw [if_neg hp', if_neg hp']
        exact int_paces hd hl (by omega) (by omega) hc'
    | some v =>
      obtain ⟨r, hr⟩ := update_some (v := v) (pc := m.cpu.getPc)
        (c := (if x.pastLimit limit then x.endFrame dev limit else x).cpu) hc'
      dsimp only
      rw [hr]
      exact ⟨_, rfl⟩

/-- C65: it does not panic and returns within a frame, on devices that ask for no wait states. -/
theorem C65_int_returns (hd : Prompt dev) {m m0 : Machine Q D} (hw : m.wrapSecond dev = some m0)
    (h1 : m0.limit + m0.frame + 22 < 2 ^ 32) (h2 : m0.cur.toNat + 23 < 2 ^ 32) {n : Nat}
    (hn : m0.limit + m0.frame - m0.cur.toNat < 4 * n) : ∃ r, m.debugRuntoInt dev n = some r := by
  unfold Machine.debugRuntoInt
  rw [hw]
  show ∃ r, (add32 m0.limit m0.frame).bind _ = some r
  have : add32 m0.limit m0.frame = some (m0.limit + m0.frame) := if_pos (by omega)
  rw [this]
  obtain ⟨r, h⟩ := int_paces hd h1 h2 hn (dbg := none) (fun _ h => by cases h)
  exact ⟨(r.1, r.2.cur.toNat - m0.cur.toNat, r.2), by simp only [Option.bind, bind, h]⟩

/-! ### Running to a return -/

omit [FlavourSpec Q] in
/-- What `debug_runto_ret` does with a record, in terms of `was_just_a_ret`. -/
theorem keeps_ret {d : CpuDebug} {c : Cpu Q} {b : Bool} (h : wasJustARet d c = some b) :
    ∃ op, d.code[0]? = some op ∧ if b then keepsRet d = some true ∧
        ¬ (op &&& Op.RET_CC_OPMASK = Op.RET_CC_OPBASE ∧ (Cond.fromCode op).isSatisfied c.getFlags = false)
      else keepsRet d = some false ∨ keepsRet d = some true ∧
        (op &&& Op.RET_CC_OPMASK = Op.RET_CC_OPBASE ∧ (Cond.fromCode op).isSatisfied c.getFlags = false) := by
  unfold wasJustARet at h
  unfold keepsRet
  cases hc : d.code[0]? with
  | none => rw [hc] at h; cases h
  | some op =>
    rw [hc] at h
    refine ⟨op, rfl, ?_⟩
    dsimp only at h ⊢
    have cc : ∀ {b}, some (wasJustARetCc op c) = some b → if b then op &&& Op.RET_CC_OPMASK = Op.RET_CC_OPBASE ∧
          (Cond.fromCode op).isSatisfied c.getFlags = true else ¬ (op &&& Op.RET_CC_OPMASK = Op.RET_CC_OPBASE) ∨
          op &&& Op.RET_CC_OPMASK = Op.RET_CC_OPBASE ∧ (Cond.fromCode op).isSatisfied c.getFlags = false := by
      intro b h
      unfold wasJustARetCc at h
      split at h
      · next hm =>
        injection h with h
        cases b with
        | true => exact ⟨hm, h⟩
        | false => exact .inr ⟨hm, h⟩
      · next hm => cases h; exact .inl hm
    by_cases h1 : op = Op.RET_OPCODE
    · rw [if_pos h1] at h
      cases h
      have : op = Op.RET_OPCODE := h1
      rw [if_pos rfl, if_pos this]
      refine ⟨rfl, fun h => ?_⟩
      rw [this] at h
      exact absurd h.1 (by decide)
    · have h1' : ¬ op = Op.RET_OPCODE := h1
      rw [if_neg h1] at h
      rw [if_neg h1']
      by_cases h2 : op = Op.ED_PREFIX
      · have h2' : op = Op.ED_PREFIX := h2
        rw [if_pos h2] at h
        rw [if_pos h2']
        cases h3 : d.code[1]? with
        | none => rw [h3] at h; cases h
        | some e =>
          rw [h3] at h
          dsimp only at h ⊢
          have hne : ¬ (op &&& Op.RET_CC_OPMASK = Op.RET_CC_OPBASE) := by rw [h2']; decide
          split at h
          · next h4 =>
            cases h
            rw [if_pos rfl]
            exact ⟨congrArg some (decide_eq_true (.inl h4)), fun h => hne h.1⟩
          · next h4 =>
            have := cc h
            cases b with
            | true => exact absurd this.1 hne
            | false =>
              exact .inl (congrArg some (decide_eq_false fun h => h.elim h4 hne))
      · have h2' : ¬ op = Op.ED_PREFIX := h2
        rw [if_neg h2] at h
        rw [if_neg h2']
        have := cc h
        cases b with
        | true => exact ⟨congrArg some (decide_eq_true this.1), fun h => by rw [this.2] at h; cases h.2⟩
        | false =>
          rcases this with h | h
          · exact .inl (congrArg some (decide_eq_false h))
          · exact .inr ⟨congrArg some (decide_eq_true h.1), h⟩

/-- The decisions of `debug_runto_ret` after a round. -/
theorem ret_round {m x : Machine Q D} {t : List (Ev ralSig)} (h : m.executed dev true = some (t, x)) :
    (∃ d op, records t = [d] ∧ keepRet t none = some (some d) ∧ d.code[0]? = some op ∧
      ¬ (op &&& Op.RET_CC_OPMASK = Op.RET_CC_OPBASE ∧ (Cond.fromCode op).isSatisfied x.cpu.getFlags = false) ∧
      Returned m.cpu.getSp x.cpu.getSp x.cpu.getPc t) ∨
    (NoReturn m t x ∧ (keepRet t none = some none ∨ ∃ d op, keepRet t none = some (some d) ∧ d.code[0]? = some op ∧
      (op &&& Op.RET_CC_OPMASK = Op.RET_CC_OPBASE ∧ (Cond.fromCode op).isSatisfied x.cpu.getFlags = false))) := by
  obtain ⟨hg, e, hr⟩ := executed_goes h
  by_cases h0 : records t = []
  · exact .inr ⟨fun d hd => (by rw [h0] at hd; cases hd), .inl (keepRet_nil none h0)⟩
  have one : ∃ d, records t = [d] := by
    rcases hg with ⟨-, -, e, -⟩ | ⟨-, e, -⟩ | ⟨-, -, e⟩
    · exact absurd e h0
    · rcases e with ⟨e, -⟩ | ⟨d, e, -⟩
      · exact absurd e h0
      · exact ⟨d, e⟩
    · split at e
      · obtain ⟨d, lo, hi, e, -⟩ := e
        exact ⟨d, e⟩
      · rcases e.1 with ⟨e, -⟩ | ⟨d, e, -⟩
        · exact absurd e h0
        · exact ⟨d, e⟩
  obtain ⟨d, hd⟩ := one
  by_cases hm : m.cpu.getIm = .mode2 ∧ Spec.ackOf t ≠ []
  · refine .inr ⟨fun _ _ => .inl hm, .inl ?_⟩
    rcases hg with ⟨-, -, -, e⟩ | ⟨-, -, e⟩ | ⟨-, -, e⟩
    · exact absurd e hm.2
    · exact absurd e hm.2
    · rw [if_pos (show m.cpu.im = .mode2 from hm.1)] at e
      obtain ⟨d', lo, hi, e1, e2, -⟩ := e
      rw [keepRet_one none e1]
      unfold keepsRet
      rw [e2]
      rfl
  · have ht := C63_execute_next hr (hd ▸ .head _ : d ∈ records t) (by
      by_cases h1 : m.cpu.getIm = .mode2
      · exact .inr (Classical.byContradiction fun h2 => hm ⟨h1, h2⟩)
      · exact .inl h1)
    obtain ⟨b, r, h1, h2, h3, h4, h5⟩ := ht
    obtain ⟨op, k1, k2⟩ := keeps_ret h2
    rw [keepRet_one none hd]
    cases r with
    | true =>
      rw [if_pos rfl] at k2
      rw [k2.1]
      exact .inl ⟨d, op, hd, rfl, k1, k2.2, h4 rfl⟩
    | false =>
      rw [if_neg Bool.false_ne_true] at k2
      refine .inr ⟨fun d' hd' => .inr ?_, ?_⟩
      · rw [hd] at hd'
        cases List.mem_singleton.1 hd'
        cases b with
        | true =>
          obtain ⟨q, -, -, h6⟩ := h3 rfl
          exact .inr (.inl h6)
        | false =>
          rcases h5 rfl rfl with h | h
          · exact .inl h
          · exact .inr (.inr h)
      · rcases k2 with k2 | ⟨k2, k3⟩
        · rw [k2]; exact .inl rfl
        · rw [k2]; exact .inr ⟨d, op, rfl, k1, k3⟩

/-- A round of `debug_runto_ret`. -/
theorem retLoop_round {limit n : Nat} {m x : Machine Q D} {t : List (Ev ralSig)} (h : m.executed dev true = some (t, x)) :
    (∃ d, Machine.retLoop dev limit (n + 1) m = some (some d, if x.pastLimit limit then x.endFrame dev limit else x) ∧
      records t = [d] ∧ Returned m.cpu.getSp x.cpu.getSp x.cpu.getPc t) ∨
    (Machine.retLoop dev limit (n + 1) m = (if x.pastLimit limit then some (none, x.endFrame dev limit) else
      Machine.retLoop dev limit n x) ∧ NoReturn m t x) := by
  have hl : Machine.retLoop dev limit (n + 1) m = (keepRet t none).bind fun dbg =>
      match dbg with
      | none => if x.pastLimit limit then some (none, if x.pastLimit limit then x.endFrame dev limit else x)
          else Machine.retLoop dev limit n (if x.pastLimit limit then x.endFrame dev limit else x)
      | some deb => (deb.code[0]?).bind fun op =>
        if op &&& Op.RET_CC_OPMASK = Op.RET_CC_OPBASE ∧ (Cond.fromCode op).isSatisfied
            (if x.pastLimit limit then x.endFrame dev limit else x).cpu.getFlags = false then
          if x.pastLimit limit then some (none, if x.pastLimit limit then x.endFrame dev limit else x)
          else Machine.retLoop dev limit n (if x.pastLimit limit then x.endFrame dev limit else x)
        else some (some deb, if x.pastLimit limit then x.endFrame dev limit else x) := by
    rw [Machine.retLoop, h]
    rfl
  have hi : (if x.pastLimit limit then some (none, if x.pastLimit limit then x.endFrame dev limit else x)
      else Machine.retLoop dev limit n (if x.pastLimit limit then x.endFrame dev limit else x)) =
      if x.pastLimit limit then some (none, x.endFrame dev limit) else Machine.retLoop dev limit n x := by
    split
    · rfl
    · rfl
  rw [hl]
  rcases ret_round h with ⟨d, op, h1, h2, h3, h4, h5⟩ | ⟨h1, h2 | ⟨d, op, h2, h3, h4⟩⟩
  · refine .inl ⟨d, ?_, h1, h5⟩
    rw [h2]
    show (d.code[0]?).bind _ = _
    rw [h3]
    dsimp only [Option.bind]
    rw [past_cpu, if_neg h4]
  · refine .inr ⟨?_, h1⟩
    rw [h2]
    exact hi
  · refine .inr ⟨?_, h1⟩
    rw [h2]
    show (d.code[0]?).bind _ = _
    rw [h3]
    dsimp only [Option.bind]
    rw [past_cpu, if_pos h4]
    exact hi

omit [FlavourSpec Q] in
theorem noReturn_cpu [Flavour Q] {m x y : Machine Q D} {t : List (Ev ralSig)} (h : y.cpu = x.cpu)
    (hn : NoReturn m t x) : NoReturn m t y := by
  unfold NoReturn at hn ⊢
  rwa [h]

theorem ret_loop {limit : Nat} : ∀ {n : Nat} {m m' : Machine Q D} {r : Option CpuDebug},
    Machine.retLoop dev limit n m = some (r, m') → LastRound dev limit NoReturn (RetEnd limit r) m m'
  | 0, _, _, _, h => by cases h
  | n + 1, m, m', r, h => by
    obtain ⟨e, cpu, cur, bus, h1, -, -⟩ := executed_ok (dev := dev) true m
    generalize (executeNext true m.cpu).trace (tClock (Boards.host dev)) (m.cur, m.bus) = t at h1
    generalize ({ m with cpu, cur, bus } : Machine Q D) = x at h1
    obtain ⟨l', hr⟩ := round_past (dev := dev) (l := limit) h1
    rcases retLoop_round (limit := limit) (n := n) h1 with ⟨d, h2, h3, h4⟩ | ⟨h2, h3⟩
    · rw [h2] at h
      cases h
      refine ⟨m, t, l', .refl m, hr, h3, ?_⟩
      rw [past_cpu]
      exact h4
    · rw [h2] at h
      by_cases hp : limit ≤ x.cur.toNat
      · have hp' : x.pastLimit limit = true := decide_eq_true hp
        rw [if_pos hp'] at h hr
        cases h
        exact ⟨m, t, l', .refl m, hr, hp, noReturn_cpu rfl h3⟩
      · rw [if_neg (by rw [Machine.pastLimit, decide_eq_false hp]; exact Bool.false_ne_true)] at h
        exact last_step h1 (Nat.lt_of_not_le hp) h3 (ret_loop h)

/-- C65: `debug_runto_ret` runs, within the frame, to the first instruction that returns. -/
theorem C65_debug_runto_ret {n : Nat} {m m' : Machine Q D} {r : Option CpuDebug} {ts : Nat}
    (h : m.debugRuntoRet dev n = some (r, ts, m')) :
    ∃ m0, m.wrapSecond dev = some m0 ∧ ts = m'.cur.toNat - m0.cur.toNat ∧
      LastRound dev (m0.limit + m0.frame) NoReturn (RetEnd (m0.limit + m0.frame) r) m0 m' := by
  unfold Machine.debugRuntoRet at h
  cases hw : m.wrapSecond dev with
  | none => rw [hw] at h; cases h
  | some m0 =>
    rw [hw] at h
    have h : ((add32 m0.limit m0.frame).bind fun limit => (Machine.retLoop dev limit n m0).bind fun x =>
      some (x.1, x.2.cur.toNat - m0.cur.toNat, x.2)) = some (r, ts, m') := h
    cases ha : add32 m0.limit m0.frame with
    | none => rw [ha] at h; cases h
    | some limit =>
      rw [ha] at h
      have hl : limit = m0.limit + m0.frame := by
        unfold add32 at ha
        split at ha
        · cases ha; rfl
        · cases ha
      subst hl
      dsimp only [Option.bind] at h
      cases hi : Machine.retLoop dev (m0.limit + m0.frame) n m0 with
      | none => rw [hi] at h; cases h
      | some x =>
        rw [hi] at h
        cases h
        exact ⟨m0, rfl, rfl, ret_loop hi⟩

theorem ret_paces (hd : Prompt dev) {limit : Nat} (hl : limit + 22 < 2 ^ 32) :
    ∀ {n : Nat} {m : Machine Q D}, m.cur.toNat + 23 < 2 ^ 32 → limit - m.cur.toNat < 4 * n →
    ∃ r, Machine.retLoop dev limit n m = some r
  | 0, _, _, h => by omega
  | n + 1, m, h1, h2 => by
    obtain ⟨t, x, h3, h4, h5⟩ := executed_pace hd true m h1
    rcases retLoop_round (limit := limit) (n := n) h3 with ⟨d, h, -⟩ | ⟨h, -⟩
    · exact ⟨_, h⟩
    · rw [h]
      by_cases hp : limit ≤ x.cur.toNat
      · rw [if_pos (show x.pastLimit limit = true from decide_eq_true hp)]
        exact ⟨_, rfl⟩
      · rw [if_neg (by rw [Machine.pastLimit, decide_eq_false hp]; exact Bool.false_ne_true)]
        exact ret_paces hd hl (by omega) (by omega)

/-- C65: it does not panic and returns within a frame, on devices that ask for no wait states. -/
theorem C65_ret_returns (hd : Prompt dev) {m m0 : Machine Q D} (hw : m.wrapSecond dev = some m0)
    (h1 : m0.limit + m0.frame + 22 < 2 ^ 32) (h2 : m0.cur.toNat + 23 < 2 ^ 32) {n : Nat}
    (hn : m0.limit + m0.frame - m0.cur.toNat < 4 * n) : ∃ r, m.debugRuntoRet dev n = some r := by
  unfold Machine.debugRuntoRet
  rw [hw]
  show ∃ r, (add32 m0.limit m0.frame).bind _ = some r
  have : add32 m0.limit m0.frame = some (m0.limit + m0.frame) := if_pos (by omega)
  rw [this]
  obtain ⟨r, h⟩ := ret_paces hd h1 h2 hn
  exact ⟨(r.1, r.2.cur.toNat - m0.cur.toNat, r.2), by simp only [Option.bind, bind, h]⟩

/-! ### The debugger does not disturb -/

/-- C65: an `execute_next` with the debugger leaves the computer as one without. -/
theorem C65_transparent {m x : Machine Q D} {t : List (Ev ralSig)} (h : m.executed dev true = some (t, x)) :
    ∃ u, m.executed dev false = some (u, x) := by
  have hd : ∀ d s, (tClock (Boards.host dev) (.debug d) s).2 = s := by
    rintro d ⟨c, b⟩
    cases b <;> rfl
  have he := (run_erase hd (executeNext (σ := ralSig) true m.cpu) (m.cur, m.bus)).1
  rw [erase_next] at he
  unfold Machine.executed at h ⊢
  rw [he]
  revert h
  dsimp only
  split
  · intro h; cases h; exact ⟨_, rfl⟩
  · intro h; cases h; exact ⟨_, rfl⟩
  · intro h; cases h

/-! ### What is not so -/

/-- A device that always asks for an interrupt and answers `v`. -/
def nagging (v : U8) : Device Unit :=
  { terminator with isIrq := fun _ d => some (true, d), irqData := fun _ _ d => some ((v, none), d) }

/-- The second of three prefixes in a row is shown at the address of the third: `prefix_debug` is given PC, but the prefix it
shows is before it. -/
theorem C65_refuted_pc : (withRom [0xDD, 0xDD, 0xDD, 0x21, 0x34, 0x12] 0 1000).bind (fun m => do
    let (d, _, m) ← m.debugStep terminator 9
    let (e, _, m) ← m.debugStep terminator 9
    let (f, _, _) ← m.debugStep terminator 9
    some (d.map fun d => (d.mnemonic, d.pc), e.map fun d => (d.mnemonic, d.pc), f.map fun d => (d.mnemonic, d.pc))) =
      some (some ("NOP*", 0#16), some ("NOP*", 2#16), some ("LD", 2#16)) := by decide +kernel

/-- In mode 0 a device that answers with the first byte of `IM 2` is shown as if it were an interrupt of mode 2, although
nothing was pushed or called: execution goes on after the second byte. -/
theorem C65_refuted_mode0 : (withRom [0x5E] 0 1000).bind (fun m => do
    let (d, _, m) ← { m with cpu := { m.cpu with iff1 := true, iff2 := true } }.debugStep (nagging 0xED) 9
    some (d.map fun d => (d.mnemonic, d.args), m.cpu.getPc, m.cpu.getSp, m.cpu.getIm)) =
      some (some ("IRQ#", .single (.imm16 0x00ED)), 1, 0, .mode2) := by decide +kernel

/-- In mode 0 a device that answers with a prefix makes `debug_runto_int` return the record of the instruction before. -/
theorem C65_refuted_stale : (withRom [0x00, 0xFB, 0x00, 0x01] 0 1000).bind (fun m => do
    let (d, _, m) ← m.debugRuntoInt (nagging 0xDD) 9
    some (d.map fun d => (d.mnemonic, d.pc), m.cpu.getPc, m.cpu.getPrefix)) =
      some (some ("NOP", 2), 3, some .xdd) := by decide +kernel

/-! ### Cases -/

set_option synthInstance.maxSize 400 in
/-- `CALL 6`, at 6 `RET NZ` and `DD RET` with Z set: a step into the call, then to the return, which is the one after the
prefix. The computer meets the conditions of `C65_debug_step_partial` and `C65_ret_returns`. -/
example : ((withRom [0xCD, 6, 0, 0, 0, 0, 0xC0, 0xDD, 0xC9] 0 1000).map fun m =>
      { m with cpu := { m.cpu with af := ⟨0, 0x40⟩, sp := 0x8000 } }).bind (fun m => do
    let m0 ← m.wrapSecond terminator
    let (d, ts, m) ← m.debugStep terminator 2
    let (e, ts', m) ← m.debugRuntoRet terminator 300
    some (decide (m0.limit + 3 * m0.frame < 2 ^ 32 ∧ m0.cur.toNat + 23 < 2 ^ 32 ∧ m0.limit + m0.frame - m0.cur.toNat < 1200),
      Spec.ackOf ((executeNext true m0.cpu).trace (tClock (Boards.host terminator)) (m0.cur, m0.bus)),
      (d.map (·.mnemonic), ts), (e.map (·.code), ts'), m.cpu.getPc)) =
    some (true, [], (some "CALL", 17), (some [0xC9], 19), 3) := by decide +kernel

set_option synthInstance.maxSize 400 in
/-- `EI`, `NOP` and an interrupt in mode 2, with a device of no wait states: `C65_debug_runto_int_partial` and `C65_int_returns`. -/
example : ((withRom [0xFB, 0, 0, 0, 0x34, 0x12] 0 1000).map fun m =>
      { m with cpu := { m.cpu with im := .mode2, sp := 0x8000 } }).bind (fun m => do
    let (d, ts, m) ← m.debugRuntoInt (nagging 4) 300
    some (d.map fun d => (d.mnemonic, d.pc, d.args, d.code), ts, m.cpu.getPc)) =
    some (some ("IRQ#", 2, .single (.imm16 4), [0x34, 0x12]), 27, 0x1234) := by decide +kernel

/-- A halted processor is stepped over. -/
example : (withRom [0x76] 0 1000).bind (fun m => do
    let (d, _, m) ← m.debugStep terminator 2
    let (e, ts, _) ← m.debugStep terminator 2
    some (d.map (·.mnemonic), e.map (·.mnemonic), ts)) = some (some "HALT", none, 4) := by decide +kernel

end Z80.Ral
