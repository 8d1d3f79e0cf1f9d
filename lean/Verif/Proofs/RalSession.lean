import Verif.Spec.RalSession
import Verif.Props.RalStep

/-!
# The clock during a session with the debugger
-/

namespace Z80.Ral
open Spec Spec.Ral

variable {Q D : Type} {dev : Device D}

/-- A statement about the bus and a number that grows when a frame ends. -/
structure Tally (dev : Device D) (P : Nat → Option (Boards D) → Prop) : Prop where
  host : ∀ {k s} r, P k s → P k (Boards.host dev r s).2
  frameEnd : ∀ {k s} t, P k s → P (k + 1) (Boards.onDevice (dev.frameEnd t) s)
  second : ∀ {k s} t, P k s → P k (Boards.onDevice (dev.nextSecond t) s)
  reset : ∀ {k s} t, P k s → P k (Boards.onDevice (dev.reset t) s)

variable {P : Nat → Option (Boards D) → Prop}

theorem Tally.clock (hT : Tally dev P) {k : Nat} (r : Req ralSig) (s : BitVec 32 × Option (Boards D)) (h : P k s.2) :
    P k (tClock (Boards.host dev) r s).2.2 := by
  obtain ⟨t, b⟩ := s
  cases r <;> first | exact h | exact hT.host _ h

theorem Tally.run (hT : Tally dev P) {k : Nat} {α : Type} (p : Prog ralSig α) (s : BitVec 32 × Option (Boards D))
    (h : P k s.2) : P k (p.run (tClock (Boards.host dev)) s).2.2 := by
  induction p generalizing s with
  | ret a => exact h
  | call r f ih => exact ih _ _ (hT.clock r s h)

/-- The state of the clock: `c` interrupts may be pending, `k` frames have ended. -/
structure Due (P : Nat → Option (Boards D) → Prop) (F hz B c k : Nat) (m : Machine Q D) : Prop where
  frame : m.frame = F
  hz : m.hz = hz
  due : m.limit ≤ m.cur.toNat
  ahead : m.cur.toNat ≤ m.limit + F + 22 + 11 * c
  bound : m.limit ≤ B
  tally : P k m.bus

/-- The frames are long enough for the interrupts, the seconds for the frames and the clock for the seconds. -/
structure Roomy (F hz most : Nat) : Prop where
  few : 23 + 11 * most ≤ F
  short : 4 * F ≤ hz
  room : 2 * hz + 5 * F < 2 ^ 32

/-- What has been reported is accounted for. -/
def Accounted (F k k' d : Nat) (m m' : Machine Q D) : Prop :=
  m.cur.toNat - m.limit + d + k * F = m'.cur.toNat - m'.limit + k' * F

theorem frameLoop_tally [Flavour Q] (hT : Tally dev P) {n k : Nat} : ∀ {j : Nat} {m m' : Machine Q D},
    m.frameLoop dev n j = some m' → P k m.bus → P k m'.bus
  | 0, _, _, h, _ => by cases h
  | j + 1, m, m', h, hp => by
    have hr := hT.run (executeWithLimit n (BitVec.ofNat 32 m.limit) m.cpu) (m.cur, m.bus) hp
    unfold Machine.frameLoop at h
    generalize (executeWithLimit n (BitVec.ofNat 32 m.limit) m.cpu).run (tClock (Boards.host dev)) (m.cur, m.bus) = z
      at h hr
    obtain ⟨e, t, b⟩ := z
    split at h
    · next he =>
      cases he
      cases h
      exact hr
    · next he =>
      cases he
      exact frameLoop_tally hT h hr
    · cases h

variable [FlavourSpec Q]

theorem executed_due (hT : Tally dev P) (hd : Prompt dev) {deb : Bool} {m x : Machine Q D} {t : List (Ev ralSig)}
    (h : m.executed dev deb = some (t, x)) (hc : m.cur.toNat + 23 < 2 ^ 32) {k : Nat} (hp : P k m.bus) :
    x.limit = m.limit ∧ x.frame = m.frame ∧ x.hz = m.hz ∧ m.cur.toNat ≤ x.cur.toNat ∧ x.cur.toNat ≤ m.cur.toNat + 23 ∧
      P k x.bus := by
  obtain ⟨e, cpu, cur, bus, h1, h2, -⟩ := executed_ok (dev := dev) deb m
  obtain ⟨t', x', h3, h4, h5⟩ := executed_pace hd deb m hc
  rw [h] at h3
  cases h3
  rw [h] at h1
  cases h1
  have := hT.run (executeNext deb m.cpu) (m.cur, m.bus) hp
  rw [h2] at this
  exact ⟨rfl, rfl, rfl, by omega, h5, this⟩

section
variable {F hz most B c k : Nat}

/-- A round that does not end the frame. -/
theorem round_stays (hT : Tally dev P) (hd : Prompt dev) (hf : Roomy F hz most) (hB : B ≤ 2 * hz + F) (hc : c ≤ most)
    {deb : Bool} {m x : Machine Q D} {t : List (Ev ralSig)} (h : Due P F hz B c k m)
    (he : m.executed dev deb = some (t, x)) (hx : x.cur.toNat < m.limit + F) :
    Due P F hz B 0 k x ∧ x.limit = m.limit ∧ m.cur.toNat ≤ x.cur.toNat := by
  obtain ⟨h1, h2, h3, h4, h5, h6⟩ := h
  obtain ⟨f1, f2, f3⟩ := hf
  obtain ⟨g1, g2, g3, g4, g5, g6⟩ := executed_due hT hd he (by omega) h6
  exact ⟨⟨by omega, by omega, by omega, by omega, by omega, g6⟩, g1, g4⟩

/-- A round that ends it. -/
theorem round_ends (hT : Tally dev P) (hd : Prompt dev) (hf : Roomy F hz most) (hB : B ≤ 2 * hz + F) (hc : c ≤ most)
    {deb : Bool} {m x : Machine Q D} {t : List (Ev ralSig)} (h : Due P F hz B c k m)
    (he : m.executed dev deb = some (t, x)) (hx : m.limit + F ≤ x.cur.toNat) :
    Due P F hz (B + F) 0 (k + 1) (x.endFrame dev (m.limit + F)) ∧
      m.cur.toNat ≤ (x.endFrame dev (m.limit + F)).cur.toNat := by
  obtain ⟨h1, h2, h3, h4, h5, h6⟩ := h
  obtain ⟨f1, f2, f3⟩ := hf
  obtain ⟨g1, g2, g3, g4, g5, g6⟩ := executed_due hT hd he (by omega) h6
  refine ⟨⟨?_, ?_, ?_, ?_, ?_, hT.frameEnd _ g6⟩, g4⟩
  · show x.frame = F; omega
  · show x.hz = hz; omega
  · show m.limit + F ≤ x.cur.toNat; omega
  · show x.cur.toNat ≤ m.limit + F + F + 22 + 11 * 0; omega
  · show m.limit + F ≤ B + F; omega

/-- What a round, or several of which only the last ended the frame, comes to. -/
def Goon (P : Nat → Option (Boards D) → Prop) (F hz B k : Nat) (m m' : Machine Q D) : Prop :=
  ∃ k', Due P F hz (B + F) 0 k' m' ∧ m.cur.toNat ≤ m'.cur.toNat ∧
    ((k' = k ∧ m'.limit = m.limit ∧ m'.cur.toNat < m.limit + F) ∨ (k' = k + 1 ∧ m'.limit = m.limit + F))

theorem Due.mono {m : Machine Q D} (h : Due P F hz B c k m) {B' c' : Nat} (hB : B ≤ B') (hc : c ≤ c') :
    Due P F hz B' c' k m :=
  ⟨h.frame, h.hz, h.due, by have := h.ahead; omega, by have := h.bound; omega, h.tally⟩

theorem round_goon (hT : Tally dev P) (hd : Prompt dev) (hf : Roomy F hz most) (hB : B ≤ 2 * hz + F) (hc : c ≤ most)
    {deb : Bool} {m x : Machine Q D} {t : List (Ev ralSig)} (h : Due P F hz B c k m)
    (he : m.executed dev deb = some (t, x)) :
    Goon P F hz B k m (if m.limit + F ≤ x.cur.toNat then x.endFrame dev (m.limit + F) else x) := by
  by_cases hx : m.limit + F ≤ x.cur.toNat
  · rw [if_pos hx]
    obtain ⟨h1, h2⟩ := round_ends hT hd hf hB hc h he hx
    exact ⟨k + 1, h1, h2, .inr ⟨rfl, rfl⟩⟩
  · rw [if_neg hx]
    obtain ⟨h1, h2, h3⟩ := round_stays hT hd hf hB hc h he (by omega)
    exact ⟨k, h1.mono (by omega) (Nat.le_refl _), h3, .inl ⟨rfl, h2, by omega⟩⟩

theorem Goon.after {m x m' : Machine Q D} (h : Goon P F hz B k x m') (h1 : x.limit = m.limit)
    (h2 : m.cur.toNat ≤ x.cur.toNat) : Goon P F hz B k m m' := by
  obtain ⟨k', i1, i2, i3⟩ := h
  rw [h1] at i3
  exact ⟨k', i1, by omega, i3⟩

theorem Goon.accounted {m m' : Machine Q D} (h : Goon P F hz B k m m') (hm : m.limit ≤ m.cur.toNat) :
    ∃ k', Due P F hz (B + F) 0 k' m' ∧ Accounted F k k' (m'.cur.toNat - m.cur.toNat) m m' := by
  obtain ⟨k', h1, h2, h3⟩ := h
  have := h1.due
  refine ⟨k', h1, ?_⟩
  unfold Accounted
  rcases h3 with ⟨rfl, h4, -⟩ | ⟨rfl, h4⟩
  · omega
  · rw [Nat.add_mul, Nat.one_mul]
    omega

theorem round_of (hT : Tally dev P) (hd : Prompt dev) (hf : Roomy F hz most) (hB : B ≤ 2 * hz + F) (hc : c ≤ most)
    {m m' : Machine Q D} {t : List (Ev ralSig)} {l' : Nat} (h : Due P F hz B c k m)
    (hr : Round dev (m.limit + F) m t m' l') : Goon P F hz B k m m' ∧ l' = m'.limit + F := by
  obtain ⟨x, h1, h2⟩ := hr
  have hg := round_goon hT hd hf hB hc h h1
  by_cases hx : m.limit + F ≤ x.cur.toNat
  · rw [if_pos hx] at hg h2
    obtain ⟨rfl, rfl⟩ := h2
    exact ⟨hg, by rw [h.frame]; rfl⟩
  · rw [if_neg hx] at hg h2
    obtain ⟨rfl, rfl⟩ := h2
    obtain ⟨-, h3, -⟩ := round_stays hT hd hf hB hc h h1 (by omega)
    exact ⟨hg, by rw [h3]⟩

theorem quiet_stays (hT : Tally dev P) (hd : Prompt dev) (hf : Roomy F hz most) (hB : B ≤ 2 * hz + F)
    {R : Machine Q D → List (Ev ralSig) → Machine Q D → Prop} {L : Nat} {m s : Machine Q D}
    (hq : Quiet dev L R m s) : ∀ {c : Nat}, c ≤ most → Due P F hz B c k m → L = m.limit + F →
    ∃ c', c' ≤ most ∧ Due P F hz B c' k s ∧ s.limit = m.limit ∧ m.cur.toNat ≤ s.cur.toNat := by
  induction hq with
  | refl m => exact fun {c} hc h _ => ⟨c, hc, h, rfl, Nat.le_refl _⟩
  | step h1 h2 _ _ ih =>
    rintro c hc h rfl
    obtain ⟨i1, i2, i3⟩ := round_stays hT hd hf hB hc h h1 h2
    obtain ⟨c', j1, j2, j3, j4⟩ := ih (Nat.zero_le _) i1 (by rw [i2])
    exact ⟨c', j1, j2, by omega, by omega⟩

theorem last_goon (hT : Tally dev P) (hd : Prompt dev) (hf : Roomy F hz most) (hB : B ≤ 2 * hz + F) (hc : c ≤ most)
    {R E : Machine Q D → List (Ev ralSig) → Machine Q D → Prop} {m m' : Machine Q D}
    (hl : LastRound dev (m.limit + F) R E m m') (h : Due P F hz B c k m) : Goon P F hz B k m m' := by
  obtain ⟨s, t, l', h1, h2, -⟩ := hl
  obtain ⟨c', j1, j2, j3, j4⟩ := quiet_stays hT hd hf hB h1 hc h rfl
  rw [← j3] at h2
  exact (round_of hT hd hf hB j1 j2 h2).1.after j3 j4

theorem ticks_goon (hT : Tally dev P) (hd : Prompt dev) (hf : Roomy F hz most) (hB : B ≤ 2 * hz + F) {m' : Machine Q D} :
    ∀ {j c : Nat} {m : Machine Q D}, c ≤ most → Due P F hz B c k m → ticks dev (m.limit + F) (j + 1) m = some m' →
    (∀ i < j + 1, 0 < i → ∀ s, ticks dev (m.limit + F) i m = some s → s.cur.toNat < m.limit + F) → Goon P F hz B k m m'
  | j, c, m, hc, h, ht, hall => by
    obtain ⟨t, x, e1, -⟩ := executed_pace hd false m (by
      have := h.ahead; have := h.bound; have := hf.few; have := hf.short; have := hf.room; omega)
    have hg := round_goon hT hd hf hB hc h e1
    have htick : tick dev (m.limit + F) m =
        some (if m.limit + F ≤ x.cur.toNat then x.endFrame dev (m.limit + F) else x) := by
      unfold tick
      rw [e1]
      rfl
    unfold ticks at ht
    rw [htick] at ht
    cases j with
    | zero =>
      cases ht
      exact hg
    | succ j =>
      have h1 : ticks dev (m.limit + F) 1 m =
          some (if m.limit + F ≤ x.cur.toNat then x.endFrame dev (m.limit + F) else x) := by
        unfold ticks
        rw [htick]
        rfl
      have h2 := hall 1 (by omega) (by omega) _ h1
      have h3 : ¬ m.limit + F ≤ x.cur.toNat := by
        intro hx
        rw [if_pos hx] at h2
        exact absurd (show x.cur.toNat < m.limit + F from h2) (by omega)
      rw [if_neg h3] at ht htick
      obtain ⟨i1, i2, i3⟩ := round_stays hT hd hf hB hc h e1 (by omega)
      rw [← i2] at ht
      refine (ticks_goon hT hd hf hB (Nat.zero_le _) i1 ht fun i hi h0 s hs => ?_).after i2 i3
      rw [i2] at hs ⊢
      refine hall (i + 1) (by omega) (by omega) s ?_
      unfold ticks
      rw [htick]
      exact hs

omit [FlavourSpec Q] in
theorem wrap_due (hT : Tally dev P) (hf : Roomy F hz most) (hc : c ≤ most) {m : Machine Q D}
    (h : Due P F hz (2 * hz + 2 * F) c k m) :
    ∃ m0, m.wrapSecond dev = some m0 ∧ Due P F hz (2 * hz) c k m0 ∧
      m0.cur.toNat - m0.limit = m.cur.toNat - m.limit := by
  obtain ⟨h1, h2, h3, h4, h5, h6⟩ := h
  obtain ⟨f1, f2, f3⟩ := hf
  unfold Machine.wrapSecond
  rw [if_pos (by omega)]
  by_cases hw : m.cur.toNat > 2 * m.hz
  · rw [if_pos hw, if_pos (by omega)]
    have : (m.cur - BitVec.ofNat 32 m.hz).toNat = m.cur.toNat - m.hz := by
      rw [BitVec.toNat_sub, BitVec.toNat_ofNat]
      have := m.cur.isLt
      omega
    refine ⟨_, rfl, ⟨h1, h2, ?_, ?_, ?_, hT.second _ h6⟩, ?_⟩ <;> simp only [this] <;> omega
  · rw [if_neg hw]
    exact ⟨m, rfl, ⟨h1, h2, h3, h4, by omega, h6⟩, rfl⟩

/-- `debug_step` returns, whatever interrupts. -/
theorem step_some (n : Nat) (m : Machine Q D) (l : Nat) (hl : l + 2 * m.frame < 2 ^ 32) :
    ∃ raw data m', Machine.stepLoop dev m.cpu.getPc (n + 2) l m.cpu.pfx none m = some (raw, data, m') ∧ HasCode raw ∧
      ((∃ t l1, Round dev l m t m' l1) ∨ ∃ t m1 l1 t' l2, Round dev l m t m1 l1 ∧ Round dev l1 m1 t' m' l2) := by
  obtain ⟨t, x, m1, l1, h1, hr, hx, hg, hf, hl1, hl2, -, hround⟩ := round_some (dev := dev) l m
  have hround := hround (by omega)
  have hcode := goes_code hg (dbg := none) (fun _ h => by cases h)
  have lone_code : ∀ p pc, HasCode (some (prefixDebug p pc)) := fun p pc d hd => by
    cases hd
    cases p <;> exact List.cons_ne_nil _ _
  rw [stepLoop_round h1 hround]
  by_cases hc : (lastRecord t none).isSome ∨ m1.cpu.halt
  · rw [if_pos hc]
    exact ⟨_, _, _, rfl, hcode, .inl ⟨_, _, hr⟩⟩
  · rw [if_neg hc]
    have hlv : ∀ {t : List (Ev ralSig)} {c : Cpu Q}, Leaves t c → ¬ ((lastRecord t none).isSome ∨ c.halt) →
        c.halt = false ∧ c.pfx.isSome := by
      rintro t c (⟨_, h2, h3⟩ | ⟨d, h2, -⟩) hn
      · exact ⟨h2, h3⟩
      · exact absurd (.inl (by rw [lastRecord_one none h2]; rfl)) hn
    have after : ∀ {c c' : Cpu Q} {t : List (Ev ralSig)}, Goes c t c' →
        ¬ ((lastRecord t none).isSome ∨ c'.halt) → c'.halt = false ∧ c'.pfx.isSome := by
      rintro c c' t (⟨-, e, -⟩ | ⟨-, e, -⟩ | ⟨-, -, e⟩) hn
      · exact absurd (.inr e) hn
      · exact hlv e hn
      · split at e
        · obtain ⟨d, lo, hi, g1, -⟩ := e
          exact absurd (.inl (by rw [lastRecord_one none g1]; rfl)) hn
        · exact hlv e.1 hn
    obtain ⟨h2, h3⟩ := after hg hc
    obtain ⟨p1, hp1⟩ := Option.isSome_iff_exists.1 h3
    rw [hp1, if_neg (by simp)]
    cases hp : m.cpu.pfx with
    | some p => exact ⟨_, _, _, rfl, lone_code _ _, .inl ⟨_, _, hr⟩⟩
    | none =>
      obtain ⟨t', x', m2, l2, k1, kr, -, kg, kf, -, -, -, kx⟩ := round_some (dev := dev) l1 m1
      have kx := kx (by rw [hf]; omega)
      have kcode := goes_code kg (dbg := none) (fun _ h => by cases h)
      dsimp only
      rw [stepLoop_round k1 kx]
      by_cases hc' : (lastRecord t' none).isSome ∨ m2.cpu.halt
      · rw [if_pos hc']
        exact ⟨_, _, _, rfl, kcode, .inr ⟨_, _, _, _, _, hr, kr⟩⟩
      · rw [if_neg hc']
        obtain ⟨p2, hp2⟩ := Option.isSome_iff_exists.1 (after kg hc').2
        rw [hp2, if_neg (by simp)]
        exact ⟨_, _, _, rfl, lone_code _ _, .inr ⟨_, _, _, _, _, hr, kr⟩⟩

theorem debugStep_due (hT : Tally dev P) (hd : Prompt dev) (hf : Roomy F hz most) (hc : c ≤ most) {m : Machine Q D}
    (h : Due P F hz (2 * hz + 2 * F) c k m) {n : Nat} (hn : 2 ≤ n) :
    ∃ dbg d m' k', m.debugStep dev n = some (dbg, d, m') ∧ Due P F hz (2 * hz + 2 * F) 0 k' m' ∧
      Accounted F k k' d m m' := by
  obtain ⟨m0, hw, h0, he⟩ := wrap_due hT hf hc h
  have hlim : m0.limit + 3 * m0.frame < 2 ^ 32 := by
    have := h0.bound; have := h0.frame; have := hf.room; omega
  obtain ⟨n, rfl⟩ : ∃ i, n = i + 2 := ⟨n - 2, by omega⟩
  obtain ⟨raw, data, m', h1, hcode, h2⟩ := step_some (dev := dev) n m0 (m0.limit + m0.frame) (by omega)
  have hdbg : ∃ dbg, (match data with
      | some v => irqDebugUpdate v m0.cpu.getPc m'.cpu raw
      | none => some raw) = some dbg := by
    cases data with
    | none => exact ⟨_, rfl⟩
    | some v => exact update_some hcode
  obtain ⟨dbg, hdbg⟩ := hdbg
  have hrun : m.debugStep dev (n + 2) = some (dbg, m'.cur.toNat - m0.cur.toNat, m') := by
    unfold Machine.debugStep
    rw [hw]
    show (add32 m0.limit m0.frame).bind _ = _
    have : add32 m0.limit m0.frame = some (m0.limit + m0.frame) := if_pos (by omega)
    rw [this]
    show (Machine.stepLoop dev m0.cpu.getPc (n + 2) (m0.limit + m0.frame) m0.cpu.pfx none m0).bind _ = _
    rw [h1]
    cases data with
    | none => cases hdbg; rfl
    | some v =>
      show (irqDebugUpdate v m0.cpu.getPc m'.cpu raw).bind _ = _
      rw [show irqDebugUpdate v m0.cpu.getPc m'.cpu raw = some dbg from hdbg]
      rfl
  rw [h0.frame] at h2
  have key : ∃ k', Due P F hz (2 * hz + 2 * F) 0 k' m' ∧ Accounted F k k' (m'.cur.toNat - m0.cur.toNat) m0 m' := by
    rcases h2 with ⟨t, l1, hr⟩ | ⟨t, m1, l1, t', l2, hr, hr'⟩
    · obtain ⟨k', i1, i2⟩ := (round_of hT hd hf (by omega) hc h0 hr).1.accounted h0.due
      exact ⟨k', i1.mono (by omega) (Nat.le_refl _), i2⟩
    · obtain ⟨hg, rfl⟩ := round_of hT hd hf (by omega) hc h0 hr
      have hle : m0.cur.toNat ≤ m1.cur.toNat := by obtain ⟨_, _, h, _⟩ := hg; exact h
      obtain ⟨k1, i1, i2⟩ := hg.accounted h0.due
      obtain ⟨hg', -⟩ := round_of hT hd hf (by omega) (Nat.zero_le _) i1 hr'
      have hle' : m1.cur.toNat ≤ m'.cur.toNat := by obtain ⟨_, _, h, _⟩ := hg'; exact h
      obtain ⟨k2, j1, j2⟩ := hg'.accounted i1.due
      refine ⟨k2, j1.mono (by omega) (Nat.le_refl _), ?_⟩
      unfold Accounted at i2 j2 ⊢
      omega
  obtain ⟨k', i1, i2⟩ := key
  refine ⟨dbg, _, m', k', hrun, i1, ?_⟩
  unfold Accounted at i2 ⊢
  omega

theorem runtoInt_due (hT : Tally dev P) (hd : Prompt dev) (hf : Roomy F hz most) (hc : c ≤ most) {m : Machine Q D}
    (h : Due P F hz (2 * hz + 2 * F) c k m) {n : Nat} (hn : F < 4 * n) :
    ∃ dbg d m' k', m.debugRuntoInt dev n = some (dbg, d, m') ∧ Due P F hz (2 * hz + 2 * F) 0 k' m' ∧
      Accounted F k k' d m m' := by
  obtain ⟨m0, hw, h0, he⟩ := wrap_due hT hf hc h
  have hnum : m0.limit + m0.frame + 22 < 2 ^ 32 ∧ m0.cur.toNat + 23 < 2 ^ 32 ∧
      m0.limit + m0.frame - m0.cur.toNat < 4 * n := by
    have := h0.bound; have := h0.frame; have := hf.room; have := hf.few; have := h0.ahead; have := h0.due; omega
  obtain ⟨⟨dbg, d, m'⟩, h1⟩ := C65_int_returns hd hw hnum.1 hnum.2.1 hnum.2.2
  obtain ⟨m0', hw', hts, hlast⟩ := C65_debug_runto_int_partial h1
  rw [hw] at hw'
  cases hw'
  rw [h0.frame] at hlast
  obtain ⟨k', i1, i2⟩ := (last_goon hT hd hf (by omega) hc hlast h0).accounted h0.due
  refine ⟨dbg, d, m', k', h1, i1.mono (by omega) (Nat.le_refl _), ?_⟩
  unfold Accounted at i2 ⊢
  omega

theorem runtoRet_due (hT : Tally dev P) (hd : Prompt dev) (hf : Roomy F hz most) (hc : c ≤ most) {m : Machine Q D}
    (h : Due P F hz (2 * hz + 2 * F) c k m) {n : Nat} (hn : F < 4 * n) :
    ∃ dbg d m' k', m.debugRuntoRet dev n = some (dbg, d, m') ∧ Due P F hz (2 * hz + 2 * F) 0 k' m' ∧
      Accounted F k k' d m m' := by
  obtain ⟨m0, hw, h0, he⟩ := wrap_due hT hf hc h
  have hnum : m0.limit + m0.frame + 22 < 2 ^ 32 ∧ m0.cur.toNat + 23 < 2 ^ 32 ∧
      m0.limit + m0.frame - m0.cur.toNat < 4 * n := by
    have := h0.bound; have := h0.frame; have := hf.room; have := hf.few; have := h0.ahead; have := h0.due; omega
  obtain ⟨⟨dbg, d, m'⟩, h1⟩ := C65_ret_returns hd hw hnum.1 hnum.2.1 hnum.2.2
  obtain ⟨m0', hw', hts, hlast⟩ := C65_debug_runto_ret h1
  rw [hw] at hw'
  cases hw'
  rw [h0.frame] at hlast
  obtain ⟨k', i1, i2⟩ := (last_goon hT hd hf (by omega) hc hlast h0).accounted h0.due
  refine ⟨dbg, d, m', k', h1, i1.mono (by omega) (Nat.le_refl _), ?_⟩
  unfold Accounted at i2 ⊢
  omega

theorem runBrk_due (hT : Tally dev P) (hd : Prompt dev) (hf : Roomy F hz most) (hc : c ≤ most) {m : Machine Q D}
    (h : Due P F hz (2 * hz + 2 * F) c k m) {n : Nat} (hn : F < 4 * n) {search : List U16 → U16 → Machine.Found}
    (hs : Searches search) {brk : List U16} (hb : brk.Pairwise (· ≤ ·)) (hff : 0xFFFF#16 ∈ brk) :
    ∃ r d m' k', m.runUntilBrkpt dev search n brk = some (r, d, m') ∧ Due P F hz (2 * hz + 2 * F) c k' m' ∧
      Accounted F k k' d m m' := by
  obtain ⟨m0, hw, h0, he⟩ := wrap_due hT hf hc h
  have hnum : m0.limit + m0.frame + 22 < 2 ^ 32 ∧ m0.cur.toNat + 23 < 2 ^ 32 ∧
      m0.limit + m0.frame - m0.cur.toNat < 4 * n := by
    have := h0.bound; have := h0.frame; have := hf.room; have := hf.few; have := h0.ahead; have := h0.due; omega
  obtain ⟨⟨r, d, m'⟩, h1⟩ := C64_returns_partial hd hs hb hff hw hnum.1 hnum.2.1 hnum.2.2
  obtain ⟨m0', j, hw', hticks, hall, -⟩ := C64_frame_partial hs hb hff h1
  obtain ⟨m0'', j', hw'', -, -, hts⟩ := C64_run_until_brkpt_partial hs hb h1
  rw [hw] at hw' hw''
  cases hw'
  cases hw''
  rw [h0.frame] at hticks hall
  cases j with
  | zero =>
    cases hticks
    refine ⟨r, d, m0, k, h1, h0.mono (by omega) (Nat.le_refl _), ?_⟩
    unfold Accounted
    omega
  | succ j =>
    obtain ⟨k', i1, i2⟩ := (ticks_goon hT hd hf (by omega) hc h0 hticks hall).accounted h0.due
    refine ⟨r, d, m', k', h1, i1.mono (by omega) (Nat.zero_le _), ?_⟩
    unfold Accounted at i2 ⊢
    omega

theorem frame_due (hT : Tally dev P) (hd : Prompt dev) (hf : Roomy F hz most) (hc : c ≤ most) {m : Machine Q D}
    (h : Due P F hz (2 * hz + 2 * F) c k m) {n j : Nat} (hn : F + 23 ≤ 4 * n) (hj : F + 4 ≤ 4 * j) :
    ∃ d m' k', m.step dev n j = some (d, m') ∧ Due P F hz (2 * hz + 2 * F) 0 k' m' ∧ Accounted F k k' d m m' := by
  obtain ⟨w, hw, h0, he⟩ := wrap_due hT hf hc h
  obtain ⟨h1, h2, h3, h4, h5, h6⟩ := h0
  obtain ⟨f1, f2, f3⟩ := hf
  obtain ⟨m', i1, i2, i3, i4, i5, i6, i7⟩ := loop_paces hd (n := n) (by omega) j { w with limit := w.limit + w.frame }
    (by simp only; omega) (by simp only; omega) (by simp only; omega)
  have ht := frameLoop_tally hT i1 (k := k) h6
  simp only at i2 i3 i4 i5 i6 i7
  have hcur : m'.cur.toNat ≤ w.limit + w.frame + 22 + 11 * c ∧ w.cur.toNat ≤ m'.cur.toNat := by
    rcases Nat.lt_or_ge w.cur.toNat (w.limit + w.frame) with hw | hw
    · have := i7 hw
      omega
    · rw [i6 hw]
      omega
  unfold Machine.step add32
  rw [hw, Option.bind_eq_bind, Option.bind_some, if_pos (by omega), Option.bind_eq_bind, Option.bind_some, i1,
    Option.bind_some]
  refine ⟨_, _, k + 1, rfl, ⟨?_, ?_, ?_, ?_, ?_, hT.frameEnd _ ht⟩, ?_⟩
  all_goals try unfold Accounted
  all_goals simp only [BitVec.toNat_sub, Nat.add_mul, Nat.one_mul]
  all_goals omega

theorem nmi_due (hT : Tally dev P) (hd : Prompt dev) (hf : Roomy F hz most) (hc : c ≤ most) {m : Machine Q D}
    (h : Due P F hz (2 * hz + 2 * F) c k m) :
    Due P F hz (2 * hz + 2 * F) (c + 1) k (m.nmi dev).2 ∧
      Accounted F k k ((m.nmi dev).1.getD 0) m (m.nmi dev).2 := by
  obtain ⟨h1, h2, h3, h4, h5, h6⟩ := h
  obtain ⟨f1, f2, f3⟩ := hf
  obtain ⟨d, hd1, hd2, hd3, hd4, hd5⟩ := nmi_paces hd m (by omega)
  have hd0 : (m.nmi dev).1.getD 0 = d ∧ d ≤ 11 := by
    rcases hd1 with ⟨e, rfl⟩ | ⟨e, rfl⟩ <;> rw [e] <;> decide
  refine ⟨⟨by omega, by omega, by omega, by omega, by omega, hT.run (Z80.nmi m.cpu) (m.cur, m.bus) h6⟩, ?_⟩
  unfold Accounted
  omega

theorem obey_due (hT : Tally dev P) (hd : Prompt dev) (hf : Roomy F hz most) {n j : Nat} (hn : F + 23 ≤ 4 * n)
    (hj : F + 4 ≤ 4 * j) {search : List U16 → U16 → Machine.Found} (hs : Searches search) :
    ∀ (l : List Cmd) {c k : Nat} {m : Machine Q D}, Session most c l → Due P F hz (2 * hz + 2 * F) c k m →
    ∃ d m' k', obeyAll dev search n j l m = some (d, m') ∧ Due P F hz (2 * hz + 2 * F) (pending c l) k' m' ∧
      Accounted F k k' d m m'
  | [], c, k, m, _, h => ⟨0, m, k, rfl, h, rfl⟩
  | a :: l, c, k, m, hl, h => by
    have go : ∀ {c' d k1} {m1 : Machine Q D}, obey dev search n j a m = some (d, m1) →
        Due P F hz (2 * hz + 2 * F) c' k1 m1 → Accounted F k k1 d m m1 → Session most c' l →
        pending c (a :: l) = pending c' l →
        ∃ d m' k', obeyAll dev search n j (a :: l) m = some (d, m') ∧
          Due P F hz (2 * hz + 2 * F) (pending c (a :: l)) k' m' ∧ Accounted F k k' d m m' := by
      intro c' d k1 m1 h1 h2 h3 h4 h5
      obtain ⟨d', m', k', i1, i2, i3⟩ := obey_due hT hd hf hn hj hs l h4 h2
      refine ⟨d + d', m', k', ?_, h5 ▸ i2, ?_⟩
      · unfold obeyAll
        rw [h1, Option.bind_some, i1]
        rfl
      · unfold Accounted at h3 i3 ⊢
        omega
    have hF := hf.few
    cases a with
    | frame =>
      obtain ⟨hc, hl⟩ := hl
      obtain ⟨d, m1, k1, h1, h2, h3⟩ := frame_due hT hd hf hc h hn hj
      exact go h1 h2 h3 hl rfl
    | reset =>
      obtain ⟨hc, hl⟩ := hl
      exact go (c' := c) (d := 0) (k1 := k) (m1 := m.reset dev) rfl
        ⟨h.frame, h.hz, h.due, h.ahead, h.bound, hT.reset _ h.tally⟩ rfl hl rfl
    | nmi =>
      obtain ⟨hc, hl⟩ := hl
      obtain ⟨h1, h2⟩ := nmi_due hT hd hf hc h
      exact go rfl h1 h2 hl rfl
    | step =>
      obtain ⟨hc, hl⟩ := hl
      obtain ⟨r, d, m1, k1, h1, h2, h3⟩ := debugStep_due hT hd hf hc h (n := n) (by omega)
      exact go (by simp only [obey, h1, Option.map_some]) h2 h3 hl rfl
    | toInt =>
      obtain ⟨hc, hl⟩ := hl
      obtain ⟨r, d, m1, k1, h1, h2, h3⟩ := runtoInt_due hT hd hf hc h (n := n) (by omega)
      exact go (by simp only [obey, h1, Option.map_some]) h2 h3 hl rfl
    | toRet =>
      obtain ⟨hc, hl⟩ := hl
      obtain ⟨r, d, m1, k1, h1, h2, h3⟩ := runtoRet_due hT hd hf hc h (n := n) (by omega)
      exact go (by simp only [obey, h1, Option.map_some]) h2 h3 hl rfl
    | toBrk b =>
      obtain ⟨hc, hb, hff, hl⟩ := hl
      obtain ⟨r, d, m1, k1, h1, h2, h3⟩ := runBrk_due hT hd hf hc h (n := n) (by omega) hs hb hff
      exact go (by simp only [obey, h1, Option.map_some]) h2 h3 hl rfl

end
end Z80.Ral
