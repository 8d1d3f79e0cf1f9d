import Verif.Model.RalMachine
import Verif.Spec.RalFrame
import Verif.Props.Pace
import Verif.Props.Bus

/-!
# Lemmas on the frames of the example computer
-/

namespace Z80.Ral
open Spec Spec.Ral

variable {Q D : Type} {dev : Device D}

/-- The device asks for no wait states. -/
structure Prompt (dev : Device D) : Prop where
  read : ∀ port ts d v ws d', dev.readIo port ts d = some ((v, ws), d') → ws = none
  write : ∀ port data ts d ws d', dev.writeIo port data ts d = some (ws, d') → ws = none
  ack : ∀ pc ts d v ws d', dev.irqData pc ts d = some ((v, ws), d') → ws = none

theorem host_asked (hd : Prompt dev) (r : Req ralSig) (s : Option (Boards D)) :
    Ev.asked ⟨r, (Boards.host dev r s).1⟩ = 0 := by
  cases s with
  | none => cases r <;> rfl
  | some s =>
    cases r with
    | readIo p ts =>
      simp only [Boards.host, Option.bind_some, Boards.answer]
      by_cases hp : p &&& s.mask = s.bits
      · simp only [if_pos hp]; rfl
      · simp only [if_neg hp]
        cases h : dev.readIo p ts.toNat s.device with
        | none => rfl
        | some x =>
          obtain ⟨⟨v, ws⟩, d⟩ := x
          cases hd.read _ _ _ _ _ _ h
          rfl
    | writeIo p v ts =>
      simp only [Boards.host, Option.bind_some, Boards.answer]
      by_cases hp : p &&& s.mask = s.bits
      · simp only [if_pos hp]; rfl
      · simp only [if_neg hp]
        cases h : dev.writeIo p v ts.toNat s.device with
        | none => rfl
        | some x =>
          obtain ⟨ws, d⟩ := x
          cases hd.write _ _ _ _ _ _ h
          rfl
    | irqData pc ts =>
      simp only [Boards.host, Option.bind_some, Boards.answer]
      cases h : dev.irqData pc ts.toNat s.device with
      | none => rfl
      | some x =>
        obtain ⟨⟨v, ws⟩, d⟩ := x
        cases hd.ack _ _ _ _ _ _ h
        rfl
    | _ => rfl

theorem host_cause (r : Req ralSig) (s : Option (Boards D)) : Ev.cause ⟨r, (Boards.host dev r s).1⟩ = none := by
  cases s with
  | none => cases r <;> rfl
  | some s =>
    cases r with
    | writeIo p v ts =>
      simp only [Boards.host, Option.bind_some, Boards.answer]
      by_cases hp : p &&& s.mask = s.bits
      · simp only [if_pos hp]; rfl
      · simp only [if_neg hp]
        cases h : dev.writeIo p v ts.toNat s.device with
        | none => rfl
        | some x => rfl
    | reti pc ts =>
      simp only [Boards.host, Option.bind_some, Boards.answer]
      cases h : dev.reti pc ts.toNat s.device with
      | none => rfl
      | some x => rfl
    | _ => rfl

theorem clock_asked (hd : Prompt dev) (r : Req ralSig) (s : BitVec 32 × Option (Boards D)) :
    Ev.asked ⟨r, (tClock (Boards.host dev) r s).1⟩ ≤ 0 := by
  cases r with
  | readIo p ts => exact Nat.le_of_eq (host_asked hd (.readIo p ts) s.2)
  | writeIo p v ts => exact Nat.le_of_eq (host_asked hd (.writeIo p v ts) s.2)
  | irqData p ts => exact Nat.le_of_eq (host_asked hd (.irqData p ts) s.2)
  | _ => exact Nat.le_refl _

theorem clock_cause (r : Req ralSig) (s : BitVec 32 × Option (Boards D)) :
    Ev.cause ⟨r, (tClock (Boards.host dev) r s).1⟩ = none := by
  cases r with
  | writeIo p v ts => exact host_cause (.writeIo p v ts) s.2
  | reti p ts => exact host_cause (.reti p ts) s.2
  | _ => rfl

theorem clock_adds {B : Type} (bus : Bus ralSig B) : Adds (tClock bus) := by
  intro r t b
  have h1 : ∀ n, (t + BitVec.ofNat 32 n).toNat = (t.toNat + n) % 2 ^ 32 := fun n => by
    rw [BitVec.toNat_add, BitVec.toNat_ofNat, Nat.add_mod_mod]
  cases r with
  | addIo a => exact h1 4
  | addIrq a => exact h1 6
  | _ => exact (counts bus).adds _ t b

theorem clock_tells {B : Type} (bus : Bus ralSig B) :
    TellsTime (tClock bus) (fun t => (t.toNat : Int)) (2 ^ 32 : Nat) := by
  refine ⟨clock_adds bus, fun t => by have := t.isLt; omega, fun {x t n} h hn => ?_,
    fun l s => decide_eq_decide.2 Int.ofNat_le.symm⟩
  rw [Nat.mod_eq_of_lt (by omega)] at h
  omega

theorem no_causes {σ : Sig} {S α : Type} {H : Handler σ S} (hH : ∀ r s, Ev.cause ⟨r, (H r s).1⟩ = none)
    (p : Prog σ α) (s : S) : causes (p.trace H s) = [] := by
  induction p generalizing s with
  | ret a => rfl
  | call r k ih =>
    show causes (⟨r, (H r s).1⟩ :: (k (H r s).1).trace H (H r s).2) = []
    rw [causes_cons, ih]
    simp [causes, hH]

theorem no_asked {σ : Sig} {S α : Type} {H : Handler σ S} (hH : ∀ r s, Ev.asked ⟨r, (H r s).1⟩ ≤ 0)
    (p : Prog σ α) (s : S) : asked (p.trace H s) = 0 := by
  induction p generalizing s with
  | ret a => rfl
  | call r k ih =>
    show Ev.asked ⟨r, (H r s).1⟩ + asked _ = 0
    have := hH r s
    rw [ih]
    omega

variable [FlavourSpec Q]

/-- The loop of a frame ends in time. -/
theorem loop_paces (hd : Prompt dev) {n : Nat} (hn : 0 < n) : ∀ (k : Nat) (m : Machine Q D),
    m.limit - m.cur.toNat + 4 ≤ 4 * k → m.limit + 23 ≤ m.cur.toNat + 4 * n → m.limit + 22 < 2 ^ 32 →
    ∃ m', m.frameLoop dev n k = some m' ∧ m'.limit = m.limit ∧ m'.hz = m.hz ∧ m'.frame = m.frame ∧
      m.limit ≤ m'.cur.toNat ∧ (m.limit ≤ m.cur.toNat → m'.cur = m.cur) ∧
      (m.cur.toNat < m.limit → m'.cur.toNat < m.limit + 23)
  | 0, m, hk, _, _ => by omega
  | k + 1, m, hk, h1, h2 => by
    have hl : (BitVec.ofNat 32 m.limit).toNat = m.limit := by
      rw [BitVec.toNat_ofNat]; exact Nat.mod_eq_of_lt (by omega)
    obtain ⟨e, c', t', b', hrun, hpast, hless, hok⟩ := limit_counter (clock_tells (Boards.host dev)) (clock_asked hd) n
      (BitVec.ofNat 32 m.limit) m.cpu m.cur m.bus hn (by rw [hl]; omega) (by rw [hl]; omega)
    rw [hl] at hpast hless hok
    have hr := Prog.runs_run (tClock (Boards.host dev))
      (executeWithLimit n (BitVec.ofNat 32 m.limit) m.cpu) (m.cur, m.bus)
    rw [hrun] at hr
    have hc := C32_reasons hr
    have hcause := hc.2.2.1
    rw [no_causes clock_cause] at hcause
    unfold Machine.frameLoop
    rw [hrun]
    cases e with
    | ok =>
      refine ⟨_, rfl, rfl, rfl, rfl, ?_, fun h => (hpast (by omega)).1, fun h => ?_⟩
      · have := hok rfl
        simp only
        omega
      · have := (hless (by omega)).2
        simp only
        omega
    | halt =>
      have hlt : m.cur.toNat < m.limit := by
        rcases Nat.lt_or_ge m.cur.toNat m.limit with h | h
        · exact h
        · have := (hpast (by omega)).2; cases this
      have := hless (by omega)
      obtain ⟨m', i1, i2, i3, i4, i5, i6, i7⟩ := loop_paces hd hn k { m with cpu := c', cur := t', bus := b' }
        (by simp only; omega) (by simp only; omega) h2
      refine ⟨m', i1, i2, i3, i4, i5, fun h => by omega, fun _ => ?_⟩
      simp only at i6 i7
      rcases Nat.lt_or_ge t'.toNat m.limit with h | h
      · exact i7 h
      · rw [i6 h]; omega
    | writeIo o => cases hcause
    | reti o => cases hcause
    | ub => exact absurd rfl hc.2.2.2.2.2

theorem nmi_paces (hd : Prompt dev) (m : Machine Q D) (h : m.cur.toNat + 11 < 2 ^ 32) :
    ∃ d, ((m.nmi dev).1 = none ∧ d = 0 ∨ (m.nmi dev).1 = some 11 ∧ d = 11) ∧ (m.nmi dev).2.cur.toNat = m.cur.toNat + d ∧
      (m.nmi dev).2.limit = m.limit ∧ (m.nmi dev).2.hz = m.hz ∧ (m.nmi dev).2.frame = m.frame := by
  have hr := Prog.runs_run (tClock (Boards.host dev)) (Z80.nmi m.cpu) (m.cur, m.bus)
  have hc := counts_run (clock_adds (Boards.host dev)) (Z80.nmi m.cpu) m.cur m.bus
  have hq := no_asked (clock_asked hd) (Z80.nmi m.cpu) (m.cur, m.bus)
  rw [elapsed_eq, C17_nmi hr, hq] at hc
  unfold Machine.nmi
  generalize hz : (Z80.nmi m.cpu).run (tClock (Boards.host dev)) (m.cur, m.bus) = z at hr hc ⊢
  obtain ⟨⟨b, c⟩, t, bus⟩ := z
  cases b with
  | true =>
    rw [C16_nmi hr, Nat.mod_eq_of_lt (by omega)] at hc
    simp only at hc
    refine ⟨11, .inr ⟨?_, rfl⟩, hc, rfl, rfl, rfl⟩
    simp only [if_true]
    rw [BitVec.toNat_sub, hc]
    congr 1
    omega
  | false =>
    have : (Z80.nmi m.cpu : Prog ralSig _) = .ret (false, m.cpu) := by
      unfold Z80.nmi at hz ⊢
      split
      · rename_i hi
        rw [if_pos hi] at hz
        have h1 : (Prog.bind (nmiNoCheck m.cpu) fun c => (.ret (true, c) : Prog ralSig _)).run
          (tClock (Boards.host dev)) (m.cur, m.bus) = _ := hz
        rw [Prog.run_bind] at h1
        cases h1
      · rfl
    rw [this] at hz
    cases hz
    exact ⟨0, .inl ⟨rfl, rfl⟩, rfl, rfl, rfl, rfl⟩

theorem wrap_paces (m : Machine Q D) {slack : Nat} (h1 : m.cur.toNat ≤ m.limit + slack) (h2 : slack ≤ m.hz)
    (h3 : 2 * m.hz < 2 ^ 32) (h4 : m.limit ≤ 2 * m.hz + m.frame) (h5 : m.frame ≤ m.hz) (h0 : m.limit ≤ m.cur.toNat) :
    ∃ m' d, m.wrapSecond dev = some m' ∧ m'.hz = m.hz ∧ m'.frame = m.frame ∧ m'.limit + d = m.limit ∧
      m'.cur.toNat + d = m.cur.toNat ∧ m'.limit ≤ 2 * m.hz := by
  unfold Machine.wrapSecond
  rw [if_pos h3]
  by_cases hc : m.cur.toNat > 2 * m.hz
  · rw [if_pos hc, if_pos (by omega)]
    refine ⟨_, m.hz, rfl, rfl, rfl, ?_, ?_, ?_⟩
    · simp only
      omega
    · simp only [BitVec.toNat_sub, BitVec.toNat_ofNat]
      have := m.cur.isLt
      omega
    · simp only
      omega
  · rw [if_neg hc]
    exact ⟨_, 0, rfl, rfl, rfl, rfl, rfl, by omega⟩

/-- How far the clock is ahead of the schedule. -/
structure OnTime (c most : Nat) (m : Machine Q D) : Prop where
  due : m.limit ≤ m.cur.toNat
  ahead : m.cur.toNat ≤ m.limit + 22 + 11 * c
  bound : m.limit ≤ 2 * m.hz + m.frame
  short : m.frame ≤ m.hz
  second : 22 + 11 * most ≤ m.hz
  room : 2 * m.hz + m.frame + 22 + 11 * most < 2 ^ 32
  few : 11 * most ≤ m.frame

theorem step_paces (hd : Prompt dev) {n k c most : Nat} (m : Machine Q D) (h : OnTime c most m) (hc : c ≤ most)
    (hn : m.frame + 23 ≤ 4 * n) (hk : m.frame + 4 ≤ 4 * k) :
    ∃ d m', m.step dev n k = some (d, m') ∧ OnTime 0 most m' ∧ m'.frame = m.frame ∧ m'.hz = m.hz ∧
      m.cur.toNat - m.limit + d = m.frame + (m'.cur.toNat - m'.limit) := by
  obtain ⟨h1, h2, h3, h4, h5, h6, h7⟩ := h
  obtain ⟨w, x, w1, w2, w3, w4, w5, w6⟩ := wrap_paces (dev := dev) m (slack := 22 + 11 * c) (by omega) (by omega)
    (by omega) h3 h4 h1
  obtain ⟨m', i1, i2, i3, i4, i5, i6, i7⟩ := loop_paces hd (n := n) (by omega) k { w with limit := w.limit + w.frame }
    (by simp only; omega) (by simp only; omega) (by simp only; omega)
  simp only at i2 i3 i4 i5 i6 i7
  have hcur : m'.cur.toNat ≤ w.limit + w.frame + 22 ∧ w.cur.toNat ≤ m'.cur.toNat := by
    rcases Nat.lt_or_ge w.cur.toNat (w.limit + w.frame) with hw | hw
    · have := i7 hw
      omega
    · rw [i6 hw]
      omega
  unfold Machine.step add32
  rw [w1, Option.bind_eq_bind, Option.bind_some, if_pos (by omega), Option.bind_eq_bind, Option.bind_some, i1,
    Option.bind_some]
  refine ⟨_, _, rfl, ⟨?_, ?_, ?_, ?_, ?_, ?_, ?_⟩, ?_, ?_, ?_⟩
  all_goals simp only [BitVec.toNat_sub]
  all_goals omega

namespace Machine

/-- One use: the T-states reported. -/
def act (dev : Device D) (n k : Nat) : Act → Machine Q D → Option (Nat × Machine Q D)
  | .step, m => m.step dev n k
  | .nmi, m => some ((m.nmi dev).1.getD 0, (m.nmi dev).2)
  | .reset, m => some (0, m.reset dev)

/-- Uses one after another: all T-states reported. -/
def acts (dev : Device D) (n k : Nat) : List Act → Machine Q D → Option (Nat × Machine Q D)
  | [], m => some (0, m)
  | a :: l, m => do
    let (d, m) ← m.act dev n k a
    let (ds, m) ← acts dev n k l m
    some (d + ds, m)

end Machine

theorem acts_pace (hd : Prompt dev) {n k most F hz : Nat} (hn : F + 23 ≤ 4 * n) (hk : F + 4 ≤ 4 * k) :
    ∀ (l : List Act) (c : Nat) (m : Machine Q D), m.frame = F → m.hz = hz → OnTime c most m → Sparse most c l →
    ∃ ds m', m.acts dev n k l = some (ds, m') ∧ OnTime (since c l) most m' ∧ m'.frame = F ∧ m'.hz = hz ∧
      m.cur.toNat - m.limit + ds = frames l * F + (m'.cur.toNat - m'.limit)
  | [], c, m, hF, hz, h, _ => ⟨0, m, rfl, h, hF, hz, by simp [frames]⟩
  | .step :: l, c, m, hF, hhz, h, ⟨hs, hl⟩ => by
    obtain ⟨d, m', j1, j2, j3, j4, j5⟩ := step_paces hd (n := n) (k := k) m h hs (by omega) (by omega)
    obtain ⟨ds, m'', k1, k2, k3, k4, k5⟩ := acts_pace hd (hz := hz) hn hk l 0 m' (by omega) (by omega) j2 hl
    refine ⟨d + ds, m'', ?_, k2, k3, k4, ?_⟩
    · simp only [Machine.acts, Machine.act, j1, Option.bind_eq_bind, Option.bind_some, k1]
    · simp only [frames, Nat.add_mul, Nat.one_mul]
      omega
  | .nmi :: l, c, m, hF, hhz, h, hl => by
    have hcm : c + 1 ≤ most := sparse_le l hl
    obtain ⟨h1, h2, h3, h4, h5, h6, h7⟩ := h
    obtain ⟨d, hd1, hd2, hd3, hd4, hd5⟩ := nmi_paces hd m (by omega)
    have hd0 : (m.nmi dev).1.getD 0 = d ∧ d ≤ 11 := by
      rcases hd1 with ⟨e, rfl⟩ | ⟨e, rfl⟩ <;> rw [e] <;> decide
    obtain ⟨ds, m'', k1, k2, k3, k4, k5⟩ := acts_pace hd (hz := hz) hn hk l (c + 1) (m.nmi dev).2 (by omega) (by omega)
      ⟨by omega, by omega, by omega, by omega, by omega, by omega, by omega⟩ hl
    refine ⟨d + ds, m'', ?_, k2, k3, k4, ?_⟩
    · simp only [Machine.acts, Machine.act, hd0.1, Option.bind_eq_bind, Option.bind_some, k1]
    · simp only [frames]
      omega
  | .reset :: l, c, m, hF, hhz, h, hl => by
    obtain ⟨h1, h2, h3, h4, h5, h6, h7⟩ := h
    obtain ⟨ds, m'', k1, k2, k3, k4, k5⟩ := acts_pace hd (hz := hz) hn hk l c (m.reset dev) hF hhz
      ⟨h1, h2, h3, h4, h5, h6, h7⟩ hl
    refine ⟨0 + ds, m'', ?_, k2, k3, k4, ?_⟩
    · simp only [Machine.acts, Machine.act, Option.bind_eq_bind, Option.bind_some, k1]
    · have : (m.reset dev).cur = m.cur ∧ (m.reset dev).limit = m.limit := ⟨rfl, rfl⟩
      simp only [this.1, this.2] at k5
      simp only [frames]
      omega
where
  sparse_le {most : Nat} : ∀ (l : List Act) {c : Nat}, Sparse most c l → c ≤ most
    | [], _, h => h
    | .step :: _, _, h => h.1
    | .nmi :: l, _, h => by have := sparse_le l (by exact h); omega
    | .reset :: l, _, h => sparse_le l h

end Z80.Ral
