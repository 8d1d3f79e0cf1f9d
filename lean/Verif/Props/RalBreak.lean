import Verif.Proofs.RalDebug
import Verif.Props.RalFrame

/-!
# C64: break points of the example computer

`run_until_brkpt` runs the computer, one instruction at a time, to one of the addresses given or to the end of the frame.
-/

namespace Z80.Ral
open Spec Spec.Ral

variable {Q D : Type}

/-- What the standard library promises of `binary_search` on a sorted slice: the index of one of the elements equal to
the one sought, or where it could be inserted. -/
def Searches (search : List U16 → U16 → Machine.Found) : Prop :=
  ∀ (l : List U16) (x : U16), l.Pairwise (· ≤ ·) →
    match search l x with
    | .ok i => l[i]? = some x
    | .err i => i ≤ l.length ∧ (∀ y ∈ l.take i, y < x) ∧ ∀ y ∈ l.drop i, x < y

section
variable [Flavour Q] (dev : Device D)

/-- One instruction, and the end of the frame if it is past the limit. -/
def tick (limit : Nat) (m : Machine Q D) : Option (Machine Q D) :=
  (m.executed dev false).map fun x => if limit ≤ x.2.cur.toNat then x.2.endFrame dev limit else x.2

/-- So many instructions. -/
def ticks (limit : Nat) : Nat → Machine Q D → Option (Machine Q D)
  | 0, m => some m
  | k + 1, m => (tick dev limit m).bind (ticks limit k)

/-- From `m` to `m'` in `k` instructions: none of them but the last reached one of the addresses `brk`, and none but the
last went past the limit unless to the address 0xFFFF. -/
def Untouched (brk : List U16) (limit k : Nat) (m m' : Machine Q D) : Prop :=
  ticks dev limit k m = some m' ∧
    ∀ j < k, ∀ s, ticks dev limit j m = some s →
      s.cpu.getPc ∉ brk ∧ (0 < j → limit ≤ s.cur.toNat → s.cpu.getPc = 0xFFFF#16)

/-- How a run ends. -/
def Ended (brk : List U16) (limit k : Nat) (m' : Machine Q D) : Option Nat → Prop
  | some i => brk[i]? = some m'.cpu.getPc
  | none => 0 < k ∧ limit ≤ m'.cur.toNat

end

section
variable [Flavour Q] {dev : Device D}

theorem endFrame_cur {limit : Nat} {m : Machine Q D} : (m.endFrame dev limit).cur = m.cur := rfl

theorem Untouched.cons {brk : List U16} {limit k : Nat} {m m1 m' : Machine Q D} (hm : m.cpu.getPc ∉ brk)
    (h1 : tick dev limit m = some m1) (h : Untouched dev brk limit k m1 m')
    (h2 : 0 < k → limit ≤ m1.cur.toNat → m1.cpu.getPc = 0xFFFF#16) : Untouched dev brk limit (k + 1) m m' := by
  refine ⟨by unfold ticks; rw [h1]; exact h.1, fun j hj s hs => ?_⟩
  cases j with
  | zero =>
    cases hs
    exact ⟨hm, fun h => absurd h (Nat.lt_irrefl 0)⟩
  | succ j =>
    unfold ticks at hs
    rw [h1] at hs
    have h3 := h.2 j (by omega) s hs
    refine ⟨h3.1, fun _ hl => ?_⟩
    cases j with
    | zero =>
      cases hs
      exact h2 (by omega) hl
    | succ j => exact h3.2 (by omega) hl

/-- The address kept as the next break point. -/
def Gap (brk : List U16) (pc next : U16) : Prop :=
  (∀ y ∈ brk, y < pc ∨ next ≤ y) ∧ (next ∈ brk ∨ next = 0xFFFF#16)

theorem gap_of {search : List U16 → U16 → Machine.Found} (hs : Searches search) {brk : List U16}
    (hb : brk.Pairwise (· ≤ ·)) {pc : U16} {i : Nat} (h : search brk pc = .err i) :
    pc ∉ brk ∧ Gap brk pc (brk[i]?.getD 0xFFFF#16) := by
  have h1 := hs brk pc hb
  rw [h] at h1
  obtain ⟨h2, h3, h4⟩ := h1
  have hm : ∀ y ∈ brk, y ∈ brk.take i ∨ y ∈ brk.drop i := fun y hy => by
    rw [← List.take_append_drop i brk] at hy
    exact List.mem_append.1 hy
  refine ⟨fun hy => ?_, fun y hy => ?_, ?_⟩
  · rcases hm _ hy with h | h
    · have := h3 _ h; exact absurd this (BitVec.lt_irrefl _)
    · have := h4 _ h; exact absurd this (BitVec.lt_irrefl _)
  · rcases hm _ hy with h | h
    · exact .inl (h3 _ h)
    · right
      cases hd : brk.drop i with
      | nil => rw [hd] at h; cases h
      | cons z l =>
        have hz : brk[i]? = some z := by
          rw [← List.head?_drop, hd]; rfl
        rw [hz]
        have hp : (brk.drop i).Pairwise (· ≤ ·) := hb.sublist (List.drop_sublist i brk)
        rw [hd] at hp h
        rcases List.mem_cons.1 h with rfl | h
        · exact BitVec.le_refl _
        · exact (List.pairwise_cons.1 hp).1 _ h
  · cases hi : brk[i]? with
    | none => exact .inr rfl
    | some z => exact .inl (List.mem_of_getElem? hi)

theorem brk_loop {search : List U16 → U16 → Machine.Found} (hs : Searches search) {brk : List U16}
    (hb : brk.Pairwise (· ≤ ·)) {limit : Nat} : ∀ {n : Nat} {pc next : U16} {m : Machine Q D} {r : Option Nat}
    {m' : Machine Q D}, m.cpu.getPc = pc → pc ∉ brk → Gap brk pc next →
    Machine.brkLoop dev search brk limit n pc next m = some (r, m') →
    ∃ k, Untouched dev brk limit k m m' ∧ Ended brk limit k m' r
  | 0, _, _, _, _, _, _, _, _, h => by cases h
  | n + 1, pc, next, m, r, m', hpc, hout, hg, h => by
    unfold Machine.brkLoop at h
    obtain ⟨⟨t, m1⟩, h1, h⟩ := Option.bind_eq_some_iff.1 h
    have hm : m.cpu.getPc ∉ brk := by rwa [hpc]
    have again : ∀ m2 : Machine Q D, m2.cpu = m1.cpu → tick dev limit m = some m2 →
        (limit ≤ m2.cur.toNat → m1.cpu.getPc = next) →
        (match search brk m1.cpu.getPc with
          | .ok i => some (some i, m2)
          | .err i => Machine.brkLoop dev search brk limit n m1.cpu.getPc (brk[i]?.getD 0xFFFF) m2) = some (r, m') →
        ∃ k, Untouched dev brk limit k m m' ∧ Ended brk limit k m' r := by
      intro m2 hc ht hn h
      cases hf : search brk m1.cpu.getPc with
      | ok i =>
        rw [hf] at h
        cases h
        have h2 := hs brk m1.cpu.getPc hb
        rw [hf] at h2
        refine ⟨1, Untouched.cons hm ht ⟨rfl, fun j hj => absurd hj (Nat.not_lt_zero j)⟩ ?_, ?_⟩
        · exact fun h => absurd h (Nat.lt_irrefl 0)
        · show brk[i]? = some m'.cpu.getPc
          rw [hc]
          exact h2
      | err i =>
        rw [hf] at h
        obtain ⟨h2, h3⟩ := gap_of hs hb hf
        obtain ⟨k, h4, h5⟩ := brk_loop hs hb (by rw [hc]) h2 h3 h
        refine ⟨k + 1, Untouched.cons hm ht h4 fun _ hl => ?_, ?_⟩
        · rw [hc]
          rcases hg.2 with h | h
          · exact absurd (hn hl ▸ h) h2
          · exact (hn hl).trans h
        · cases r with
          | none => exact ⟨Nat.succ_pos k, h5.2⟩
          | some i => exact h5
    have htick : tick dev limit m = some (if limit ≤ m1.cur.toNat then m1.endFrame dev limit else m1) := by
      unfold tick
      rw [h1]
      rfl
    dsimp only at h
    by_cases hl : limit ≤ m1.cur.toNat
    · rw [if_pos hl] at htick
      rw [if_pos (show m1.pastLimit limit = true from decide_eq_true hl)] at h
      split at h
      · next he => exact again (m1.endFrame dev limit) rfl htick (fun _ => he) h
      · cases h
        exact ⟨1, Untouched.cons hm htick ⟨rfl, fun j hj => absurd hj (Nat.not_lt_zero j)⟩
          (fun h => absurd h (Nat.lt_irrefl 0)), Nat.one_pos, hl⟩
    · rw [if_neg hl] at htick
      rw [if_neg (by rw [Machine.pastLimit, decide_eq_false hl]; exact Bool.false_ne_true)] at h
      split at h
      · exact again _ rfl htick (fun h => absurd h hl) h
      · next hn =>
        have h2 : ¬ next ≤ m1.cpu.getPc := fun h => hn (.inl h)
        have h3 : ¬ m1.cpu.getPc < pc := fun h => hn (.inr h)
        have h4 : m1.cpu.getPc ∉ brk := fun hy => by
          rcases hg.1 _ hy with h | h
          · exact h3 h
          · exact h2 h
        have h5 : Gap brk m1.cpu.getPc next := by
          refine ⟨fun y hy => ?_, hg.2⟩
          rcases hg.1 y hy with h | h
          · exact .inl (Nat.lt_of_lt_of_le h (Nat.le_of_not_lt h3))
          · exact .inr h
        obtain ⟨k, h6, h7⟩ := brk_loop hs hb rfl h4 h5 h
        refine ⟨k + 1, Untouched.cons hm htick h6 fun _ h => absurd h hl, ?_⟩
        cases r with
        | none => exact ⟨Nat.succ_pos k, h7.2⟩
        | some i => exact h7

/-- C64: `run_until_brkpt` with sorted break points. The computer is left after some number of instructions. None of
them but the last reached a break point. If an index is returned, PC is at that break point; otherwise the clock is past
the end of the frame. No instruction but the last ends past the end of the frame, unless PC is 0xFFFF then. -/
theorem C64_run_until_brkpt_partial {search : List U16 → U16 → Machine.Found} (hs : Searches search) {n : Nat} {brk : List U16}
    (hb : brk.Pairwise (· ≤ ·)) {m m' : Machine Q D} {r : Option Nat} {ts : Nat}
    (h : m.runUntilBrkpt dev search n brk = some (r, ts, m')) :
    ∃ m0 k, m.wrapSecond dev = some m0 ∧ Untouched dev brk (m0.limit + m0.frame) k m0 m' ∧
      Ended brk (m0.limit + m0.frame) k m' r ∧ ts = m'.cur.toNat - m0.cur.toNat := by
  unfold Machine.runUntilBrkpt at h
  obtain ⟨m0, h0, h⟩ := Option.bind_eq_some_iff.1 h
  obtain ⟨limit, hl, h⟩ := Option.bind_eq_some_iff.1 h
  obtain ⟨⟨r1, m1⟩, h1, h⟩ := Option.bind_eq_some_iff.1 h
  cases h
  have hl : limit = m0.limit + m0.frame := by
    unfold add32 at hl
    split at hl <;> cases hl
    rfl
  subst hl
  cases hf : search brk m0.cpu.getPc with
  | ok i =>
    rw [hf] at h1
    have h2 := hs brk m0.cpu.getPc hb
    rw [hf] at h2
    cases h1
    exact ⟨_, 0, h0, ⟨rfl, fun j hj => absurd hj (Nat.not_lt_zero j)⟩, h2, rfl⟩
  | err i =>
    rw [hf] at h1
    obtain ⟨h2, h3⟩ := gap_of hs hb hf
    obtain ⟨k, h4, h5⟩ := brk_loop hs hb rfl h2 h3 h1
    exact ⟨m0, k, h0, h4, h5, rfl⟩

/-- C64: if 0xFFFF is one of the break points, the run ends with the first instruction that ends past the end of the
frame. -/
theorem C64_frame_partial {search : List U16 → U16 → Machine.Found} (hs : Searches search) {n : Nat} {brk : List U16}
    (hb : brk.Pairwise (· ≤ ·)) (hf : 0xFFFF#16 ∈ brk) {m m' : Machine Q D} {r : Option Nat} {ts : Nat}
    (h : m.runUntilBrkpt dev search n brk = some (r, ts, m')) :
    ∃ m0 k, m.wrapSecond dev = some m0 ∧ ticks dev (m0.limit + m0.frame) k m0 = some m' ∧
      (∀ j < k, 0 < j → ∀ s, ticks dev (m0.limit + m0.frame) j m0 = some s → s.cur.toNat < m0.limit + m0.frame) ∧
      Ended brk (m0.limit + m0.frame) k m' r := by
  obtain ⟨m0, k, h1, h2, h3, -⟩ := C64_run_until_brkpt_partial hs hb h
  refine ⟨m0, k, h1, h2.1, fun j hj hp s hs => ?_, h3⟩
  obtain ⟨h4, h5⟩ := h2.2 j hj s hs
  rcases Nat.lt_or_ge s.cur.toNat (m0.limit + m0.frame) with h | h
  · exact h
  · exact absurd (h5 hp h ▸ hf) h4

/-- A search that keeps the promise. -/
def linear (l : List U16) (x : U16) : Machine.Found :=
  if l[l.findIdx (x ≤ ·)]? = some x then .ok (l.findIdx (x ≤ ·)) else .err (l.findIdx (x ≤ ·))

theorem linear_searches : Searches linear := by
  intro l x hl
  have hle : l.findIdx (x ≤ ·) ≤ l.length := List.findIdx_le_length
  have hlo : ∀ y ∈ l.take (l.findIdx (x ≤ ·)), y < x := by
    intro y hy
    obtain ⟨j, hj, rfl⟩ := List.mem_iff_getElem.1 hy
    rw [List.getElem_take]
    have hj' : j < l.findIdx (x ≤ ·) := by
      rw [List.length_take] at hj
      omega
    have := List.not_of_lt_findIdx hj'
    exact BitVec.not_le.1 (of_decide_eq_false this)
  unfold linear
  by_cases h : l[l.findIdx (x ≤ ·)]? = some x
  · rw [if_pos h]
    exact h
  · rw [if_neg h]
    refine ⟨hle, hlo, fun y hy => ?_⟩
    cases hd : l.drop (l.findIdx (x ≤ ·)) with
    | nil => rw [hd] at hy; cases hy
    | cons z k =>
      have hz : l[l.findIdx (x ≤ ·)]? = some z := by rw [← List.head?_drop, hd]; rfl
      have hzx : x ≤ z := by
        obtain ⟨hi, he⟩ := List.getElem?_eq_some_iff.1 hz
        have := List.findIdx_getElem (p := (x ≤ ·)) (w := hi)
        rw [he] at this
        exact of_decide_eq_true this
      have hp : (l.drop (l.findIdx (x ≤ ·))).Pairwise (· ≤ ·) := hl.sublist (List.drop_sublist _ l)
      rw [hd] at hp hy
      have hlt : x < z := by
        rcases Nat.lt_or_eq_of_le hzx with h1 | h1
        · exact h1
        · exact absurd (hz.trans (congrArg some (BitVec.eq_of_toNat_eq h1).symm)) h
      rcases List.mem_cons.1 hy with rfl | h1
      · exact hlt
      · exact Nat.lt_of_lt_of_le hlt ((List.pairwise_cons.1 hp).1 _ h1)

end

variable [FlavourSpec Q] {dev : Device D}

/-- The loop of `run_until_brkpt` ends in time if 0xFFFF is a break point. -/
theorem brk_paces (hd : Prompt dev) {search : List U16 → U16 → Machine.Found} (hs : Searches search) {brk : List U16}
    (hb : brk.Pairwise (· ≤ ·)) (hf : 0xFFFF#16 ∈ brk) {limit : Nat} (hl : limit + 22 < 2 ^ 32) :
    ∀ {n : Nat} {pc next : U16} {m : Machine Q D}, m.cur.toNat + 23 < 2 ^ 32 → limit - m.cur.toNat < 4 * n →
    Gap brk pc next → ∃ r m', Machine.brkLoop dev search brk limit n pc next m = some (r, m')
  | 0, _, _, _, _, h, _ => by omega
  | n + 1, pc, next, m, h1, h2, hg => by
    obtain ⟨t, m1, h3, h4, h5⟩ := executed_pace hd false m h1
    unfold Machine.brkLoop
    rw [h3]
    show ∃ r m', (if m1.pastLimit limit then _ else _) = some (r, m')
    by_cases hp : limit ≤ m1.cur.toNat
    · rw [if_pos (show m1.pastLimit limit = true from decide_eq_true hp)]
      split
      · next he =>
        have hn : next ∈ brk := by
          rcases hg.2 with h | h
          · exact h
          · rw [h]; exact hf
        cases hf : search brk m1.cpu.getPc with
        | ok i => exact ⟨_, _, rfl⟩
        | err i => exact absurd (he ▸ hn) (gap_of hs hb hf).1
      · exact ⟨_, _, rfl⟩
    · rw [if_neg (by rw [Machine.pastLimit, decide_eq_false hp]; exact Bool.false_ne_true)]
      have h6 : m1.cur.toNat + 23 < 2 ^ 32 := by omega
      split
      · cases hf' : search brk m1.cpu.getPc with
        | ok i => exact ⟨_, _, rfl⟩
        | err i => exact brk_paces hd hs hb hf hl h6 (by omega) (gap_of hs hb hf').2
      · next hn =>
        refine brk_paces hd hs hb hf hl h6 (by omega) ⟨fun y hy => ?_, hg.2⟩
        rcases hg.1 y hy with h | h
        · exact .inl (Nat.lt_of_lt_of_le h (Nat.le_of_not_lt fun h => hn (.inr h)))
        · exact .inr h

/-- C64: if 0xFFFF is one of the break points, `run_until_brkpt` returns after no more than a frame, on devices that ask
for no wait states. -/
theorem C64_returns_partial (hd : Prompt dev) {search : List U16 → U16 → Machine.Found} (hs : Searches search) {brk : List U16}
    (hb : brk.Pairwise (· ≤ ·)) (hf : 0xFFFF#16 ∈ brk) {m m0 : Machine Q D} (hw : m.wrapSecond dev = some m0)
    (h1 : m0.limit + m0.frame + 22 < 2 ^ 32) (h2 : m0.cur.toNat + 23 < 2 ^ 32) {n : Nat}
    (hn : m0.limit + m0.frame - m0.cur.toNat < 4 * n) : ∃ r, m.runUntilBrkpt dev search n brk = some r := by
  unfold Machine.runUntilBrkpt
  rw [hw]
  show ∃ r, (add32 m0.limit m0.frame).bind _ = some r
  have : add32 m0.limit m0.frame = some (m0.limit + m0.frame) := if_pos (by omega)
  rw [this]
  cases hs' : search brk m0.cpu.getPc with
  | ok i => exact ⟨_, rfl⟩
  | err i =>
    obtain ⟨r, m', h⟩ := brk_paces hd hs hb hf h1 h2 hn (gap_of hs hb hs').2
    have h : Machine.brkLoop dev search brk (m0.limit + m0.frame) n m0.cpu.getPc (brk[i]?.getD 0xFFFF) m0 =
      some (r, m') := h
    exact ⟨(r, m'.cur.toNat - m0.cur.toNat, m'), by simp only [Option.bind, bind, h]⟩

/-- A processor that waits at 0xFFFF for an interrupt it has disabled stays there. -/
theorem stuck_executed {m : Machine Q D} (h1 : m.cpu.halt = true) (h2 : m.cpu.iff1 = false) :
    ∃ t m', m.executed dev false = some (t, m') ∧ m'.cpu.halt = true ∧ m'.cpu.iff1 = false ∧
      m'.cpu.getPc = m.cpu.getPc := by
  have e : executeNext (σ := ralSig) false m.cpu = .call (.addM1 m.cpu.pc) fun _ => .ret (.ok, m.cpu.incR) := by
    unfold executeNext Cpu.isIrqAllowed
    rw [h1, h2]
    rfl
  unfold Machine.executed
  rw [e]
  exact ⟨_, _, rfl, h1, h2, rfl⟩

theorem none_found {search : List U16 → U16 → Machine.Found} (hs : Searches search) (x : U16) :
    ∃ i, search [] x = .err i := by
  have := hs [] x .nil
  cases hx : search [] x with
  | ok i => rw [hx] at this; cases this
  | err i => exact ⟨i, rfl⟩

theorem stuck_loop {search : List U16 → U16 → Machine.Found} (hs : Searches search) {limit : Nat} :
    ∀ (n : Nat) (m : Machine Q D), m.cpu.halt = true → m.cpu.iff1 = false → m.cpu.getPc = 0xFFFF#16 →
      Machine.brkLoop dev search [] limit n 0xFFFF#16 0xFFFF#16 m = none
  | 0, _, _, _, _ => rfl
  | n + 1, m, h1, h2, h3 => by
    obtain ⟨t, m1, h4, h5, h6, h7⟩ := stuck_executed (dev := dev) h1 h2
    obtain ⟨i, hf⟩ := none_found hs 0xFFFF#16
    unfold Machine.brkLoop
    rw [h4]
    show (if m1.pastLimit limit then if m1.cpu.getPc = _ then _ else _ else _) = none
    rw [h7, h3]
    split
    · rw [if_pos rfl, hf]
      exact stuck_loop hs n _ h5 h6 (h7.trans h3)
    · rw [if_pos (.inl (BitVec.le_refl _)), hf]
      exact stuck_loop hs n _ h5 h6 (h7.trans h3)

/-- C64 is false without a break point at 0xFFFF: then `run_until_brkpt` does not return when the frame has passed with
PC at 0xFFFF, and never if the processor was halted there. -/
theorem C64_refuted_stuck {search : List U16 → U16 → Machine.Found} (hs : Searches search) (n : Nat) (m : Machine Q D)
    (h1 : m.cpu.halt = true) (h2 : m.cpu.iff1 = false) (h3 : m.cpu.getPc = 0xFFFF#16) :
    m.runUntilBrkpt dev search n [] = none := by
  unfold Machine.runUntilBrkpt
  cases hw : m.wrapSecond dev with
  | none => rfl
  | some m0 =>
    have hc : m0.cpu = m.cpu := by
      unfold Machine.wrapSecond at hw
      repeat' split at hw
      all_goals first | (cases hw; rfl) | cases hw
    show (add32 m0.limit m0.frame).bind _ = none
    cases ha : add32 m0.limit m0.frame with
    | none => rfl
    | some limit =>
      obtain ⟨i, hf⟩ := none_found hs m0.cpu.getPc
      have h := stuck_loop (dev := dev) hs (limit := limit) n m0 (by rw [hc]; exact h1) (by rw [hc]; exact h2)
        (by rw [hc]; exact h3)
      have hp : m0.cpu.getPc = 0xFFFF#16 := by rw [hc]; exact h3
      rw [hp] at hf
      have h : Machine.brkLoop dev search [] limit n 0xFFFF#16 (([] : List U16)[i]?.getD 0xFFFF) m0 = none := h
      simp only [Option.bind, bind, hp, hf, h]

/-- A computer with a program in its ROM. -/
def withRom (rom : List U8) (pc : U16) (frame : Nat) : Option (Machine NMOS Unit) :=
  (Memory.new rom 16).map fun memory =>
    { cur := 0, hz := 100000, limit := 0, frame, cpu := Cpu.default.setPc pc,
      bus := some { mask := MEMORY_PORT_MASK, bits := MEMORY_PORT_BITS, device := (), memory } }

/-- C64 is false if the frame ends with a jump back to a break point, or over one to another: no index is returned,
although PC is at a break point. (The next call returns it.) -/
theorem C64_refuted_late :
    (withRom [0x00, 0x18, 0xFD] 1 12).bind (fun m =>
      (m.runUntilBrkpt terminator linear 9 [0, 0xFFFF]).map fun r => (r.1, r.2.1, r.2.2.cpu.getPc)) = some (none, 12, 0) := by
  decide +kernel

/-- Within the frame it is reported. -/
example : (withRom [0x00, 0x18, 0xFD] 1 13).bind (fun m =>
    (m.runUntilBrkpt terminator linear 9 [0, 0xFFFF]).map fun r => (r.1, r.2.1, r.2.2.cpu.getPc)) = some (some 0, 12, 0) := by
  decide +kernel

/-- A case of `C64_returns_partial` and `C64_run_until_brkpt_partial`: the conditions are met and the break point is found. -/
example : Prompt terminator ∧ Searches linear ∧ [6#16, 0xFFFF#16].Pairwise (· ≤ ·) ∧
    (withRom [0xCD, 6, 0] 0 1000).bind (fun m => do
      let m0 ← m.wrapSecond terminator
      let (r, ts, m) ← m.runUntilBrkpt terminator linear 300 [6, 0xFFFF]
      some (decide (m0.limit + m0.frame + 22 < 2 ^ 32 ∧ m0.cur.toNat + 23 < 2 ^ 32 ∧
        m0.limit + m0.frame - m0.cur.toNat < 1200), r, ts, m.cpu.getPc)) = some (true, some 0, 17, 6) :=
  ⟨prompt_terminator, linear_searches, by decide +kernel, by decide +kernel⟩

/-- A case of `C64_refuted_stuck`. -/
example : (withRom [] 0xFFFF 1000).map (fun m =>
    let m := { m with cpu := { m.cpu with halt := true } }
    (m.cpu.halt, m.cpu.iff1, m.cpu.getPc)) = some (true, false, 0xFFFF) := by decide +kernel

end Z80.Ral
