import Verif.Proofs.Block

/-!
# Repeating block instructions run to completion (C21, C22, C23)

Host: 64K of memory and arbitrary devices. The instruction is at PC, and `execute_next` is called repeatedly.
-/

namespace Z80
open Spec
variable {Q : Type} [FlavourSpec Q] {w : Nat} {O R I : Type}

/-! ## Any number of steps -/

/-- `n` steps of the specified machine. -/
def steps (o : Opt) (v : Env w O R I) : Nat → Mach w I → Mach w I
  | 0, s => s
  | n + 1, s => (step o v (steps o v n s)).1

theorem steps_front (o : Opt) (v : Env w O R I) (n : Nat) (s : Mach w I) :
    steps o v (n + 1) s = steps o v n (step o v s).1 := by
  induction n with
  | zero => rfl
  | succ n ih => exact congrArg (fun s => (step o v s).1) ih

theorem specCalls_steps (o : Opt) (v : Env w O R I) (d : Bool) (n : Nat) (s : Mach w I) :
    specCalls o v (List.replicate n (.next d)) s = steps o v n s := by
  induction n generalizing s with
  | zero => rfl
  | succ n ih => rw [steps_front]; exact ih _

/-- `execute_next` called `n` times on the host with memory. -/
def nextN (io : Handler (tsSig w O R) I) (deb : Bool) (n : Nat) (c : Cpu Q) (t : BitVec w) (m : Mem) (i : I) :
    Cpu Q × (BitVec w × Mem × I) :=
  runCalls (ramHost io) (List.replicate n (.next deb)) c (t, m, i)

/-- The machine afterwards. -/
def view (r : Cpu Q × (BitVec w × Mem × I)) : Mach w I := ⟨abs r.1, r.2.2.1, r.2.2.2, r.2.1⟩

theorem view_nextN (io : Handler (tsSig w O R) I) (deb : Bool) (n : Nat) (c : Cpu Q) (t : BitVec w) (m : Mem)
    (i : I) : view (nextN io deb n c t m i) =
      steps (FlavourSpec.opt Q) (envOf io) n ⟨abs c, m, i, t⟩ :=
  (C44_history io _ c t m i).trans (specCalls_steps _ _ _ _ _)

/-! ## C21: LDIR and LDDR -/

/-- `n` bytes further on, or back. -/
def move (dec : Bool) (a : U16) (n : Nat) : U16 := if dec then a - BitVec.ofNat 16 n else a + BitVec.ofNat 16 n

/-- Memory after `n` single byte copies in order, each reading what the ones before wrote. -/
def copied (dec : Bool) (src dst : U16) (m : Mem) : Nat → Mem
  | 0 => m
  | n + 1 => let m' := copied dec src dst m n; m'.set (move dec dst n) (m' (move dec src n))

/-- How often an instruction counting BC down is repeated. -/
def count16 (bc : U16) : Nat := if bc = 0 then 65536 else bc.toNat

theorem move_zero (dec : Bool) (a : U16) : move dec a 0 = a := by
  unfold move
  split
  · exact BitVec.sub_zero a
  · exact BitVec.add_zero a

theorem stepPtr_move (dec : Bool) (a : U16) (n : Nat) : stepPtr dec (move dec a n) = move dec a (n + 1) := by
  unfold stepPtr move
  rw [BitVec.ofNat_add]
  cases dec
  · exact BitVec.add_assoc _ _ _
  · show a - BitVec.ofNat 16 n - 1#16 = a - (BitVec.ofNat 16 n + 1#16)
    bv_omega

theorem sub_count {bc : U16} {n : Nat} (h1 : 1 ≤ n) (h : n < count16 bc) : bc - BitVec.ofNat 16 n ≠ 0#16 := by
  unfold count16 at h
  intro e
  have := congrArg BitVec.toNat e
  have hl := bc.isLt
  rw [BitVec.toNat_sub, BitVec.toNat_ofNat] at this
  split at h
  · next hz => subst hz; simp at this; omega
  · simp at this; omega

theorem count_sub (bc : U16) : bc - BitVec.ofNat 16 (count16 bc) = 0#16 := by
  unfold count16
  split
  · next h => subst h; rfl
  · rw [BitVec.ofNat_toNat]; simp

theorem count_pos (bc : U16) : 1 ≤ count16 bc := by
  unfold count16
  split
  · omega
  · next h =>
    have : bc.toNat ≠ 0 := fun e => h (BitVec.eq_of_toNat_eq e)
    omega

theorem sub_sub_one (bc : U16) (n : Nat) : bc - BitVec.ofNat 16 n - 1#16 = bc - BitVec.ofNat 16 (n + 1) := by
  rw [BitVec.ofNat_add]
  show bc - BitVec.ofNat 16 n - 1#16 = bc - (BitVec.ofNat 16 n + 1#16)
  bv_omega

/-- The machine `s` after `n ≥ 1` steps of LDIR or LDDR, BC then being `left`. -/
def ldState (dec : Bool) (s : Mach w I) (n : Nat) : Mach w I :=
  let left := s.r.bc - BitVec.ofNat 16 n
  let x := copied dec s.r.hl s.r.de s.mem (n - 1) (move dec s.r.hl (n - 1))
  { r := { s.r with
      b := hi8 left, c := lo8 left
      d := hi8 (move dec s.r.de n), e := lo8 (move dec s.r.de n)
      h := hi8 (move dec s.r.hl n), l := lo8 (move dec s.r.hl n)
      f := ldxFl s.r.a x (left ≠ 0#16) s.r.f
      pc := if left = 0#16 then s.r.pc + 2#16 else s.r.pc
      wz := if left = 0#16 ∧ n = 1 then s.r.wz else s.r.pc + 1#16
      r := Spec.refresh s.r.r (2 * n)
      ei := false, halted := false, idx := .hl, q := s.r.q.map fun _ => true }
    mem := copied dec s.r.hl s.r.de s.mem n
    io := s.io
    t := s.t + BitVec.ofNat w (21 * n - if left = 0#16 then 5 else 0) }

/-- The instruction is in memory at PC, also after the first `n - 1` copies. -/
def Intact (code : U8) (pc : U16) (mem : Nat → Mem) (n : Nat) : Prop :=
  ∀ k < n, mem k pc = 0xED#8 ∧ mem k (pc + 1#16) = code

theorem ldir_steps (o : Opt) (v : Env w O R I) (s : Mach w I) (dec : Bool) (hh : s.r.halted = false)
    (hq : Unasked v s.r.iff1) (n : Nat) (h1 : 1 ≤ n) (hn : n ≤ count16 s.r.bc)
    (hi : Intact (blkOp .ld dec true) s.r.pc (copied dec s.r.hl s.r.de s.mem) n) :
    steps o v n s = ldState dec s n := by
  induction n with
  | zero => omega
  | succ n ih =>
    have hi' := hi n (by omega)
    by_cases h0 : n = 0
    · subst h0
      show (step o v s).1 = _
      rw [step_ldx hh hq hi'.1 hi'.2]
      have m0 := move_zero dec s.r.hl
      have m1 := move_zero dec s.r.de
      have p0 := stepPtr_move dec s.r.hl 0
      have p1 := stepPtr_move dec s.r.de 0
      rw [m0] at p0
      rw [m1] at p1
      unfold ldState
      dsimp only
      rw [p0, p1]
      simp only [copied, m0, m1, blkRegs, Nat.zero_add, Nat.mul_one]
      by_cases hz : s.r.bc - 1#16 = 0#16
      · simp only [hz, true_and, ne_eq, not_true, and_true, if_true, if_false]
        rfl
      · simp only [hz, true_and, ne_eq, not_false_eq_true, if_true, if_false, false_and]
        rfl
    · have hl := sub_count (by omega) (show n < count16 s.r.bc by omega)
      rw [show steps o v (n + 1) s = (step o v (steps o v n s)).1 from rfl,
        ih (by omega) (by omega) fun k hk => hi k (by omega)]
      have hpc : (ldState dec s n).r.pc = s.r.pc := if_neg hl
      have hbc : (ldState dec s n).r.bc = s.r.bc - BitVec.ofNat 16 n := word_hi8_lo8 _
      have hde : (ldState dec s n).r.de = move dec s.r.de n := word_hi8_lo8 _
      have hhl : (ldState dec s n).r.hl = move dec s.r.hl n := word_hi8_lo8 _
      have ht : (ldState dec s n).t = s.t + BitVec.ofNat w (21 * n) := by
        unfold ldState
        dsimp only
        rw [if_neg hl]
        rfl
      rw [step_ldx (s := ldState dec s n) rfl hq (by rw [hpc]; exact hi'.1) (by rw [hpc]; exact hi'.2), hpc, hbc, hde, hhl, ht,
        sub_sub_one, stepPtr_move, stepPtr_move]
      have hm : (ldState dec s n).mem = copied dec s.r.hl s.r.de s.mem n := rfl
      have hq2 : (s.r.q.map fun _ => true).map (fun _ => true) = s.r.q.map fun _ => true := by
        cases s.r.q <;> rfl
      have hr : Spec.refresh (Spec.refresh s.r.r (2 * n)) 2 = Spec.refresh s.r.r (2 * (n + 1)) :=
        refresh_add _ _ _
      have hn : ¬ (n + 1 = 1) := by omega
      rw [hm]
      dsimp only
      rw [BitVec.add_assoc, ← BitVec.ofNat_add]
      simp only [ldState, blkRegs, hq2, hr, Nat.add_sub_cancel, copied]
      by_cases hz : s.r.bc - BitVec.ofNat 16 (n + 1) = 0#16
      · simp only [hz, ne_eq, not_true, and_false, if_true, if_false, hn, hl, false_and]
        rfl
      · simp only [hz, true_and, ne_eq, not_false_eq_true, if_true, if_false, false_and]
        rfl

/-- No interrupt gets in the way: interrupts are disabled, or no device requests one. -/
def Undisturbed (io : Handler (tsSig w O R) I) (c : Cpu Q) : Prop :=
  c.iff1 = false ∨ ∀ t i, devIrq io t i = (false, i)

/-- LDIR, and with `dec` LDDR: `execute_next` called `n` times, `n` being BC or 65536 if BC is 0, makes `n`
single byte copies in order. Afterwards BC is 0, HL and DE have moved by `n` and PC is past
the instruction; 21 T-states were spent on each copy but 16 on the last. It is enough that each time the
instruction is still there to be fetched. -/
theorem C21_run (io : Handler (tsSig w O R) I) (deb dec : Bool) (c : Cpu Q) (t : BitVec w) (m : Mem) (i : I)
    (hh : c.isHalt = false) (hq : Undisturbed io c) {n : Nat} (hn : n = count16 (c.getReg16 .BC))
    (hi : Intact (blkOp .ld dec true) c.getPc (copied dec (c.getReg16 .HL) (c.getReg16 .DE) m) n) :
    ∃ f wz, view (nextN io deb n c t m i) =
      { r := { ((abs c).setDe (move dec (c.getReg16 .DE) n)).setXhl .hl (move dec (c.getReg16 .HL) n) with
          b := 0, c := 0, f := f, wz := wz, pc := c.getPc + 2#16, r := Spec.refresh c.getR (2 * n)
          ei := false, halted := false, idx := .hl, q := (abs c).q.map fun _ => true }
        mem := copied dec (c.getReg16 .HL) (c.getReg16 .DE) m n
        io := i
        t := t + BitVec.ofNat w (21 * (n - 1) + 16) } ∧
      f = ldxFl c.getAcc (copied dec (c.getReg16 .HL) (c.getReg16 .DE) m (n - 1)
        (move dec (c.getReg16 .HL) (n - 1))) false (Fl.of c.getFlags) ∧
      wz = if n = 1 then c.memptr else c.getPc + 1#16 := by
  refine ⟨_, _, ?_, rfl, rfl⟩
  have h := ldir_steps (FlavourSpec.opt Q) (envOf io) ⟨abs c, m, i, t⟩ dec hh hq n
    (hn ▸ count_pos _) (Nat.le_of_eq hn) hi
  rw [view_nextN, h]
  have hz : (abs c).bc - BitVec.ofNat 16 n = 0#16 := by rw [hn]; exact count_sub _
  have h1 : 21 * n - 5 = 21 * (n - 1) + 16 := by
    have := count_pos (c.getReg16 .BC)
    omega
  unfold ldState
  dsimp only
  rw [hz]
  simp only [if_true, true_and, h1]
  rfl

theorem copied_outside (dec : Bool) (src dst : U16) (m : Mem) {n : Nat} {a : U16}
    (h : ∀ k < n, a ≠ move dec dst k) : copied dec src dst m n a = m a := by
  induction n with
  | zero => rfl
  | succ n ih =>
    show (if a = move dec dst n then _ else _) = _
    rw [if_neg (h n (by omega))]
    exact ih fun k hk => h k (by omega)

/-- A copy that does not write to the two bytes of the instruction leaves it intact. -/
theorem C21_intact (dec : Bool) (src dst pc : U16) (m : Mem) (n : Nat) (h1 : m pc = 0xED#8)
    (h2 : m (pc + 1#16) = blkOp .ld dec true)
    (h : ∀ k < n, pc ≠ move dec dst k ∧ pc + 1#16 ≠ move dec dst k) :
    Intact (blkOp .ld dec true) pc (copied dec src dst m) n := by
  intro k hk
  rw [copied_outside dec src dst m fun j hj => (h j (by omega)).1,
    copied_outside dec src dst m fun j hj => (h j (by omega)).2]
  exact ⟨h1, h2⟩

theorem move_inj {dec : Bool} {a : U16} {j k : Nat} (hj : j < 65536) (hk : k < 65536)
    (h : move dec a j = move dec a k) : j = k := by
  have ej : (BitVec.ofNat 16 j).toNat = j := by rw [BitVec.toNat_ofNat]; omega
  have ek : (BitVec.ofNat 16 k).toNat = k := by rw [BitVec.toNat_ofNat]; omega
  have : BitVec.ofNat 16 j = BitVec.ofNat 16 k := by
    unfold move at h
    cases dec
    · simpa using h
    · simp only [if_true] at h
      bv_omega
  have := congrArg BitVec.toNat this
  omega

/-- The result of the copies when no byte is read after it was written: memory from the destination on holds what
memory from the source on did before, and the rest is unchanged. -/
theorem C21_block (dec : Bool) (src dst : U16) (m : Mem) (n : Nat) (hn : n ≤ 65536)
    (h : ∀ k < n, ∀ j < k, move dec src k ≠ move dec dst j) :
    (∀ k < n, copied dec src dst m n (move dec dst k) = m (move dec src k)) ∧
      ∀ a, (∀ k < n, a ≠ move dec dst k) → copied dec src dst m n a = m a := by
  refine ⟨?_, fun a ha => copied_outside dec src dst m ha⟩
  induction n with
  | zero => intro k hk; omega
  | succ n ih =>
    intro k hk
    show (if move dec dst k = move dec dst n then _ else _) = _
    by_cases hkn : k = n
    · rw [if_pos (by rw [hkn]), hkn]
      exact copied_outside dec src dst m fun j hj => h n (by omega) j hj
    · rw [if_neg fun e => hkn (move_inj (by omega) (by omega) e)]
      exact ih (by omega) (fun k hk => h k (by omega)) k (by omega)

/-- With overlap, source one below the destination: LDIR fills the destination with the first byte. -/
theorem C21_fill (src : U16) (m : Mem) (n : Nat) :
    ∀ k < n, copied false src (src + 1#16) m n (move false (src + 1#16) k) = m src := by
  have key : ∀ n, copied false src (src + 1#16) m n (move false src n) = m src := by
    intro n
    induction n with
    | zero => exact congrArg m (BitVec.add_zero src)
    | succ n ih =>
      show (if move false src (n + 1) = move false (src + 1#16) n then _ else _) = _
      rw [if_pos]
      · exact ih
      · show src + BitVec.ofNat 16 (n + 1) = src + 1#16 + BitVec.ofNat 16 n
        rw [BitVec.ofNat_add]
        bv_omega
  induction n with
  | zero => intro k hk; omega
  | succ n ih =>
    intro k hk
    show (if move false (src + 1#16) k = move false (src + 1#16) n then _ else _) = _
    split
    · exact key n
    · next h => exact ih k (by rcases Nat.lt_succ_iff_lt_or_eq.1 hk with h' | h'; exact h'; exact absurd (by rw [h']) h)

/-- LDDR of three bytes within memory, across address 0: hypotheses met, and what happens. -/
example : let c : Cpu NMOS := { Cpu.new with
      pc := 0x8000#16, bc := ⟨0, 3⟩, hl := ⟨0, 1⟩, de := ⟨0x40, 0⟩ }
    let m : Mem := fun a => if a = 0x8000 then 0xED else if a = 0x8001 then 0xB8 else lo8 a
    let r := nextN (demoIo false 0 none none) false 3 c 0 m ()
    3 = count16 (c.getReg16 .BC) ∧ c.isHalt = false ∧ c.iff1 = false ∧
      (∀ k < 3, c.getPc ≠ move true (c.getReg16 .DE) k ∧ c.getPc + 1#16 ≠ move true (c.getReg16 .DE) k) ∧
      m c.getPc = 0xED#8 ∧ m (c.getPc + 1#16) = blkOp .ld true true ∧
      r.1.getPc = 0x8002#16 ∧ r.1.getReg16 .BC = 0#16 ∧ r.1.getReg16 .HL = 0xFFFE#16 ∧ r.2.1 = 58#16 ∧
      r.2.2.1 0x4000 = 1#8 ∧ r.2.2.1 0x3FFE = 0xFF#8 := by decide +kernel

/-! ## C22: CPIR and CPDR -/

/-- The machine `s` after `n ≥ 1` steps of CPIR or CPDR. -/
def cpState (dec : Bool) (s : Mach w I) (n : Nat) : Mach w I :=
  let left := s.r.bc - BitVec.ofNat 16 n
  let x := s.mem (move dec s.r.hl (n - 1))
  { s with
    r := { s.r with
      b := hi8 left, c := lo8 left
      h := hi8 (move dec s.r.hl n), l := lo8 (move dec s.r.hl n)
      f := cpxFl s.r.a x (left ≠ 0#16) s.r.f
      pc := if left ≠ 0#16 ∧ s.r.a ≠ x then s.r.pc else s.r.pc + 2#16
      wz := if left ≠ 0#16 ∧ s.r.a ≠ x then s.r.pc + 1#16 else
        stepPtr dec (if n = 1 then s.r.wz else s.r.pc + 1#16)
      r := Spec.refresh s.r.r (2 * n)
      ei := false, halted := false, idx := .hl, q := s.r.q.map fun _ => true }
    t := s.t + BitVec.ofNat w (21 * n - if left ≠ 0#16 ∧ s.r.a ≠ x then 0 else 5) }

theorem cpir_steps (o : Opt) (v : Env w O R I) (s : Mach w I) (dec : Bool) (hh : s.r.halted = false)
    (hq : Unasked v s.r.iff1) (n : Nat) (h1 : 1 ≤ n) (hn : n ≤ count16 s.r.bc)
    (hi : s.mem s.r.pc = 0xED#8 ∧ s.mem (s.r.pc + 1#16) = blkOp .cp dec true)
    (hx : ∀ k, k + 1 < n → s.r.a ≠ s.mem (move dec s.r.hl k)) :
    steps o v n s = cpState dec s n := by
  induction n with
  | zero => omega
  | succ n ih =>
    by_cases h0 : n = 0
    · subst h0
      show (step o v s).1 = _
      rw [step_cpx hh hq hi.1 hi.2]
      have m0 := move_zero dec s.r.hl
      have p0 := stepPtr_move dec s.r.hl 0
      rw [m0] at p0
      unfold cpState
      dsimp only
      rw [p0]
      simp only [m0, blkRegs, Nat.zero_add, Nat.mul_one, true_and, if_true]
      by_cases hz : s.r.bc - 1#16 ≠ 0#16 ∧ s.r.a ≠ s.mem s.r.hl
      · simp only [eq_true hz, if_true]
      · simp only [eq_false hz, if_false]
    · have hl := sub_count (by omega) (show n < count16 s.r.bc by omega)
      have hc : s.r.bc - BitVec.ofNat 16 n ≠ 0#16 ∧ s.r.a ≠ s.mem (move dec s.r.hl (n - 1)) :=
        ⟨hl, hx (n - 1) (by omega)⟩
      rw [show steps o v (n + 1) s = (step o v (steps o v n s)).1 from rfl,
        ih (by omega) (by omega) fun k hk => hx k (by omega)]
      have hpc : (cpState dec s n).r.pc = s.r.pc := if_pos hc
      have hwz : (cpState dec s n).r.wz = s.r.pc + 1#16 := if_pos hc
      have hbc : (cpState dec s n).r.bc = s.r.bc - BitVec.ofNat 16 n := word_hi8_lo8 _
      have hhl : (cpState dec s n).r.hl = move dec s.r.hl n := word_hi8_lo8 _
      have ht : (cpState dec s n).t = s.t + BitVec.ofNat w (21 * n) := by
        unfold cpState
        dsimp only
        rw [if_pos hc]
        rfl
      have hm : (cpState dec s n).mem = s.mem := rfl
      have ha : (cpState dec s n).r.a = s.r.a := rfl
      rw [step_cpx (s := cpState dec s n) rfl hq (by rw [hpc]; exact hi.1) (by rw [hpc]; exact hi.2), hpc, hbc, hhl,
        ht, hwz, hm, ha, sub_sub_one, stepPtr_move]
      have hq2 : (s.r.q.map fun _ => true).map (fun _ => true) = s.r.q.map fun _ => true := by
        cases s.r.q <;> rfl
      have hr : Spec.refresh (Spec.refresh s.r.r (2 * n)) 2 = Spec.refresh s.r.r (2 * (n + 1)) :=
        refresh_add _ _ _
      have hn : ¬ (n + 1 = 1) := by omega
      dsimp only
      rw [BitVec.add_assoc, ← BitVec.ofNat_add]
      simp only [cpState, blkRegs, hq2, hr, Nat.add_sub_cancel, true_and]
      by_cases hz : s.r.bc - BitVec.ofNat 16 (n + 1) ≠ 0#16 ∧ s.r.a ≠ s.mem (move dec s.r.hl n)
      · simp only [eq_true hz, if_true]
        rfl
      · simp only [eq_false hz, if_false, hn]
        rfl

/-- CPIR and CPDR stop after `n` bytes: none of the first `n - 1` is equal to A, and the `n`-th is or is the last. -/
structure Stops (dec : Bool) (a : U8) (hl bc : U16) (m : Mem) (n : Nat) : Prop where
  pos : 1 ≤ n
  le : n ≤ count16 bc
  before : ∀ k, k + 1 < n → a ≠ m (move dec hl k)
  last : n = count16 bc ∨ a = m (move dec hl (n - 1))

/-- There is exactly one such number. -/
theorem C22_stops (dec : Bool) (a : U8) (hl bc : U16) (m : Mem) :
    (∃ n, Stops dec a hl bc m n) ∧ ∀ n n', Stops dec a hl bc m n → Stops dec a hl bc m n' → n = n' := by
  constructor
  · have key : ∀ j ≤ count16 bc, (∃ n, Stops dec a hl bc m n) ∨ ∀ k < j, a ≠ m (move dec hl k) := by
      intro j
      induction j with
      | zero => exact fun _ => .inr fun k hk => absurd hk (Nat.not_lt_zero k)
      | succ j ih =>
        intro hj
        rcases ih (by omega) with h | h
        · exact .inl h
        · by_cases he : a = m (move dec hl j)
          · exact .inl ⟨j + 1, by omega, hj, fun k hk => h k (by omega), .inr he⟩
          · refine .inr fun k hk => ?_
            by_cases hkj : k = j
            · rw [hkj]; exact he
            · exact h k (by omega)
    rcases key _ (Nat.le_refl _) with h | h
    · exact h
    · exact ⟨_, count_pos bc, Nat.le_refl _, fun k hk => h k (by omega), .inl rfl⟩
  · have key : ∀ n n', Stops dec a hl bc m n → Stops dec a hl bc m n' → ¬ n < n' := by
      intro n n' h h' hlt
      have := h.pos
      rcases h.last with e | e
      · have := h'.le
        omega
      · exact h'.before (n - 1) (by omega) e
    intro n n' h h'
    have := key n n' h h'
    have := key n' n h' h
    omega

theorem cpx_z (a x : U8) (b : Bool) (f : Fl) : (cpxFl a x b f).z = decide (a = x) := by
  show decide ((BitVec.ofInt 8 ((a.toNat : Int) - x.toNat - (false.toNat : Nat))).toNat = 0) = _
  have ha := a.isLt
  have hx := x.isLt
  refine decide_eq_decide.2 ⟨fun h => BitVec.eq_of_toNat_eq ?_, fun h => ?_⟩
  · rw [BitVec.toNat_ofInt] at h
    have : false.toNat = 0 := rfl
    omega
  · subst h
    simp

/-- CPIR, and with `dec` CPDR, run to completion: the number `n` of bytes compared is the one at which
the comparison stops. Then Z tells whether the last byte compared is equal to A, P/V whether BC is
not 0; A, the carry flag and memory are unchanged; HL has moved by `n`, BC is less by `n`, PC is past the
instruction, and 21 T-states were spent on each byte but 16 on the last. -/
theorem C22_run (io : Handler (tsSig w O R) I) (deb dec : Bool) (c : Cpu Q) (t : BitVec w) (m : Mem) (i : I)
    (hh : c.isHalt = false) (hq : Undisturbed io c)
    (hi : m c.getPc = 0xED#8 ∧ m (c.getPc + 1#16) = blkOp .cp dec true) {n : Nat}
    (hn : Stops dec c.getAcc (c.getReg16 .HL) (c.getReg16 .BC) m n) :
    ∃ f, view (nextN io deb n c t m i) =
      { r := { ((abs c).setBc (c.getReg16 .BC - BitVec.ofNat 16 n)).setXhl .hl (move dec (c.getReg16 .HL) n) with
          f := f
          wz := stepPtr dec (if n = 1 then c.memptr else c.getPc + 1#16)
          pc := c.getPc + 2#16, r := Spec.refresh c.getR (2 * n)
          ei := false, halted := false, idx := .hl, q := (abs c).q.map fun _ => true }
        mem := m
        io := i
        t := t + BitVec.ofNat w (21 * (n - 1) + 16) } ∧
      f = cpxFl c.getAcc (m (move dec (c.getReg16 .HL) (n - 1))) (decide (n ≠ count16 (c.getReg16 .BC)))
        (Fl.of c.getFlags) ∧
      f.z = decide (c.getAcc = m (move dec (c.getReg16 .HL) (n - 1))) ∧
      f.pv = decide (c.getReg16 .BC - BitVec.ofNat 16 n ≠ 0#16) ∧ f.c = (Fl.of c.getFlags).c := by
  have hd : decide (n ≠ count16 (c.getReg16 .BC)) = decide (c.getReg16 .BC - BitVec.ofNat 16 n ≠ 0#16) := by
    by_cases he : n = count16 (c.getReg16 .BC)
    · have hz : c.getReg16 .BC - BitVec.ofNat 16 n = 0#16 := by rw [he]; exact count_sub _
      simp [he, count_sub]
    · have hl := sub_count (bc := c.getReg16 .BC) hn.pos (Nat.lt_of_le_of_ne hn.le he)
      rw [decide_eq_true he, decide_eq_true hl]
  refine ⟨_, ?_, rfl, cpx_z _ _ _ _, hd, rfl⟩
  have h := cpir_steps (FlavourSpec.opt Q) (envOf io) ⟨abs c, m, i, t⟩ dec hh hq n hn.pos hn.le hi hn.before
  have hz : ¬ ((abs c).bc - BitVec.ofNat 16 n ≠ 0#16 ∧ (abs c).a ≠ m (move dec (abs c).hl (n - 1))) := by
    rintro ⟨h1, h2⟩
    rcases hn.last with e | e
    · exact h1 (by rw [e]; exact count_sub _)
    · exact h2 e
  have h1 : 21 * n - 5 = 21 * (n - 1) + 16 := by
    have := hn.pos
    omega
  rw [view_nextN, h, hd]
  unfold cpState
  dsimp only
  simp only [eq_false hz, if_false, h1]
  rfl

/-- CPIR finding the third of four bytes. -/
example : let c : Cpu NMOS := { Cpu.new with
      pc := 0x8000#16, bc := ⟨0, 4⟩, hl := ⟨0x40, 0⟩, af := ⟨2, 1⟩ }
    let m : Mem := fun a => if a = 0x8000 then 0xED else if a = 0x8001 then 0xB1 else lo8 a
    let r := nextN (demoIo false 0 none none) false 3 c 0 m ()
    Stops false c.getAcc (c.getReg16 .HL) (c.getReg16 .BC) m 3 ∧
      r.1.getPc = 0x8002#16 ∧ r.1.getReg16 .BC = 1#16 ∧ r.1.getReg16 .HL = 0x4003#16 ∧ r.2.1 = 58#16 ∧
      r.1.getFlags = 0x47#8 := by
  refine ⟨⟨by decide, by decide +kernel, fun k hk => ?_, .inr (by decide +kernel)⟩, by decide +kernel⟩
  have : k = 0 ∨ k = 1 := by omega
  rcases this with rfl | rfl <;> decide +kernel

/-! ## C23: INIR, INDR, OTIR and OTDR -/

/-- How often an instruction counting B down is repeated. -/
def count8 (b : U8) : Nat := if b = 0 then 256 else b.toNat

theorem sub_count8 {b : U8} {n : Nat} (h1 : 1 ≤ n) (h : n < count8 b) : b - BitVec.ofNat 8 n ≠ 0#8 := by
  unfold count8 at h
  intro e
  have := congrArg BitVec.toNat e
  have hl := b.isLt
  rw [BitVec.toNat_sub, BitVec.toNat_ofNat] at this
  split at h
  · next hz => subst hz; simp at this; omega
  · simp at this; omega

theorem count8_sub (b : U8) : b - BitVec.ofNat 8 (count8 b) = 0#8 := by
  unfold count8
  split
  · next h => subst h; rfl
  · rw [BitVec.ofNat_toNat]; simp

theorem count8_pos (b : U8) : 1 ≤ count8 b := by
  unfold count8
  split
  · omega
  · next h =>
    have : b.toNat ≠ 0 := fun e => h (BitVec.eq_of_toNat_eq e)
    omega

theorem sub_sub_one8 (b : U8) (n : Nat) : b - BitVec.ofNat 8 n - 1#8 = b - BitVec.ofNat 8 (n + 1) := by
  rw [BitVec.ofNat_add]
  show b - BitVec.ofNat 8 n - 1#8 = b - (BitVec.ofNat 8 n + 1#8)
  bv_omega

/-- Memory, devices and time while a block is transferred. -/
structure Xfer (w : Nat) (I : Type) where
  mem : Mem
  io : I
  t : BitVec w

/-- The access number `k` of a block input: port B counted down from its initial value, C. -/
def inAt (v : Env w O R I) (b c : U8) (q : Xfer w I) (k : Nat) : (U8 × Option U16) × I :=
  v.inp (word (b - BitVec.ofNat 8 k) c) (q.t + BitVec.ofNat w 10) q.io

/-- The first `n` accesses of a block input of `b` bytes (256 if 0) in order; each byte is stored at the next address. -/
def inputs (v : Env w O R I) (dec : Bool) (b c : U8) (hl : U16) (q : Xfer w I) : Nat → Xfer w I
  | 0 => q
  | k + 1 =>
    let q' := inputs v dec b c hl q k
    let p := inAt v b c q' k
    ⟨q'.mem.set (move dec hl k) p.1.1, p.2, withWait q'.t (if k + 1 = count8 b then 16 else 21) p.1.2⟩

/-- The access number `k` of a block output: port B counted down and C, the byte at the next address. -/
def outAt (v : Env w O R I) (dec : Bool) (b c : U8) (hl : U16) (q : Xfer w I) (k : Nat) : (Option O × Option U16) × I :=
  v.out (word (b - BitVec.ofNat 8 (k + 1)) c) (q.mem (move dec hl k)) (q.t + BitVec.ofNat w 13) q.io

/-- The first `n` accesses of a block output of `b` bytes (256 if 0) in order. -/
def outputs (v : Env w O R I) (dec : Bool) (b c : U8) (hl : U16) (q : Xfer w I) : Nat → Xfer w I
  | 0 => q
  | k + 1 =>
    let q' := outputs v dec b c hl q k
    let p := outAt v dec b c hl q' k
    ⟨q'.mem, p.2, withWait q'.t (if k + 1 = count8 b then 16 else 21) p.1.2⟩

/-- The transfer state of a machine. -/
def Xfer.of (s : Mach w I) : Xfer w I := ⟨s.mem, s.io, s.t⟩

/-- The machine `s` after `n ≥ 1` steps of a block transfer that left `q`; `f` are the flags and `wz` is MEMPTR. -/
def ioState (dec : Bool) (s : Mach w I) (n : Nat) (f : Fl) (wz : U16) (q : Xfer w I) : Mach w I :=
  { r := { s.r with
      b := s.r.b - BitVec.ofNat 8 n
      h := hi8 (move dec s.r.hl n), l := lo8 (move dec s.r.hl n)
      f := f
      pc := if n = count8 s.r.b then s.r.pc + 2#16 else s.r.pc
      wz := wz
      r := Spec.refresh s.r.r (2 * n)
      ei := false, halted := false, idx := .hl, q := s.r.q.map fun _ => true }
    mem := q.mem
    io := q.io
    t := q.t }

/-- After `n ≥ 1` steps of INIR or INDR. -/
def inState (v : Env w O R I) (dec : Bool) (s : Mach w I) (n : Nat) : Mach w I :=
  ioState dec s n
    (ioxFl (inAt v s.r.b s.r.c (inputs v dec s.r.b s.r.c s.r.hl (.of s) (n - 1)) (n - 1)).1.1
      (s.r.b - BitVec.ofNat 8 n) (if dec then s.r.c - 1 else s.r.c + 1))
    (stepPtr dec (word (s.r.b - BitVec.ofNat 8 (n - 1)) s.r.c))
    (inputs v dec s.r.b s.r.c s.r.hl (.of s) n)

/-- After `n ≥ 1` steps of OTIR or OTDR. -/
def outState (v : Env w O R I) (dec : Bool) (s : Mach w I) (n : Nat) : Mach w I :=
  ioState dec s n
    (ioxFl (s.mem (move dec s.r.hl (n - 1))) (s.r.b - BitVec.ofNat 8 n) (lo8 (move dec s.r.hl n)))
    (stepPtr dec (word (s.r.b - BitVec.ofNat 8 n) s.r.c))
    (outputs v dec s.r.b s.r.c s.r.hl (.of s) n)

theorem more_ite {α : Type} {b : U8} {n : Nat} (h1 : 1 ≤ n) (h : n ≤ count8 b) (x y : α) :
    (if true = true ∧ b - BitVec.ofNat 8 n ≠ 0#8 then x else y) = if n = count8 b then y else x := by
  by_cases he : n = count8 b
  · rw [if_pos he, if_neg]
    rw [he, count8_sub]
    simp
  · rw [if_neg he, if_pos]
    exact ⟨rfl, sub_count8 h1 (Nat.lt_of_le_of_ne h he)⟩

/-- The machine `s` in the course of a block transfer, before the next step. -/
def ioPre (dec : Bool) (s : Mach w I) (n : Nat) (f : Fl) (wz : U16) (ei : Bool) (idx : Ix) (g : Option Bool)
    (q : Xfer w I) : Mach w I :=
  { r := { s.r with
      b := s.r.b - BitVec.ofNat 8 n
      h := hi8 (move dec s.r.hl n), l := lo8 (move dec s.r.hl n)
      f := f, wz := wz, r := Spec.refresh s.r.r (2 * n), ei := ei, halted := false, idx := idx, q := g }
    mem := q.mem
    io := q.io
    t := q.t }

theorem ioPre_zero (dec : Bool) {s : Mach w I} (hh : s.r.halted = false) :
    s = ioPre dec s 0 s.r.f s.r.wz s.r.ei s.r.idx s.r.q (.of s) := by
  have m0 := move_zero dec s.r.hl
  unfold ioPre
  rw [m0, show s.r.b - BitVec.ofNat 8 0 = s.r.b from BitVec.sub_zero _,
    show Spec.refresh s.r.r (2 * 0) = s.r.r from refresh_zero _, ← hh,
    show hi8 s.r.hl = s.r.h from hi8_word _ _, show lo8 s.r.hl = s.r.l from lo8_word _ _]
  rfl

theorem ioPre_succ (dec : Bool) (s : Mach w I) {n : Nat} (f : Fl) (wz : U16) (q : Xfer w I) (hn : n ≠ count8 s.r.b) :
    ioState dec s n f wz q = ioPre dec s n f wz false .hl (s.r.q.map fun _ => true) q := by
  unfold ioState ioPre
  rw [if_neg hn]

theorem ioPre_finish (dec : Bool) (s : Mach w I) (n : Nat) (f f' : Fl) (wz wz' : U16) (ei : Bool) (idx : Ix)
    (g : Option Bool) (q q' : Xfer w I) (hg : g.map (fun _ => true) = s.r.q.map fun _ => true) :
    ({ r := blkRegs { (ioPre dec s n f wz ei idx g q).r with
          b := s.r.b - BitVec.ofNat 8 (n + 1)
          h := hi8 (move dec s.r.hl (n + 1)), l := lo8 (move dec s.r.hl (n + 1))
          f := f'
          pc := if n + 1 = count8 s.r.b then s.r.pc + 2#16 else s.r.pc
          wz := wz' }
       mem := q'.mem, io := q'.io, t := q'.t } : Mach w I) = ioState dec s (n + 1) f' wz' q' := by
  have hr : Spec.refresh (Spec.refresh s.r.r (2 * n)) 2 = Spec.refresh s.r.r (2 * (n + 1)) :=
    refresh_add _ _ _
  simp only [ioPre, ioState, blkRegs, hr, hg]

theorem in_next (o : Opt) (v : Env w O R I) (s : Mach w I) (dec : Bool) (hq : Unasked v s.r.iff1) (n : Nat)
    (hn : n + 1 ≤ count8 s.r.b) (f : Fl) (wz : U16) (ei : Bool) (idx : Ix) (g : Option Bool)
    (hg : g.map (fun _ => true) = s.r.q.map fun _ => true)
    (hi : (inputs v dec s.r.b s.r.c s.r.hl (.of s) n).mem s.r.pc = 0xED#8 ∧
      (inputs v dec s.r.b s.r.c s.r.hl (.of s) n).mem (s.r.pc + 1#16) = blkOp .inp dec true) :
    (step o v (ioPre dec s n f wz ei idx g (inputs v dec s.r.b s.r.c s.r.hl (.of s) n))).1 =
      inState v dec s (n + 1) := by
  rw [step_inx (s := ioPre dec s n f wz ei idx g _) rfl hq hi.1 hi.2]
  have hb : ∀ q, (ioPre dec s n f wz ei idx g q).r.b = s.r.b - BitVec.ofNat 8 n := fun _ => rfl
  have hhl : ∀ q, (ioPre dec s n f wz ei idx g q).r.hl = move dec s.r.hl n := fun _ => word_hi8_lo8 _
  rw [hhl, hb, stepPtr_move, sub_sub_one8]
  dsimp only
  rw [more_ite (by omega) hn, more_ite (by omega) hn]
  exact ioPre_finish dec s n f _ wz _ ei idx g _ (inputs v dec s.r.b s.r.c s.r.hl (.of s) (n + 1)) hg

theorem out_next (o : Opt) (v : Env w O R I) (s : Mach w I) (dec : Bool) (hq : Unasked v s.r.iff1) (n : Nat)
    (hn : n + 1 ≤ count8 s.r.b) (f : Fl) (wz : U16) (ei : Bool) (idx : Ix) (g : Option Bool)
    (hg : g.map (fun _ => true) = s.r.q.map fun _ => true)
    (hm : (outputs v dec s.r.b s.r.c s.r.hl (.of s) n).mem = s.mem)
    (hi : s.mem s.r.pc = 0xED#8 ∧ s.mem (s.r.pc + 1#16) = blkOp .out dec true) :
    (step o v (ioPre dec s n f wz ei idx g (outputs v dec s.r.b s.r.c s.r.hl (.of s) n))).1 =
      outState v dec s (n + 1) := by
  rw [step_outx (s := ioPre dec s n f wz ei idx g _) rfl hq ((congrFun hm _).trans hi.1)
    ((congrFun hm _).trans hi.2)]
  have hb : ∀ q, (ioPre dec s n f wz ei idx g q).r.b = s.r.b - BitVec.ofNat 8 n := fun _ => rfl
  have hhl : ∀ q, (ioPre dec s n f wz ei idx g q).r.hl = move dec s.r.hl n := fun _ => word_hi8_lo8 _
  rw [hhl, hb, stepPtr_move, sub_sub_one8]
  dsimp only
  rw [more_ite (by omega) hn, more_ite (by omega) hn]
  unfold outState
  rw [← hm]
  exact ioPre_finish dec s n f _ wz _ ei idx g _ (outputs v dec s.r.b s.r.c s.r.hl (.of s) (n + 1)) hg

theorem inir_steps (o : Opt) (v : Env w O R I) (s : Mach w I) (dec : Bool) (hh : s.r.halted = false)
    (hq : Unasked v s.r.iff1) (n : Nat) (h1 : 1 ≤ n) (hn : n ≤ count8 s.r.b)
    (hi : Intact (blkOp .inp dec true) s.r.pc
      (fun k => (inputs v dec s.r.b s.r.c s.r.hl (.of s) k).mem) n) :
    steps o v n s = inState v dec s n := by
  induction n with
  | zero => omega
  | succ n ih =>
    have hi' := hi n (by omega)
    by_cases h0 : n = 0
    · subst h0
      show (step o v s).1 = _
      have := in_next o v s dec hq 0 hn s.r.f s.r.wz s.r.ei s.r.idx s.r.q rfl hi'
      rw [show inputs v dec s.r.b s.r.c s.r.hl (.of s) 0 = .of s from rfl, ← ioPre_zero dec hh] at this
      exact this
    · rw [show steps o v (n + 1) s = (step o v (steps o v n s)).1 from rfl,
        ih (by omega) (by omega) fun k hk => hi k (by omega)]
      unfold inState
      rw [ioPre_succ dec s _ _ _ (by omega)]
      exact in_next o v s dec hq n hn _ _ _ _ _ (by cases s.r.q <;> rfl) hi'

theorem outputs_mem (v : Env w O R I) (dec : Bool) (b c : U8) (hl : U16) (q : Xfer w I) (n : Nat) :
    (outputs v dec b c hl q n).mem = q.mem := by
  induction n with
  | zero => rfl
  | succ n ih => exact ih

theorem otir_steps (o : Opt) (v : Env w O R I) (s : Mach w I) (dec : Bool) (hh : s.r.halted = false)
    (hq : Unasked v s.r.iff1) (n : Nat) (h1 : 1 ≤ n) (hn : n ≤ count8 s.r.b)
    (hi : s.mem s.r.pc = 0xED#8 ∧ s.mem (s.r.pc + 1#16) = blkOp .out dec true) :
    steps o v n s = outState v dec s n := by
  induction n with
  | zero => omega
  | succ n ih =>
    have hm : ∀ n, (outputs v dec s.r.b s.r.c s.r.hl (.of s) n).mem = s.mem := fun n => outputs_mem _ _ _ _ _ _ n
    by_cases h0 : n = 0
    · subst h0
      show (step o v s).1 = _
      have := out_next o v s dec hq 0 hn s.r.f s.r.wz s.r.ei s.r.idx s.r.q rfl (hm 0) hi
      rw [show outputs v dec s.r.b s.r.c s.r.hl (.of s) 0 = .of s from rfl, ← ioPre_zero dec hh] at this
      exact this
    · rw [show steps o v (n + 1) s = (step o v (steps o v n s)).1 from rfl, ih (by omega) (by omega)]
      unfold outState
      rw [ioPre_succ dec s _ _ _ (by omega)]
      exact out_next o v s dec hq n hn _ _ _ _ _ (by cases s.r.q <;> rfl) (hm n) hi

/-- The transfer state at the start. -/
def Xfer.start (t : BitVec w) (m : Mem) (i : I) : Xfer w I := ⟨m, i, t⟩

/-- The registers after a block transfer of all `n` bytes. -/
def ioRegs (dec : Bool) (c : Cpu Q) (n : Nat) (f : Fl) (wz : U16) : Regs :=
  { (abs c).setXhl .hl (move dec (c.getReg16 .HL) n) with
    b := 0, f := f, wz := wz, pc := c.getPc + 2#16, r := Spec.refresh c.getR (2 * n)
    ei := false, halted := false, idx := .hl, q := (abs c).q.map fun _ => true }

theorem iox_z (x m : U8) : (ioxFl x 0#8 m).z = true := rfl

/-- INIR, and with `dec` INDR: `execute_next` called `n` times, `n` being B or 256 if B is 0, makes `n` port
reads in order, each from the port given by C and what is left of B, and stores the bytes one after the other from
HL on; nothing else is asked of the devices. Then B is 0, Z is set, HL has moved by `n` and PC
is past the instruction. -/
theorem C23_in (io : Handler (tsSig w O R) I) (deb dec : Bool) (c : Cpu Q) (t : BitVec w) (m : Mem) (i : I)
    (hh : c.isHalt = false) (hq : Undisturbed io c) {n : Nat} (hn : n = count8 c.bc.hi)
    (q : Nat → Xfer w I) (hd : q = inputs (envOf io) dec c.bc.hi c.bc.lo (c.getReg16 .HL) (.start t m i))
    (hi : Intact (blkOp .inp dec true) c.getPc (fun k => (q k).mem) n) :
    ∃ f wz, view (nextN io deb n c t m i) = ⟨ioRegs dec c n f wz, (q n).mem, (q n).io, (q n).t⟩ ∧
      f.z = true ∧ f = ioxFl (inAt (envOf io) c.bc.hi c.bc.lo (q (n - 1)) (n - 1)).1.1 0#8
        (if dec then c.bc.lo - 1#8 else c.bc.lo + 1#8) ∧ wz = stepPtr dec (word 1#8 c.bc.lo) := by
  subst hd
  have h := inir_steps (FlavourSpec.opt Q) (envOf io) ⟨abs c, m, i, t⟩ dec hh hq n
    (hn ▸ count8_pos _) (Nat.le_of_eq hn) hi
  have hz : (abs c).b - BitVec.ofNat 8 n = 0#8 := by rw [hn]; exact count8_sub _
  have hz1 : (abs c).b - BitVec.ofNat 8 (n - 1) = 1#8 := by
    have := sub_sub_one8 (abs c).b (n - 1)
    rw [show n - 1 + 1 = n by have := count8_pos c.bc.hi; omega, hz] at this
    bv_omega
  refine ⟨_, _, ?_, iox_z _ _, rfl, rfl⟩
  rw [view_nextN, h]
  unfold inState ioState
  dsimp only
  rw [if_pos (show n = count8 (abs c).b from hn), hz, hz1]
  rfl

/-- OTIR, and with `dec` OTDR: `n` port writes in order, of the bytes one after the other from HL on, each to the port
given by C and what is left of B after counting down. -/
theorem C23_out (io : Handler (tsSig w O R) I) (deb dec : Bool) (c : Cpu Q) (t : BitVec w) (m : Mem) (i : I)
    (hh : c.isHalt = false) (hq : Undisturbed io c) {n : Nat} (hn : n = count8 c.bc.hi)
    (q : Nat → Xfer w I) (hd : q = outputs (envOf io) dec c.bc.hi c.bc.lo (c.getReg16 .HL) (.start t m i))
    (hi : m c.getPc = 0xED#8 ∧ m (c.getPc + 1#16) = blkOp .out dec true) :
    ∃ f wz, view (nextN io deb n c t m i) = ⟨ioRegs dec c n f wz, m, (q n).io, (q n).t⟩ ∧
      f.z = true ∧ f = ioxFl (m (move dec (c.getReg16 .HL) (n - 1))) 0#8 (lo8 (move dec (c.getReg16 .HL) n)) ∧
      wz = stepPtr dec (word 0#8 c.bc.lo) := by
  subst hd
  have h := otir_steps (FlavourSpec.opt Q) (envOf io) ⟨abs c, m, i, t⟩ dec hh hq n
    (hn ▸ count8_pos _) (Nat.le_of_eq hn) hi
  have hz : (abs c).b - BitVec.ofNat 8 n = 0#8 := by rw [hn]; exact count8_sub _
  refine ⟨_, _, ?_, iox_z _ _, rfl, rfl⟩
  rw [view_nextN, h]
  unfold outState ioState
  dsimp only
  rw [if_pos (show n = count8 (abs c).b from hn), hz, outputs_mem]
  rfl

/-- The ports of a block input and of a block output, and the bytes of the latter. -/
def inPorts (b c : U8) (n : Nat) : List U16 := (List.range n).map fun k => word (b - BitVec.ofNat 8 k) c
/-- See `inPorts`. -/
def outData (dec : Bool) (b c : U8) (hl : U16) (m : Mem) (n : Nat) : List (U16 × U8) :=
  (List.range n).map fun k => (word (b - BitVec.ofNat 8 (k + 1)) c, m (move dec hl k))

/-- Devices that keep a list of the ports read end with exactly the ports of the transfer added, in
order; the byte the k-th read was answered with is at the k-th address; the rest of memory is unchanged. -/
theorem C23_in_log (v : Env w O R I) (dec : Bool) (b c : U8) (hl : U16) (q : Xfer w I) (log : I → List U16)
    (hl' : ∀ a t i, log (v.inp a t i).2 = log i ++ [a]) (n : Nat) (hn : n ≤ count8 b) :
    log (inputs v dec b c hl q n).io = log q.io ++ inPorts b c n ∧
      (∀ k < n, (inputs v dec b c hl q n).mem (move dec hl k) = (inAt v b c (inputs v dec b c hl q k) k).1.1) ∧
      ∀ a, (∀ k < n, a ≠ move dec hl k) → (inputs v dec b c hl q n).mem a = q.mem a := by
  have hc : count8 b ≤ 256 := by
    unfold count8
    have := b.isLt
    split <;> omega
  induction n with
  | zero =>
    refine ⟨(List.append_nil _).symm, fun k hk => ?_, fun a _ => rfl⟩
    omega
  | succ n ih =>
    obtain ⟨h1, h2, h3⟩ := ih (by omega)
    refine ⟨?_, fun k hk => ?_, fun a ha => ?_⟩
    · show log (v.inp _ _ _).2 = _
      rw [hl', h1, List.append_assoc]
      unfold inPorts
      rw [List.range_succ, List.map_append]
      rfl
    · show (if move dec hl k = move dec hl n then _ else _) = _
      by_cases hkn : k = n
      · rw [if_pos (by rw [hkn]), hkn]
      · rw [if_neg fun e => hkn (move_inj (by omega) (by omega) e)]
        exact h2 k (by omega)
    · show (if a = move dec hl n then _ else _) = _
      rw [if_neg (ha n (by omega))]
      exact h3 a fun k hk => ha k (by omega)

/-- Devices that keep a list of the writes end with exactly the writes of the transfer added, in order. -/
theorem C23_out_log (v : Env w O R I) (dec : Bool) (b c : U8) (hl : U16) (q : Xfer w I) (log : I → List (U16 × U8))
    (hl' : ∀ a x t i, log (v.out a x t i).2 = log i ++ [(a, x)]) (n : Nat) :
    log (outputs v dec b c hl q n).io = log q.io ++ outData dec b c hl q.mem n := by
  induction n with
  | zero => exact (List.append_nil _).symm
  | succ n ih =>
    show log (v.out _ _ _ _).2 = _
    rw [hl', ih, List.append_assoc, outputs_mem]
    unfold outData
    rw [List.range_succ, List.map_append]
    rfl

/-- Without wait states a transfer of all bytes takes 21 T-states for each byte but 16 for the last. -/
theorem C23_time (v : Env w O R I) (dec : Bool) (b c : U8) (hl : U16) (q : Xfer w I) :
    ((∀ a t i, (v.inp a t i).1.2 = none) →
      (inputs v dec b c hl q (count8 b)).t = q.t + BitVec.ofNat w (21 * (count8 b - 1) + 16)) ∧
    ((∀ a x t i, (v.out a x t i).1.2 = none) →
      (outputs v dec b c hl q (count8 b)).t = q.t + BitVec.ofNat w (21 * (count8 b - 1) + 16)) := by
  have hw : ∀ (t : BitVec w) n, withWait t n none = t + BitVec.ofNat w n := fun _ _ => rfl
  have hp := count8_pos b
  have hs : count8 b = count8 b - 1 + 1 := by omega
  constructor
  · intro h
    have key : ∀ n, n < count8 b → (inputs v dec b c hl q n).t = q.t + BitVec.ofNat w (21 * n) := by
      intro n
      induction n with
      | zero => exact fun _ => (BitVec.add_zero _).symm
      | succ n ih =>
        intro hn
        show withWait _ (if n + 1 = count8 b then 16 else 21) (v.inp _ _ _).1.2 = _
        rw [h, hw, if_neg (by omega), ih (by omega), BitVec.add_assoc, ← BitVec.ofNat_add]
        rfl
    have e : (inputs v dec b c hl q (count8 b - 1 + 1)).t =
        q.t + BitVec.ofNat w (21 * (count8 b - 1) + 16) := by
      show withWait _ (if count8 b - 1 + 1 = count8 b then 16 else 21) (v.inp _ _ _).1.2 = _
      rw [h, hw, if_pos hs.symm, key _ (by omega), BitVec.add_assoc, ← BitVec.ofNat_add]
    rwa [← hs] at e
  · intro h
    have key : ∀ n, n < count8 b → (outputs v dec b c hl q n).t = q.t + BitVec.ofNat w (21 * n) := by
      intro n
      induction n with
      | zero => exact fun _ => (BitVec.add_zero _).symm
      | succ n ih =>
        intro hn
        show withWait _ (if n + 1 = count8 b then 16 else 21) (v.out _ _ _ _).1.2 = _
        rw [h, hw, if_neg (by omega), ih (by omega), BitVec.add_assoc, ← BitVec.ofNat_add]
        rfl
    have e : (outputs v dec b c hl q (count8 b - 1 + 1)).t =
        q.t + BitVec.ofNat w (21 * (count8 b - 1) + 16) := by
      show withWait _ (if count8 b - 1 + 1 = count8 b then 16 else 21) (v.out _ _ _ _).1.2 = _
      rw [h, hw, if_pos hs.symm, key _ (by omega), BitVec.add_assoc, ← BitVec.ofNat_add]
    rwa [← hs] at e

/-- Devices that list the ports read and the bytes written, and answer reads with the number of entries. -/
def logIo : Handler (tsSig 16 Unit Unit) (List U16 × List (U16 × U8)) := fun r i =>
  match r with
  | .readIo a _ => ((BitVec.ofNat 8 i.1.length, none), (i.1 ++ [a], i.2))
  | .writeIo a x _ => ((none, none), (i.1, i.2 ++ [(a, x)]))
  | r => ((demoIo false 0 none none r ()).1, i)

/-- Three bytes with INIR and three with OTIR: the hypotheses are met. -/
example : let c : Cpu NMOS := { Cpu.new with pc := 0x8000#16, bc := ⟨3, 0xFE⟩, hl := ⟨0xFF, 0xFE⟩ }
    let m := fun k : U8 => (fun a => if a = 0x8000 then 0xED else if a = 0x8001 then k else lo8 a : Mem)
    let r := nextN logIo false 3 c 0 (m 0xB2) ([], [])
    let r' := nextN logIo false 3 c 0 (m 0xB3) ([], [])
    3 = count8 c.bc.hi ∧ c.isHalt = false ∧ c.iff1 = false ∧
      (∀ k < 3, (inputs (envOf logIo) false 3 0xFE 0xFFFE (.start 0 (m 0xB2) ([], [])) k).mem 0x8000 = 0xED#8) ∧
      (∀ k < 3, (inputs (envOf logIo) false 3 0xFE 0xFFFE (.start 0 (m 0xB2) ([], [])) k).mem 0x8001 = 0xB2#8) ∧
      r.1.getPc = 0x8002#16 ∧ r.2.2.2.1 = [0x03FE#16, 0x02FE#16, 0x01FE#16] ∧ r.2.2.1 0 = 2#8 ∧ r.2.1 = 58#16 ∧
      r'.1.getPc = 0x8002#16 ∧ r'.2.2.2.2 = [(0x02FE#16, 0xFE#8), (0x01FE#16, 0xFF#8), (0x00FE#16, 0#8)] := by
  decide +kernel

/-- `logIo` keeps lists as `C23_in_log` and `C23_out_log` ask. -/
example : (∀ a t i, ((envOf logIo).inp a t i).2.1 = i.1 ++ [a]) ∧
    (∀ a x t i, ((envOf logIo).out a x t i).2.2 = i.2 ++ [(a, x)]) ∧
    (∀ a t i, ((envOf logIo).inp a t i).1.2 = none) := ⟨fun _ _ _ => rfl, fun _ _ _ _ => rfl, fun _ _ _ => rfl⟩

end Z80
