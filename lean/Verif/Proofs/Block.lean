import Verif.Proofs.Ram
import Verif.Proofs.Ctl

/-!
# Steps of the block instructions on the specified machine
-/

namespace Z80
open Spec
variable {w : Nat} {O R I : Type}

/-- No interrupt is accepted: the CPU accepts none, or the devices request none (and asking them changes
nothing). -/
def Unasked (v : Env w O R I) (iff1 : Bool) : Prop := iff1 = false ∨ ∀ t i, v.irq t i = (false, i)

theorem step_quiet {o : Opt} {v : Env w O R I} {s : Mach w I} (hh : s.r.halted = false)
    (hq : Unasked v s.r.iff1) : step o v s = execOp o v s.imm8 (fetch s) := by
  unfold step
  simp only [hh]
  rcases hq with hq | hq
  · have : irqOk s.r = false := by unfold irqOk; rw [hq]; rfl
    simp [this]
  · simp [hq]

theorem bumpR2 (r : Regs) : r.bumpR.bumpR = { r with r := Spec.refresh r.r 2 } := by
  have h : ∀ q : Regs, q.bumpR = { q with r := Spec.refresh q.r 1 } := by
    intro q
    have : (q.r.toNat % 128 + 1) % 128 = (q.r.toNat + 1) % 128 := by omega
    unfold Regs.bumpR Spec.refresh
    rw [this]
  rw [h, h]
  show ({ r with r := Spec.refresh (Spec.refresh r.r 1) 1 } : Regs) = _
  rw [refresh_add]

/-- The machine when the two opcode bytes of an ED instruction have been fetched. -/
def fetched2 (s : Mach w I) : Mach w I :=
  { s with
    r := { s.r with ei := false, halted := false, pc := s.r.pc + 2#16, r := Spec.refresh s.r.r 2 }
    t := s.t + BitVec.ofNat w 4 }

theorem step_ed {o : Opt} {v : Env w O R I} {s : Mach w I} {b : U8} (hh : s.r.halted = false)
    (hq : Unasked v s.r.iff1) (h1 : s.mem s.r.pc = 0xED#8) (h2 : s.mem (s.r.pc + 1#16) = b) :
    step o v s =
      (execEd o v (decodeEd b) (fetched2 s)).finish (fEd (decodeEd b))
        (tEd (decodeEd b) (execEd o v (decodeEd b) (fetched2 s)).2.1 - 4) := by
  rw [step_quiet hh hq]
  have hi : s.imm8 = 0xED#8 := h1
  have hd : decode 0xED#8 = .ed := by decide
  rw [hi]
  unfold execOp
  rw [hd]
  dsimp only
  have hj : (Mach.upd (fetch s) fun r => { r with ei := false, halted := false }).imm8 = b := h2
  have hf : ((Mach.upd (fetch s) fun r => { r with ei := false, halted := false }).skip 1).upd Regs.bumpR =
      fetched2 s := by
    have e : ((s.r.pc + BitVec.ofNat 16 1) + BitVec.ofNat 16 1) = s.r.pc + 2#16 := by bv_omega
    have := bumpR2 { s.r with ei := false, halted := false, pc := s.r.pc + 2#16 }
    unfold fetched2
    simp only [fetch, Mach.skip, Mach.upd, Mach.tick]
    rw [show ({ s.r with ei := false, halted := false, pc := s.r.pc + 2#16, r := Spec.refresh s.r.r 2 } : Regs) =
      _ from this.symm]
    unfold Regs.bumpR
    simp only [e]
  rw [hj, hf]

/-- Second opcode byte of a block instruction. -/
def blkOp (k : Blk) (dec rep : Bool) : U8 :=
  BitVec.ofNat 8 (0xA0 + (if rep then 16 else 0) + (if dec then 8 else 0) +
    match k with | .ld => 0 | .cp => 1 | .inp => 2 | .out => 3)

theorem decode_blk (k : Blk) (dec rep : Bool) : decodeEd (blkOp k dec rep) = .blk k dec rep := by
  cases k <;> cases dec <;> cases rep <;> decide

/-- The control state after a block instruction, with R. -/
def blkRegs (r : Regs) : Regs :=
  { r with ei := false, halted := false, idx := .hl, q := r.q.map fun _ => true, r := Spec.refresh r.r 2 }

theorem step_blk {o : Opt} {v : Env w O R I} {s : Mach w I} {k : Blk} {dec rep : Bool}
    (hh : s.r.halted = false) (hq : Unasked v s.r.iff1) (h1 : s.mem s.r.pc = 0xED#8)
    (h2 : s.mem (s.r.pc + 1#16) = blkOp k dec rep) :
    step o v s = (execBlk v k dec rep (fetched2 s)).finish true
        (if (execBlk v k dec rep (fetched2 s)).2.1 then 17 else 12) := by
  have ht : ∀ b, tEd (.blk k dec rep) b - 4 = if b = true then 17 else 12 := by
    intro b
    cases b <;> rfl
  rw [step_ed hh hq h1 h2, decode_blk, ht]
  rfl

/-- Whether a block instruction with the counter left at `n` is repeated. -/
def more (rep : Bool) (n : Nat) : Bool := rep && n != 0

theorem step_ldx {o : Opt} {v : Env w O R I} {s : Mach w I} {dec rep : Bool}
    (hh : s.r.halted = false) (hq : Unasked v s.r.iff1) (h1 : s.mem s.r.pc = 0xED#8)
    (h2 : s.mem (s.r.pc + 1#16) = blkOp .ld dec rep) :
    (step o v s).1 =
      let n := s.r.bc - 1#16
      let x := s.mem s.r.hl
      { r := blkRegs { s.r with
          b := hi8 n, c := lo8 n, d := hi8 (stepPtr dec s.r.de), e := lo8 (stepPtr dec s.r.de)
          h := hi8 (stepPtr dec s.r.hl), l := lo8 (stepPtr dec s.r.hl)
          f := ldxFl s.r.a x (n ≠ 0#16) s.r.f
          pc := if rep ∧ n ≠ 0#16 then s.r.pc else s.r.pc + 2#16
          wz := if rep ∧ n ≠ 0#16 then s.r.pc + 1#16 else s.r.wz }
        mem := fun a => if a = s.r.de then x else s.mem a
        io := s.io
        t := s.t + BitVec.ofNat w (if rep ∧ n ≠ 0#16 then 21 else 16) } := by
  have e1 : s.r.pc + 2#16 - 2#16 = s.r.pc := by bv_omega
  have e2 : s.r.pc + 2#16 - 1#16 = s.r.pc + 1#16 := by bv_omega
  rw [step_blk hh hq h1 h2]
  dsimp only
  by_cases hc : rep ∧ s.r.bc - 1#16 ≠ 0#16
  · rw [(if_pos hc : (if rep ∧ s.r.bc - 1#16 ≠ 0#16 then s.r.pc else s.r.pc + 2#16) = _).trans e1.symm,
      (if_pos hc : (if rep ∧ s.r.bc - 1#16 ≠ 0#16 then s.r.pc + 1#16 else s.r.wz) = _).trans e2.symm, if_pos hc]
    rw [show execBlk (O := O) (R := R) v .ld dec rep (fetched2 s) = _ from if_pos hc]
    simp only [Eff.finish, fetched2, Mach.jump, Mach.wz, Mach.store, Mach.upd, Mach.tick, blkRegs, if_true,
      BitVec.add_assoc, ← BitVec.ofNat_add]
    rfl
  · rw [if_neg hc, if_neg hc, if_neg hc]
    rw [show execBlk (O := O) (R := R) v .ld dec rep (fetched2 s) = _ from if_neg hc]
    simp only [Eff.finish, fetched2, Mach.jump, Mach.wz, Mach.store, Mach.upd, Mach.tick, blkRegs,
      BitVec.add_assoc, ← BitVec.ofNat_add]
    rfl

theorem step_cpx {o : Opt} {v : Env w O R I} {s : Mach w I} {dec rep : Bool}
    (hh : s.r.halted = false) (hq : Unasked v s.r.iff1) (h1 : s.mem s.r.pc = 0xED#8)
    (h2 : s.mem (s.r.pc + 1#16) = blkOp .cp dec rep) :
    (step o v s).1 =
      let n := s.r.bc - 1#16
      let x := s.mem s.r.hl
      { s with
        r := blkRegs { s.r with
          b := hi8 n, c := lo8 n
          h := hi8 (stepPtr dec s.r.hl), l := lo8 (stepPtr dec s.r.hl)
          f := cpxFl s.r.a x (n ≠ 0#16) s.r.f
          pc := if rep ∧ n ≠ 0#16 ∧ s.r.a ≠ x then s.r.pc else s.r.pc + 2#16
          wz := if rep ∧ n ≠ 0#16 ∧ s.r.a ≠ x then s.r.pc + 1#16 else stepPtr dec s.r.wz }
        t := s.t + BitVec.ofNat w (if rep ∧ n ≠ 0#16 ∧ s.r.a ≠ x then 21 else 16) } := by
  have e1 : s.r.pc + 2#16 - 2#16 = s.r.pc := by bv_omega
  have e2 : s.r.pc + 2#16 - 1#16 = s.r.pc + 1#16 := by bv_omega
  rw [step_blk hh hq h1 h2]
  dsimp only
  by_cases hc : rep ∧ s.r.bc - 1#16 ≠ 0#16 ∧ s.r.a ≠ s.mem s.r.hl
  · rw [(if_pos hc : (if rep ∧ s.r.bc - 1#16 ≠ 0#16 ∧ s.r.a ≠ s.mem s.r.hl then s.r.pc else s.r.pc + 2#16) = _).trans
        e1.symm,
      (if_pos hc : (if rep ∧ s.r.bc - 1#16 ≠ 0#16 ∧ s.r.a ≠ s.mem s.r.hl then s.r.pc + 1#16 else
        stepPtr dec s.r.wz) = _).trans e2.symm, if_pos hc]
    rw [show execBlk (O := O) (R := R) v .cp dec rep (fetched2 s) = _ from if_pos hc]
    simp only [Eff.finish, fetched2, Mach.jump, Mach.wz, Mach.store, Mach.upd, Mach.tick, blkRegs, if_true,
      BitVec.add_assoc, ← BitVec.ofNat_add]
    rfl
  · rw [if_neg hc, if_neg hc, if_neg hc]
    rw [show execBlk (O := O) (R := R) v .cp dec rep (fetched2 s) = _ from if_neg hc]
    simp only [Eff.finish, fetched2, Mach.jump, Mach.wz, Mach.store, Mach.upd, Mach.tick, blkRegs,
      BitVec.add_assoc, ← BitVec.ofNat_add]
    rfl

/-- Time spent on a device access that asked for wait states. -/
def withWait (t : BitVec w) (n : Nat) (k : Option U16) : BitVec w := t + BitVec.ofNat w (n + (k.getD 0).toNat)

theorem add_wait (t : BitVec w) (a b : Nat) (k : Option U16) :
    t + BitVec.ofNat w a + BitVec.ofNat w (k.getD 0).toNat + BitVec.ofNat w b = withWait t (a + b) k := by
  unfold withWait
  rw [BitVec.add_assoc, BitVec.add_assoc, ← BitVec.ofNat_add, ← BitVec.ofNat_add]
  congr 2
  omega

theorem step_inx {o : Opt} {v : Env w O R I} {s : Mach w I} {dec rep : Bool}
    (hh : s.r.halted = false) (hq : Unasked v s.r.iff1) (h1 : s.mem s.r.pc = 0xED#8)
    (h2 : s.mem (s.r.pc + 1#16) = blkOp .inp dec rep) :
    (step o v s).1 =
      let n := s.r.b - 1#8
      let p := v.inp s.r.bc (s.t + BitVec.ofNat w 10) s.io
      { r := blkRegs { s.r with
          b := n
          h := hi8 (stepPtr dec s.r.hl), l := lo8 (stepPtr dec s.r.hl)
          f := ioxFl p.1.1 n (if dec then s.r.c - 1 else s.r.c + 1)
          pc := if rep ∧ n ≠ 0#8 then s.r.pc else s.r.pc + 2#16
          wz := stepPtr dec s.r.bc }
        mem := fun a => if a = s.r.hl then p.1.1 else s.mem a
        io := p.2
        t := withWait s.t (if rep ∧ n ≠ 0#8 then 21 else 16) p.1.2 } := by
  have e1 : s.r.pc + 2#16 - 2#16 = s.r.pc := by bv_omega
  have e3 : s.t + BitVec.ofNat w 4 + BitVec.ofNat w 6 = s.t + BitVec.ofNat w 10 := by
    rw [BitVec.add_assoc, ← BitVec.ofNat_add]
  rw [step_blk hh hq h1 h2]
  dsimp only
  by_cases hc : rep ∧ s.r.b - 1#8 ≠ 0#8
  · rw [(if_pos hc : (if rep ∧ s.r.b - 1#8 ≠ 0#8 then s.r.pc else s.r.pc + 2#16) = _).trans e1.symm, if_pos hc]
    rw [show execBlk (O := O) (R := R) v .inp dec rep (fetched2 s) = _ from if_pos hc]
    simp only [Eff.finish, fetched2, Mach.jump, Mach.wz, Mach.store, Mach.upd, Mach.tick, blkRegs, if_true,
      wait_eq, e3, add_wait]
    rfl
  · rw [if_neg hc, if_neg hc]
    rw [show execBlk (O := O) (R := R) v .inp dec rep (fetched2 s) = _ from if_neg hc]
    simp only [Eff.finish, fetched2, Mach.jump, Mach.wz, Mach.store, Mach.upd, Mach.tick, blkRegs,
      wait_eq, e3, add_wait]
    rfl

theorem step_outx {o : Opt} {v : Env w O R I} {s : Mach w I} {dec rep : Bool}
    (hh : s.r.halted = false) (hq : Unasked v s.r.iff1) (h1 : s.mem s.r.pc = 0xED#8)
    (h2 : s.mem (s.r.pc + 1#16) = blkOp .out dec rep) :
    (step o v s).1 =
      let n := s.r.b - 1#8
      let x := s.mem s.r.hl
      let p := v.out (word n s.r.c) x (s.t + BitVec.ofNat w 13) s.io
      { r := blkRegs { s.r with
          b := n
          h := hi8 (stepPtr dec s.r.hl), l := lo8 (stepPtr dec s.r.hl)
          f := ioxFl x n (lo8 (stepPtr dec s.r.hl))
          pc := if rep ∧ n ≠ 0#8 then s.r.pc else s.r.pc + 2#16
          wz := stepPtr dec (word n s.r.c) }
        mem := s.mem
        io := p.2
        t := withWait s.t (if rep ∧ n ≠ 0#8 then 21 else 16) p.1.2 } := by
  have e1 : s.r.pc + 2#16 - 2#16 = s.r.pc := by bv_omega
  have e3 : s.t + BitVec.ofNat w 4 + BitVec.ofNat w 9 = s.t + BitVec.ofNat w 13 := by
    rw [BitVec.add_assoc, ← BitVec.ofNat_add]
  rw [step_blk hh hq h1 h2]
  dsimp only
  by_cases hc : rep ∧ s.r.b - 1#8 ≠ 0#8
  · rw [(if_pos hc : (if rep ∧ s.r.b - 1#8 ≠ 0#8 then s.r.pc else s.r.pc + 2#16) = _).trans e1.symm, if_pos hc]
    rw [show execBlk (O := O) (R := R) v .out dec rep (fetched2 s) = _ from if_pos hc]
    simp only [Eff.finish, fetched2, Mach.jump, Mach.wz, Mach.store, Mach.upd, Mach.tick, blkRegs, if_true,
      wait_eq, e3, add_wait]
    rfl
  · rw [if_neg hc, if_neg hc]
    rw [show execBlk (O := O) (R := R) v .out dec rep (fetched2 s) = _ from if_neg hc]
    simp only [Eff.finish, fetched2, Mach.jump, Mach.wz, Mach.store, Mach.upd, Mach.tick, blkRegs,
      wait_eq, e3, add_wait]
    rfl

end Z80
