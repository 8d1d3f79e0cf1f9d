import Verif.Proofs.Ram

/-!
# Stack, calls and jumps on a host with memory (C18, C19, C20)

The devices (`io`) and the width of the clock are arbitrary, the debugger may be present or not.
-/

namespace Z80
open Spec
variable {Q : Type} [FlavourSpec Q] {w : Nat} {O R I : Type}

/-- The opcode of `PUSH qq`. -/
def pushOp : Spec.SP → U8 | .bc => 0xC5 | .de => 0xD5 | .hl => 0xE5 | .af => 0xF5
/-- The opcode of `POP qq`. -/
def popOp : Spec.SP → U8 | .bc => 0xC1 | .de => 0xD1 | .hl => 0xE1 | .af => 0xF1

/-- The control state after an instruction other than a prefix and EI that is not HALT and leaves the flags
alone. -/
def settled (r : Regs) : Regs :=
  { r with ei := false, halted := false, idx := .hl, q := r.q.map fun _ => false }

theorem push_spec (o : Opt) (v : Env w O R I) (p : Spec.SP) (s : Mach w I) :
    execOp o v (pushOp p) s =
      ({ r := settled { s.r with sp := s.r.sp - 2 }
         mem := fun x => if x = s.r.sp - 2 then lo8 (s.r.getSp2 s.r.idx p) else
           if x = s.r.sp - 1 then hi8 (s.r.getSp2 s.r.idx p) else s.mem x
         io := s.io
         t := s.t + BitVec.ofNat w 7 }, .ok) := by
  have hd : decode (pushOp p) = .push p := by cases p <;> decide
  unfold execOp
  rw [hd]
  simp only [exec0, done, Eff.finish, Mach.push, Mach.upd, Mach.store, Mach.tick, settled, f0]
  have ht : (if s.r.idx = .hl then t0 (.push p) false - 4 else tX (.push p) false - 8) = 7 := by
    split <;> rfl
  rw [ht]
  cases p <;> rfl

theorem pop_spec (o : Opt) (v : Env w O R I) (p : Spec.SP) (s : Mach w I) :
    execOp o v (popOp p) s =
      ({ s with
         r := settled { (s.r.setSp2 s.r.idx p s.top) with sp := s.r.sp + 2 }
         t := s.t + BitVec.ofNat w 6 }, .ok) := by
  have hd : decode (popOp p) = .pop p := by cases p <;> decide
  unfold execOp
  rw [hd]
  simp only [exec0, done, Eff.finish, Mach.drop, Mach.upd, Mach.tick, settled, f0, Mach.top, Mach.load16]
  have ht : (if s.r.idx = .hl then t0 (.pop p) false - 4 else tX (.pop p) false - 8) = 6 := by
    split <;> rfl
  rw [ht]
  cases p <;> first | rfl | (cases s.r.idx <;> rfl)

/-- The word just stored at `a`. -/
theorem load_stored (m : Mem) (a : U16) (v : U16) :
    word ((fun x => if x = a - 2 then lo8 v else if x = a - 1 then hi8 v else m x) (a - 2 + 1))
      ((fun x => if x = a - 2 then lo8 v else if x = a - 1 then hi8 v else m x) (a - 2)) = v := by
  have n1 : a - 2#16 + 1#16 = a - 1#16 := by bv_omega
  have n2 : ¬ (a - 1#16 = a - 2#16) := by bv_omega
  show word (if a - 2#16 + 1#16 = a - 2#16 then _ else if a - 2#16 + 1#16 = a - 1#16 then _ else _)
    (if a - 2#16 = a - 2#16 then _ else _) = v
  rw [n1, if_neg n2, if_pos rfl, if_pos rfl, word_hi8_lo8]

theorem push_pop_spec (o : Opt) (v : Env w O R I) (p q : Spec.SP) (y : Ix) (s : Mach w I) :
    let s1 := (execOp o v (pushOp p) s).1
    (execOp o v (popOp q) { s1 with r := { s1.r with idx := y } }).1.r =
      settled (s.r.setSp2 y q (s.r.getSp2 s.r.idx p)) := by
  intro s1
  have ht : ({ s1 with r := { s1.r with idx := y } } : Mach w I).top = s.r.getSp2 s.r.idx p := by
    simp only [s1]
    rw [push_spec]
    exact load_stored s.mem s.r.sp (s.r.getSp2 s.r.idx p)
  have hr : s1.r = settled { s.r with sp := s.r.sp - 2 } := by
    simp only [s1]
    rw [push_spec]
  rw [pop_spec, ht]
  generalize s.r.getSp2 s.r.idx p = v
  simp only [hr]
  have n3 : s.r.sp - 2 + 2 = s.r.sp := BitVec.sub_add_cancel _ _
  have hq : ((s.r.q.map fun _ => false).map fun _ => false) = s.r.q.map fun _ => false := by
    cases s.r.q <;> rfl
  cases q <;> cases y <;>
    simp only [settled, Regs.setSp2, Regs.setBc, Regs.setDe, Regs.setXhl, hq, n3]

/-! ## C18: the stack -/

/-- `PUSH` of any pair (IX and IY with a prefix pending), then `POP` into any pair (after another prefix
`y`, if any): the second pair has the value of the first and nothing else changed but the control
state, SP included; the two bytes below SP hold the value, and no other byte of memory changed. -/
theorem C18_push_pop (io : Handler (tsSig w O R) I) (deb deb' : Bool) (p q : Spec.SP)
    (y : Option Prefix) (c : Cpu Q) (t : BitVec w) (m : Mem) (i : I) :
    let r1 := (executeInstruction deb (pushOp p) c).run (ramHost io) (t, m, i)
    let r2 := (executeInstruction deb' (popOp q) { r1.1.2 with pfx := y }).run (ramHost io) r1.2
    let v := (abs c).getSp2 (ixOf c.pfx) p
    r1.1.2.getSp = c.getSp - 2#16 ∧
      abs r2.1.2 = settled ((abs c).setSp2 (ixOf y) q v) ∧
      r2.2.2.1 = (m.set (c.getSp - 1#16) (hi8 v)).set (c.getSp - 2#16) (lo8 v) := by
  intro r1 r2 v
  have h1 : after r1 = _ := after_instruction io deb (pushOp p) c t m i
  have h2 : after r2 = _ := after_instruction io deb' (popOp q) { r1.1.2 with pfx := y } _ _ _
  have h3 := push_pop_spec (FlavourSpec.opt Q) (envOf io) p q (ixOf y) ⟨abs c, m, i, t⟩
  have h4 : (⟨abs { r1.1.2 with pfx := y }, r1.2.2.1, r1.2.2.2, r1.2.1⟩ : Mach w I) =
      { after r1 with r := { (after r1).r with idx := ixOf y } } := rfl
  rw [← h1] at h3
  rw [h4] at h2
  refine ⟨?_, (congrArg Mach.r h2).trans h3, ?_⟩
  · have := congrArg (fun x => x.r.sp) h1
    rw [push_spec] at this
    exact this
  · have h5 : r2.2.2.1 = _ := congrArg Mach.mem h2
    rw [pop_spec] at h5
    have h6 : r1.2.2.1 = _ := congrArg Mach.mem h1
    rw [push_spec] at h6
    exact h5.trans h6

/-- `PUSH BC`, `POP IX` with SP = 0, which wraps around. -/
example : let c : Cpu NMOS := { Cpu.new with sp := 0#16, bc := ⟨0x12, 0x34⟩ }
    let r1 := (executeInstruction false (pushOp .bc) c).run demo (0, program [], ())
    let r2 := (executeInstruction false (popOp .hl) { r1.1.2 with pfx := some .xdd }).run demo r1.2
    r1.1.2.getSp = 0xFFFE#16 ∧ r2.1.2.ix = ⟨0x12, 0x34⟩ ∧ r2.1.2.getSp = 0#16 ∧
      r2.2.2.1 0xFFFE#16 = 0x34 ∧ r2.2.2.1 0xFFFF#16 = 0x12 := by decide +kernel

/-! ## C19: calls and returns -/

/-- Code of a condition in an opcode. -/
def ccNum : Spec.Cc → Nat
  | .nz => 0 | .z => 1 | .nc => 2 | .c => 3 | .po => 4 | .pe => 5 | .p => 6 | .m => 7
/-- The opcode of `CALL cc,nn`. -/
def callOp (k : Spec.Cc) : U8 := BitVec.ofNat 8 (0xC4 + 8 * ccNum k)
/-- The opcode of `RET cc`. -/
def retOp (k : Spec.Cc) : U8 := BitVec.ofNat 8 (0xC0 + 8 * ccNum k)

/-- The machine after a call to `a` from where the following instruction is at `ret`. -/
def called (s : Mach w I) (a ret : U16) (t : Nat) : Mach w I :=
  { r := settled { s.r with sp := s.r.sp - 2, pc := a, wz := a }
    mem := fun x => if x = s.r.sp - 2 then lo8 ret else
      if x = s.r.sp - 1 then hi8 ret else s.mem x
    io := s.io
    t := s.t + BitVec.ofNat w t }

theorem call_spec (o : Opt) (v : Env w O R I) (s : Mach w I) :
    execOp o v 0xCD s = (called s s.imm16 (s.r.pc + 2) 13, .ok) := by
  have hd : decode 0xCD = .call := by decide
  unfold execOp
  rw [hd]
  simp only [exec0, done, Eff.finish, Mach.push, Mach.upd, Mach.store, Mach.tick, settled, f0, called,
    Mach.skip, Mach.jump, Mach.wz, Mach.imm16, Mach.load16]
  have ht : (if s.r.idx = .hl then t0 .call false - 4 else tX .call false - 8) = 13 := by
    split <;> rfl
  rw [ht]
  rfl

theorem callCc_spec (o : Opt) (v : Env w O R I) (k : Spec.Cc) (s : Mach w I) :
    execOp o v (callOp k) s = (if s.r.holds k then called s s.imm16 (s.r.pc + 2) 13 else
      { s with r := settled { s.r with pc := s.r.pc + 2, wz := s.imm16 }
               t := s.t + BitVec.ofNat w 6 }, .ok) := by
  have hd : decode (callOp k) = .callCc k := by cases k <;> decide
  unfold execOp
  rw [hd]
  have hk : ({ s.r with ei := false, halted := false } : Regs).holds k = s.r.holds k := by
    cases k <;> rfl
  cases hh : s.r.holds k <;>
  simp only [exec0, Eff.finish, Mach.push, Mach.upd, Mach.store, Mach.tick, settled, f0, called,
    Mach.skip, Mach.jump, Mach.wz, Mach.imm16, Mach.load16, hk, hh, if_true, Bool.false_eq_true,
    if_false, t0, tX, ite_self] <;> rfl

theorem rst_spec (o : Opt) (v : Env w O R I) (y : Fin 8) (s : Mach w I) :
    execOp o v (BitVec.ofNat 8 (0xC7 + 8 * y.1)) s =
      (called s (BitVec.ofNat 16 (8 * y.1)) s.r.pc 7, .ok) := by
  have hd : ∀ y : Fin 8, decode (BitVec.ofNat 8 (0xC7 + 8 * y.1)) = .rst y := by decide
  unfold execOp
  rw [hd]
  simp only [exec0, done, Eff.finish, Mach.push, Mach.upd, Mach.store, Mach.tick, settled, f0, called,
    Mach.skip, Mach.jump, Mach.wz]
  have ht : (if s.r.idx = .hl then t0 (.rst y) false - 4 else tX (.rst y) false - 8) = 7 := by
    split <;> rfl
  rw [ht]
  rfl

/-- The machine after a return. -/
def returned (s : Mach w I) (t : Nat) : Mach w I :=
  { s with r := settled { s.r with sp := s.r.sp + 2, pc := s.top, wz := s.top }
           t := s.t + BitVec.ofNat w t }

theorem ret_spec (o : Opt) (v : Env w O R I) (s : Mach w I) :
    execOp o v 0xC9 s = (returned s 6, .ok) := by
  have hd : decode 0xC9 = .ret := by decide
  unfold execOp
  rw [hd]
  simp only [exec0, done, Eff.finish, execRet, Mach.upd, Mach.tick, settled, f0, returned,
    Mach.jump, Mach.wz, Mach.top, Mach.load16, Mach.drop]
  have ht : (if s.r.idx = .hl then t0 .ret false - 4 else tX .ret false - 8) = 6 := by
    split <;> rfl
  rw [ht]

theorem retCc_spec (o : Opt) (v : Env w O R I) (k : Spec.Cc) (s : Mach w I) :
    execOp o v (retOp k) s = (if s.r.holds k then returned s 7 else
      { s with r := settled s.r, t := s.t + BitVec.ofNat w 1 }, .ok) := by
  have hd : decode (retOp k) = .retCc k := by cases k <;> decide
  unfold execOp
  rw [hd]
  have hk : ({ s.r with ei := false, halted := false } : Regs).holds k = s.r.holds k := by
    cases k <;> rfl
  cases hh : s.r.holds k <;>
  simp only [exec0, Eff.finish, execRet, Mach.upd, Mach.tick, settled, f0, returned,
    Mach.jump, Mach.wz, Mach.top, Mach.load16, Mach.drop, hk, hh, if_true, Bool.false_eq_true,
    if_false, t0, tX, ite_self] <;> rfl

/-- `CALL nn` and `CALL cc,nn` with the condition met push the address of the following instruction
(PC is past the opcode byte here, the operand takes two more bytes) and jump to `nn`; no register but
SP, PC and MEMPTR changes. With the condition not met, PC and MEMPTR only. -/
theorem C19_call (io : Handler (tsSig w O R) I) (deb : Bool) (c : Cpu Q) (t : BitVec w) (m : Mem) (i : I) :
    after ((executeInstruction deb 0xCD#8 c).run (ramHost io) (t, m, i)) =
      called ⟨abs c, m, i, t⟩ (m.get16 c.getPc) (c.getPc + 2#16) 13 ∧
    ∀ k, after ((executeInstruction deb (callOp k) c).run (ramHost io) (t, m, i)) =
      if (abs c).holds k then called ⟨abs c, m, i, t⟩ (m.get16 c.getPc) (c.getPc + 2#16) 13
      else ⟨settled { abs c with pc := c.getPc + 2#16, wz := m.get16 c.getPc }, m, i,
        t + BitVec.ofNat w 6⟩ := by
  refine ⟨?_, fun k => ?_⟩
  · rw [after_instruction]
    exact congrArg Prod.fst (call_spec _ _ _)
  · rw [after_instruction]
    exact congrArg Prod.fst (callCc_spec _ _ k _)

/-- `RST` pushes the address of the following instruction, which is PC, and jumps to the address in
its opcode. -/
theorem C19_rst (io : Handler (tsSig w O R) I) (deb : Bool) (y : Fin 8) (c : Cpu Q) (t : BitVec w)
    (m : Mem) (i : I) :
    after ((executeInstruction deb (BitVec.ofNat 8 (0xC7 + 8 * y.1)) c).run (ramHost io) (t, m, i)) =
      called ⟨abs c, m, i, t⟩ (BitVec.ofNat 16 (8 * y.1)) c.getPc 7 := by
  rw [after_instruction]
  exact congrArg Prod.fst (rst_spec _ _ y _)

/-- The instructions that return, when they do. -/
inductive Returns (r : Regs) : U8 → Prop
  | ret : Returns r 0xC9
  | retCc (k : Spec.Cc) (h : r.holds k = true) : Returns r (retOp k)

/-- Calls and returns nest: in any CPU state `c2` with the SP left by the call, and any memory that still
holds the two bytes pushed, `RET`, or `RET cc` with the condition met, continues at the instruction
following the call, with SP as before the call. Memory is unchanged by the return, and so is every
register but SP, PC and MEMPTR. -/
theorem C19_call_ret (io io2 : Handler (tsSig w O R) I) (s : Mach w I) (a ret : U16) (n : Nat)
    (deb : Bool) (c2 : Cpu Q) (t2 : BitVec w) (m2 : Mem) (i2 : I) {op : U8} (ho : Returns (abs c2) op)
    (hsp : c2.getSp = (called s a ret n).r.sp)
    (hm : ∀ k < 2, m2 (c2.getSp + BitVec.ofNat 16 k) = (called s a ret n).mem (c2.getSp + BitVec.ofNat 16 k)) :
    let r := (executeInstruction deb op c2).run (ramHost io2) (t2, m2, i2)
    r.1.2.getPc = ret ∧ r.1.2.getSp = s.r.sp ∧ r.2.2.1 = m2 ∧
      abs r.1.2 = settled { abs c2 with sp := s.r.sp, pc := ret, wz := ret } := by
  intro r
  have htop : m2.get16 c2.getSp = ret := by
    have h0 := hm 0 (by omega)
    have h1 := hm 1 (by omega)
    have e0 : c2.getSp + BitVec.ofNat 16 0 = s.r.sp - 2 := by
      rw [hsp]; exact BitVec.add_zero _
    have e1 : c2.getSp + BitVec.ofNat 16 1 = s.r.sp - 2 + 1 := by
      rw [hsp]; rfl
    rw [e0] at h0
    rw [e1] at h1
    show word (m2 (c2.getSp + BitVec.ofNat 16 1)) (m2 c2.getSp) = ret
    have e2 : c2.getSp = s.r.sp - 2 := hsp
    rw [e1, e2, h0, h1]
    exact load_stored s.mem s.r.sp ret
  have hs : c2.getSp + 2 = s.r.sp := by
    rw [hsp]
    exact BitVec.sub_add_cancel _ _
  have key : ∃ n, after r = returned ⟨abs c2, m2, i2, t2⟩ n := by
    have h := after_instruction io2 deb op c2 t2 m2 i2
    cases ho with
    | ret => exact ⟨6, h.trans (congrArg Prod.fst (ret_spec _ _ _))⟩
    | retCc k hk =>
      refine ⟨7, h.trans ((congrArg Prod.fst (retCc_spec _ _ k _)).trans ?_)⟩
      exact if_pos hk
  obtain ⟨n, hn⟩ := key
  have hr : abs r.1.2 = settled { abs c2 with
      sp := c2.getSp + 2, pc := m2.get16 c2.getSp, wz := m2.get16 c2.getSp } := congrArg Mach.r hn
  rw [hs, htop] at hr
  exact ⟨congrArg Regs.pc hr, congrArg Regs.sp hr, congrArg Mach.mem hn, hr⟩

/-- `RET cc` with the condition not met goes on with the next instruction. -/
theorem C19_ret_skip (io : Handler (tsSig w O R) I) (deb : Bool) (k : Spec.Cc) (c : Cpu Q)
    (t : BitVec w) (m : Mem) (i : I) (h : (abs c).holds k = false) :
    after ((executeInstruction deb (retOp k) c).run (ramHost io) (t, m, i)) =
      ⟨settled (abs c), m, i, t + BitVec.ofNat w 1⟩ := by
  rw [after_instruction]
  refine (congrArg Prod.fst (retCc_spec _ _ k _)).trans ?_
  exact if_neg (by rw [show (abs c).holds k = false from h]; exact Bool.false_ne_true)

/-- A call and the return from it, in a program: `CALL 0x1234` at 0x0000 with SP = 1, `RET` at 0x1234. The
hypotheses of `C19_call_ret` hold. -/
example : let c : Cpu NMOS := { Cpu.new with sp := 1#16, pc := 0x8001#16 }
    let m : Mem := fun a => if a = 0x8001 then 0x34 else if a = 0x8002 then 0x12 else 0xC9
    let r1 := (executeInstruction false 0xCD#8 c).run demo (0, m, ())
    let r2 := (executeInstruction false 0xC9#8 r1.1.2).run demo r1.2
    r1.1.2.getPc = 0x1234#16 ∧ r1.1.2.getSp = (called (w := 16) ⟨abs c, m, (), 0⟩ 0x1234 0x8003 13).r.sp ∧
      (∀ k < 2, r1.2.2.1 (r1.1.2.getSp + BitVec.ofNat 16 k) =
        (called (w := 16) ⟨abs c, m, (), 0⟩ 0x1234 0x8003 13).mem (r1.1.2.getSp + BitVec.ofNat 16 k)) ∧
      r2.1.2.getPc = 0x8003#16 ∧ r2.1.2.getSp = 1#16 := by decide +kernel

/-! ## C20: jumps and relative branches -/

/-- The opcode of `JP cc,nn`. -/
def jpOp (k : Spec.Cc) : U8 := BitVec.ofNat 8 (0xC2 + 8 * ccNum k)
/-- The opcode of `JR cc,e` for the four conditions that have one. -/
def jrOp (k : Spec.Cc) : U8 := BitVec.ofNat 8 (0x20 + 8 * ccNum k)
/-- The condition a conditional instruction tests, by the bits of F. -/
def condOf (k : Spec.Cc) (f : U8) : Bool :=
  match k with
  | .nz => !f.getLsbD 6 | .z => f.getLsbD 6 | .nc => !f.getLsbD 0 | .c => f.getLsbD 0
  | .po => !f.getLsbD 2 | .pe => f.getLsbD 2 | .p => !f.getLsbD 7 | .m => f.getLsbD 7

theorem holds_cond (c : Cpu Q) (k : Spec.Cc) : (abs c).holds k = condOf k c.getFlags := by
  cases k <;> rfl

/-- Target of a relative branch whose displacement byte is at `pc`: the address after it plus the
displacement as a signed number, modulo 65536. -/
def target (m : Mem) (pc : U16) : U16 := BitVec.ofInt 16 (pc.toInt + 1 + (m pc).toInt)

theorem target_eq (m : Mem) (pc : U16) : target m pc = pc + 1 + disp (m pc) := by
  unfold target disp
  rw [BitVec.ofInt_add, BitVec.ofInt_add, BitVec.ofInt_toInt]
  rfl

/-- Only PC and MEMPTR changed. -/
def jumped (c : Cpu Q) (m : Mem) (i : I) (pc wz : U16) (t : BitVec w) : Mach w I :=
  ⟨settled { abs c with pc := pc, wz := wz }, m, i, t⟩

/-- `JP nn` goes to `nn`, `JP cc,nn` does when the condition holds and otherwise falls through. -/
theorem C20_jp (io : Handler (tsSig w O R) I) (deb : Bool) (c : Cpu Q) (t : BitVec w) (m : Mem) (i : I) :
    after ((executeInstruction deb 0xC3#8 c).run (ramHost io) (t, m, i)) =
      jumped c m i (m.get16 c.getPc) (m.get16 c.getPc) (t + BitVec.ofNat w 6) ∧
    ∀ k, after ((executeInstruction deb (jpOp k) c).run (ramHost io) (t, m, i)) =
      jumped c m i (if condOf k c.getFlags then m.get16 c.getPc else c.getPc + 2#16)
        (m.get16 c.getPc) (t + BitVec.ofNat w 6) := by
  refine ⟨?_, fun k => ?_⟩
  · rw [after_instruction]
    have hd : decode 0xC3#8 = .jp := by decide
    unfold execOp
    rw [hd]
    simp only [exec0, done, Eff.finish, Mach.upd, Mach.tick, f0, Mach.jump, Mach.wz, t0, tX, ite_self]
    rfl
  · rw [after_instruction]
    have hd : decode (jpOp k) = .jpCc k := by cases k <;> decide
    unfold execOp
    rw [hd, ← holds_cond]
    have hk : ({ abs c with ei := false, halted := false } : Regs).holds k = (abs c).holds k := by
      cases k <;> rfl
    cases hh : (abs c).holds k <;>
      simp only [exec0, done, Eff.finish, Mach.upd, Mach.tick, f0, Mach.jump, Mach.skip, Mach.wz, t0, tX,
        hk, hh, if_true, Bool.false_eq_true, if_false, ite_self] <;> rfl

/-- `JP (HL)`, `JP (IX)` and `JP (IY)` go to the address in the register. -/
theorem C20_jp_hl (io : Handler (tsSig w O R) I) (deb : Bool) (c : Cpu Q) (t : BitVec w) (m : Mem) (i : I) :
    after ((executeInstruction deb 0xE9#8 c).run (ramHost io) (t, m, i)) =
      jumped c m i ((abs c).xhl (ixOf c.pfx)) c.memptr t := by
  rw [after_instruction]
  have hd : decode 0xE9#8 = .jpHl := by decide
  unfold execOp
  rw [hd]
  simp only [exec0, done, Eff.finish, Mach.upd, Mach.tick, f0, Mach.jump, t0, tX, ite_self]
  have : t + BitVec.ofNat w 0 = t := BitVec.add_zero t
  show (⟨_, _, _, t + BitVec.ofNat w 0⟩ : Mach w I) = _
  rw [this]
  rcases hp : c.pfx with _ | _ | _ <;> simp only [abs_idx, hp, ixOf, jumped, settled, Regs.xhl] <;> rfl

/-- `JR e` and `JR cc,e` when the condition holds go to the target; otherwise `JR cc,e` falls through,
leaving MEMPTR. -/
theorem C20_jr (io : Handler (tsSig w O R) I) (deb : Bool) (c : Cpu Q) (t : BitVec w) (m : Mem) (i : I) :
    after ((executeInstruction deb 0x18#8 c).run (ramHost io) (t, m, i)) =
      jumped c m i (target m c.getPc) (target m c.getPc) (t + BitVec.ofNat w 8) ∧
    ∀ k, ccNum k < 4 → after ((executeInstruction deb (jrOp k) c).run (ramHost io) (t, m, i)) =
      if condOf k c.getFlags then jumped c m i (target m c.getPc) (target m c.getPc) (t + BitVec.ofNat w 8)
      else jumped c m i (c.getPc + 1#16) c.memptr (t + BitVec.ofNat w 3) := by
  refine ⟨?_, fun k hk4 => ?_⟩
  · rw [after_instruction, target_eq]
    have hd : decode 0x18#8 = .jr := by decide
    unfold execOp
    rw [hd]
    simp only [exec0, Eff.finish, relJump, Mach.upd, Mach.tick, f0, Mach.jump, Mach.wz, t0, tX, ite_self]
    rfl
  · rw [after_instruction, target_eq]
    have hd : decode (jrOp k) = .jrCc k := by cases k <;> first | decide | (exfalso; revert hk4; decide)
    unfold execOp
    rw [hd, ← holds_cond]
    have hk : ({ abs c with ei := false, halted := false } : Regs).holds k = (abs c).holds k := by
      cases k <;> rfl
    cases hh : (abs c).holds k <;>
      simp only [exec0, Eff.finish, relJump, Mach.upd, Mach.tick, f0, Mach.jump, Mach.skip, Mach.wz, t0, tX,
        hk, hh, if_true, Bool.false_eq_true, if_false, ite_self] <;> rfl

/-- `DJNZ e` decrements B, leaves the flags and branches unless B became 0. -/
theorem C20_djnz (io : Handler (tsSig w O R) I) (deb : Bool) (c : Cpu Q) (t : BitVec w) (m : Mem) (i : I) :
    let c' : Cpu Q := { c with bc := ⟨c.bc.hi - 1#8, c.bc.lo⟩ }
    after ((executeInstruction deb 0x10#8 c).run (ramHost io) (t, m, i)) =
      if c.bc.hi = 1#8 then jumped c' m i (c.getPc + 1#16) c.memptr (t + BitVec.ofNat w 4)
      else jumped c' m i (target m c.getPc) (target m c.getPc) (t + BitVec.ofNat w 9) := by
  intro c'
  rw [after_instruction, target_eq]
  have hd : decode 0x10#8 = .djnz := by decide
  unfold execOp
  rw [hd]
  by_cases hb : c.bc.hi = 1#8
  · have h1 : ((abs c).b - 1 ≠ 0) = False :=
      eq_false fun h => h (by rw [show (abs c).b = 1#8 from hb]; rfl)
    simp only [exec0, Eff.finish, relJump, Mach.upd, Mach.tick, f0, Mach.jump, Mach.skip, Mach.wz, t0, tX,
        h1, if_false, if_pos hb, Bool.false_eq_true, Nat.add_sub_add_left (4) _ 4, Nat.reduceSub, Nat.reduceAdd, ite_self] <;> rfl
  · have h1 : ((abs c).b - 1 ≠ 0) = True := eq_true fun h => hb (by
      have h : c.bc.hi - 1#8 = 0#8 := h
      bv_omega)
    simp only [exec0, Eff.finish, relJump, Mach.upd, Mach.tick, f0, Mach.jump, Mach.skip, Mach.wz, t0, tX,
        h1, if_true, if_neg hb, ite_self] <;> rfl

/-- A backward branch across address 0: displacement −3 at 0x0001 goes to 0xFFFF. -/
example : target (program [0x18, 0xFD]) 1#16 = 0xFFFF#16 := by decide
/-- Conditions that hold and do not hold. -/
example : condOf .z 0x40 = true ∧ condOf .pe 0x40 = false := by decide

end Z80
