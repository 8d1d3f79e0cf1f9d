import Verif.Props.Stack
import Verif.Proofs.Nexts
import Verif.Props.Control

/-!
# Interrupts and HALT (C25, C26, C29)
-/

namespace Z80
open Spec
variable {Q : Type} [FlavourSpec Q] {w : Nat} {O R I : Type}

/-- Where execution continues after an interrupt: after the HALT in the halted state. -/
def resume (c : Cpu Q) : U16 := if c.halt then c.getPc + 1#16 else c.getPc

/-- The machine after an interrupt went to `pc`: `ret` was pushed, the halted state left, R advanced
by one; `i1`, `i2` are the interrupt flip-flops. -/
def interrupted (c : Cpu Q) (m : Mem) (i : I) (i1 i2 : Bool) (pc wz : U16) (t : BitVec w) : Mach w I :=
  { r := settled { abs c with
      iff1 := i1, iff2 := i2, r := Spec.refresh c.getR 1, sp := c.getSp - 2#16, pc := pc, wz := wz }
    mem := (m.set (c.getSp - 1#16) (hi8 (resume c))).set (c.getSp - 2#16) (lo8 (resume c))
    io := i
    t := t }

theorem bumpR_refresh (r : Regs) : r.bumpR = { r with r := Spec.refresh r.r 1 } := by
  have : (r.r.toNat % 128 + 1) % 128 = (r.r.toNat + 1) % 128 := by omega
  unfold Regs.bumpR Spec.refresh
  rw [this]

theorem woken (r : Regs) (i1 i2 : Bool) :
    wake { r with iff1 := i1, iff2 := i2, ei := false }.bumpR =
      { r with iff1 := i1, iff2 := i2, ei := false, halted := false, r := Spec.refresh r.r 1
               pc := if r.halted then r.pc + 1 else r.pc } := by
  rw [bumpR_refresh]
  obtain ⟨⟩ := r
  unfold wake
  split <;> simp_all

/-! ## C26: the non-maskable interrupt -/

/-- `nmi` accepts exactly when no prefix is pending and the last instruction was not EI, and
otherwise changes nothing. Accepted, it clears IFF1 and leaves IFF2, leaves the halted state, pushes the
address to continue at and jumps to 0x0066, in 11 T-states. -/
theorem C26_nmi (io : Handler (tsSig w O R) I) (c : Cpu Q) (t : BitVec w) (m : Mem) (i : I) :
    let r := (nmi c).run (ramHost io) (t, m, i)
    if c.pfx = none ∧ c.lastEi = false then r.1.1 = true ∧
      after r = interrupted c m i false c.iff2 0x66#16 c.memptr (t + BitVec.ofNat w 11)
    else r.1.1 = false ∧ r.1.2 = c ∧ r.2 = (t, m, i) := by
  intro r
  have h := C44_nmi io c t m i
  split
  · next hc =>
    have hk : nmiOk (abs c) = true := by
      simp only [nmiOk, Bool.and_eq_true, beq_iff_eq, Bool.not_eq_true']
      exact ⟨by rw [abs_idx, hc.1]; rfl, hc.2⟩
    rw [hk] at h
    refine ⟨h.1, h.2.trans ?_⟩
    rw [if_pos rfl]
    unfold Spec.nmi
    have e : wake { abs c with iff1 := false, ei := false }.bumpR = _ := woken (abs c) false (abs c).iff2
    simp only [Mach.upd]
    rw [e]
    have hi : (abs c).idx = .hl := by rw [abs_idx, hc.1]; rfl
    simp only [Mach.push, Mach.jump, Mach.upd, Mach.tick, Mach.store, interrupted, settled, hi]
    rfl
  · next hc =>
    have hk : isIntAllowed c.pfx c.lastEi = false := by
      unfold isIntAllowed
      rcases hp : c.pfx with _ | p
      · cases hl : c.lastEi
        · exact absurd ⟨hp, hl⟩ hc
        · rfl
      · rfl
    have : nmi (σ := tsSig w O R) c = .ret (false, c) := by unfold nmi; rw [hk]; rfl
    have hr : r = ((false, c), (t, m, i)) := by simp only [r]; rw [this]; rfl
    rw [hr]
    exact ⟨rfl, rfl, rfl⟩

/-- The calls of a non-maskable interrupt and the state reached: one M1 cycle of 5 T-states, then the
two writes of the push. -/
def NmiCalls {σ : Sig} (c : Cpu Q) (t : List (Ev σ)) (r : Bool × Cpu Q) : Prop :=
  (∃ ts1 ts2, t.map Ev.req = [.addM1 (resume c), .addNoMreq c.incR.getIr 1#8,
    .addMreq (c.getSp - 1#16), .writeMem (c.getSp - 1#16) (hi8 (resume c)) ts1,
    .addMreq (c.getSp - 2#16), .writeMem (c.getSp - 2#16) (lo8 (resume c)) ts2]) ∧
  r.1 = true ∧ r.2.getPc = 0x66#16 ∧ r.2.getSp = c.getSp - 2#16

/-- On any host: the calls an accepted `nmi` makes, and where it goes. -/
theorem C26_calls {σ : Sig} (c : Cpu Q) {t : List (Ev σ)} {r : Bool × Cpu Q}
    (h : (nmi c).Runs t r) (hc : c.pfx = none ∧ c.lastEi = false) : NmiCalls c t r := by
  have hk : isIntAllowed c.pfx c.lastEi = true := by
    unfold isIntAllowed
    rw [hc.1, hc.2]
    rfl
  refine Prog.runs_wp h (P := NmiCalls c) ?_
  unfold nmi
  rw [hk]
  intro ts0 _ ts1 _ ts2 _
  have e : c.sp - 1#16 - 1#16 = c.sp - 2#16 := by bv_omega
  refine ⟨⟨ts1, ts2, ?_⟩, rfl, rfl, ?_⟩
  · show [_, _, _, _, Req.addMreq (c.sp - 1#16 - 1#16), Req.writeMem (c.sp - 1#16 - 1#16) _ ts2] = _
    rw [e]
    rfl
  · show c.sp - 1#16 - 1#16 = _
    rw [e]
    rfl

/-! ## C25: the maskable interrupt -/

/-- A byte and the wait states the device puts on the bus when the interrupt is acknowledged. -/
def ackOf (io : Handler (tsSig w O R) I) (c : Cpu Q) (t : BitVec w) (i : I) : (U8 × Option U16) × I :=
  devAck io (resume c) (t + BitVec.ofNat w 2) i

/-- T-states and requested wait states. -/
def spent (t : BitVec w) (n : Nat) (wait : Option U16) : BitVec w := t + BitVec.ofNat w (n + (wait.getD 0).toNat)

theorem interrupt_eq (io : Handler (tsSig w O R) I) (c : Cpu Q) (t : BitVec w) (m : Mem) (i : I) :
    ∃ s : Mach w I, s = ⟨{ abs c with
        iff1 := false, iff2 := false, ei := false, halted := false, r := Spec.refresh c.getR 1, pc := resume c },
        m, (ackOf io c t i).2, spent t 6 (ackOf io c t i).1.2⟩ ∧
      interrupt (FlavourSpec.opt Q) (envOf io) ⟨abs c, m, i, t⟩ =
        match imOf c.im with
        | 0 => execOp (FlavourSpec.opt Q) (envOf io) (ackOf io c t i).1.1 s
        | 1 => Eff.finish (done (((s.push s.r.pc).jump 0x38).wz 0x38)) false 7
        | _ => Eff.finish (done (((s.push s.r.pc).jump ((s.push s.r.pc).load16 (word s.r.i (ackOf io c t i).1.1))).wz
            ((s.push s.r.pc).load16 (word s.r.i (ackOf io c t i).1.1)))) false 13 := by
  refine ⟨_, rfl, ?_⟩
  unfold interrupt
  simp only [Mach.upd]
  rw [woken (abs c) false false]
  have hr : (if (abs c).halted then (abs c).pc + 1 else (abs c).pc) = resume c := rfl
  simp only [hr, wait_eq, Mach.tick, BitVec.add_assoc, ← BitVec.ofNat_add]
  rfl

/-- An accepted maskable interrupt, by `irq`: both flip-flops are cleared and the device is
acknowledged. In mode 1 control goes to 0x0038 and in mode 0, when the device puts the opcode of `RST` on the
bus, to the address in it, both in 13 T-states; in mode 2 to the word stored at the address made of I
and the byte from the device, in 19; plus the wait states the device requested. -/
theorem C25_irq (io : Handler (tsSig w O R) I) (deb : Bool) (c : Cpu Q) (t : BitVec w) (m : Mem) (i : I)
    (ha : c.iff1 = true ∧ c.pfx = none ∧ c.lastEi = false) :
    let r := (irq deb c).run (ramHost io) (t, m, i)
    let v := ackOf io c t i
    r.1.1.isSome = true ∧
    (c.im = .mode1 →
      after r = interrupted c m v.2 false false 0x38#16 0x38#16 (spent t 13 v.1.2)) ∧
    (∀ y : Fin 8, c.im = .mode0 → v.1.1 = BitVec.ofNat 8 (0xC7 + 8 * y.1) →
      after r = interrupted c m v.2 false false (BitVec.ofNat 16 (8 * y.1)) (BitVec.ofNat 16 (8 * y.1))
        (spent t 13 v.1.2)) ∧
    (c.im = .mode2 → ∃ a, after r = interrupted c m v.2 false false a a (spent t 19 v.1.2) ∧
      a = word (r.2.2.1 (word c.ir.hi v.1.1 + 1#16)) (r.2.2.1 (word c.ir.hi v.1.1))) := by
  intro r v
  have hi : (abs c).idx = .hl := by rw [abs_idx, ha.2.1]; rfl
  have hok : irqOk (abs c) = true := by
    simp only [irqOk, Bool.and_eq_true, beq_iff_eq, Bool.not_eq_true']
    exact ⟨⟨ha.1, hi⟩, ha.2.2⟩
  have h := C44_irq io deb c t m i
  rw [hok] at h
  have hs : r.1.1.map outR = some _ := congrArg Prod.snd h
  have h1 : after r = (interrupt (FlavourSpec.opt Q) (envOf io) ⟨abs c, m, i, t⟩).1 :=
    congrArg Prod.fst h
  obtain ⟨s, hs', he⟩ := interrupt_eq io c t m i
  rw [he] at h1
  have hx : ∀ n, spent t 6 v.1.2 + BitVec.ofNat w n = spent t (n + 6) v.1.2 := by
    intro n
    unfold spent
    rw [BitVec.add_assoc, ← BitVec.ofNat_add]
    congr 2
    omega
  refine ⟨?_, ?_, ?_, ?_⟩
  · cases hr : r.1.1 with
    | none => rw [hr] at hs; cases hs
    | some => rfl
  · intro him
    rw [him] at h1
    rw [h1, hs']
    simp only [imOf, done, Eff.finish, Mach.push, Mach.jump, Mach.wz, Mach.upd, Mach.tick, Mach.store, interrupted,
      settled]
    rw [hx 7]
    rfl
  · intro y him hv
    rw [him] at h1
    have hv' : (ackOf io c t i).1.1 = BitVec.ofNat 8 (0xC7 + 8 * y.1) := hv
    simp only [imOf, hv'] at h1
    rw [rst_spec] at h1
    rw [h1, hs']
    simp only [called, interrupted, settled]
    rw [hx 7]
    rfl
  · intro him
    rw [him] at h1
    simp only [imOf, done, Eff.finish, Mach.push, Mach.jump, Mach.wz, Mach.upd, Mach.tick, Mach.store, Mach.load16, hs'] at h1
    have hm : r.2.2.1 = _ := congrArg Mach.mem h1
    refine ⟨_, ?_, rfl⟩
    rw [h1, hm]
    simp only [interrupted, settled]
    rw [hx 13]
    rfl

/-- `execute_next` of a CPU that accepts interrupts, with a request on the line, is `irq` after the
poll of the line. -/
theorem C25_next {σ : Sig} {S : Type} (H : Handler σ S) (deb : Bool) (c : Cpu Q) (h : S)
    (ha : c.iff1 = true ∧ c.pfx = none ∧ c.lastEi = false) :
    let a := H .asTimestamp h
    let b := H (.isIrq a.1) a.2
    let r := (executeNext deb c).run H h
    let r' := (irq deb c).run H b.2
    b.1 = true → r'.1 = (some r.1.1, r.1.2) ∧ r'.2 = r.2 := by
  intro a b r r' hb
  have hk : c.isIrqAllowed = true := by
    simp only [Cpu.isIrqAllowed, isIntAllowed, ha.1, ha.2.1, ha.2.2]
    rfl
  have e : r = (irqNoCheck deb c).run H b.2 := by
    simp only [r]
    unfold executeNext
    rw [hk]
    show Prog.run H (if b.1 = true then irqNoCheck deb c else _) b.2 = _
    rw [if_pos hb]
  have e' : r' = ((some ((irqNoCheck deb c).run H b.2).1.1, ((irqNoCheck deb c).run H b.2).1.2),
      ((irqNoCheck deb c).run H b.2).2) := by
    simp only [r']
    unfold irq
    rw [hk, if_pos rfl]
    exact Prog.run_bind _ _ _ _
  rw [e, e']
  exact ⟨rfl, rfl⟩

/-- A device that requests an interrupt, puts the opcode of `RST 0x28` on the bus (also the vector in
mode 2) and asks for three wait states. -/
def demoDev : Handler (tsSig 16 Unit Unit) Unit := fun r i =>
  match r with
  | .irqData _ _ => ((0xEF#8, some 3#16), i)
  | r => demoIo true 0xEF none none r i

/-- The three modes, from the halted state, the stack wrapping round the address space: the
hypotheses of `C25_irq` and `C25_next` are met. -/
example : let c : Cpu NMOS := { Cpu.new with
      sp := 1#16, pc := 0xFFFF#16, iff1 := true, iff2 := true, halt := true, ir := ⟨0x12, 0⟩ }
    let m : Mem := fun a => if a = 0x12EF then 0x78 else if a = 0x12F0 then 0x56 else 0xAA
    let run := fun k => (irq false { c with im := k }).run (ramHost demoDev) (0, m, ())
    let nx := fun k => (executeNext false { c with im := k }).run (ramHost demoDev) (0, m, ())
    (run .mode0).1.2.getPc = 0x28#16 ∧ (run .mode0).2.1 = 16#16 ∧
      (run .mode1).1.2.getPc = 0x38#16 ∧ (run .mode1).2.1 = 16#16 ∧
      (run .mode2).1.2.getPc = 0x5678#16 ∧ (run .mode2).2.1 = 22#16 ∧ (nx .mode2).2.1 = 22#16 ∧
      (run .mode2).1.2.getSp = 0xFFFF#16 ∧ (run .mode2).2.2.1 0 = 0 ∧ (run .mode2).2.2.1 0xFFFF = 0 ∧
      ((nmi c).run (ramHost demoDev) (0, m, ())).1.2.getPc = 0x66#16 := by decide +kernel

/-! ## C29: HALT -/

theorem halt_eq {σ : Sig} (c : Cpu Q) : ∃ d : Cpu Q, executeInstruction (σ := σ) false 0x76#8 c = .ret (.halt, d) ∧
    d.halt = true ∧ d.getPc = c.getPc - 1#16 ∧
      abs d = { settled { abs c with pc := c.getPc - 1#16 } with halted := true } := by
  have hs := (C44_execute_instruction (Q := Q) (demoIo false 0 none none) false 0x76#8 c 0 (fun _ => 0) ()).1
  have e : (execOp (FlavourSpec.opt Q) (envOf (demoIo false 0 none none)) 0x76#8
      ⟨abs c, fun _ => 0, (), 0⟩).1.r = { settled { abs c with pc := c.getPc - 1#16 } with halted := true } := by
    have hd : decode 0x76#8 = .halt := by decide
    unfold execOp
    rw [hd]
    rfl
  obtain ⟨af, af', bc, de, hl, bc', de', hl', ix, iy, pc, sp, memptr, lastEi, ir, im, iff1, iff2, halt, pfx, r, fl⟩ := c
  cases pfx with
  | none => exact ⟨_, rfl, rfl, rfl, (congrArg Mach.r hs).trans e⟩
  | some p => cases p <;> exact ⟨_, rfl, rfl, rfl, (congrArg Mach.r hs).trans e⟩

/-- Executing HALT: no host call, PC goes back to the opcode and the CPU is halted; nothing else
changes. -/
theorem C29_halt {σ : Sig} (c : Cpu Q) {t : List (Ev σ)} {e d}
    (h : (executeInstruction false 0x76#8 c).Runs t (e, d)) :
    t = [] ∧ e = .halt ∧ d.halt = true ∧ d.getPc = c.getPc - 1#16 ∧
      abs d = { settled { abs c with pc := c.getPc - 1#16 } with halted := true } := by
  obtain ⟨d', he, h1, h2, h3⟩ := halt_eq (σ := σ) c
  rw [he] at h
  cases h
  exact ⟨rfl, rfl, h1, h2, h3⟩

/-- The poll of the interrupt line that finds no request, if the line is polled. -/
theorem C29_step {σ : Sig} (deb : Bool) (c : Cpu Q) {t : List (Ev σ)} {e d} (hh : c.halt = true)
    (h : (executeNext deb c).Runs t (e, d)) (hq : ∀ ts, (⟨.isIrq ts, true⟩ : Ev σ) ∉ t) :
    e = .ok ∧ d = c.incR ∧ ∃ q ts, Query c q ∧ t = q ++ [⟨.addM1 c.getPc, ts⟩] := by
  unfold executeNext at h
  obtain ⟨u, v, a, rfl, h1, h2⟩ := Prog.runs_bind.1 h
  have ha : a = false ∧ Query c u := by
    unfold askIrq at h1
    cases hk : c.isIrqAllowed with
    | false =>
      rw [hk, if_neg Bool.false_ne_true] at h1
      cases h1
      exact ⟨rfl, .inl ⟨hk, rfl⟩⟩
    | true =>
      rw [hk, if_pos rfl] at h1
      cases h1 with
      | call _ _ ts _ _ h1 =>
        cases h1 with
        | call _ _ b _ _ h1 =>
          cases h1
          cases a with
          | true => exact absurd (List.mem_append_left v (.tail _ (.head _))) (hq ts)
          | false => exact ⟨rfl, .inr ⟨hk, ts, rfl⟩⟩
  obtain ⟨rfl, hu⟩ := ha
  rw [if_neg Bool.false_ne_true, if_pos hh] at h2
  cases h2 with
  | call _ _ ts _ _ h2 =>
    cases h2
    exact ⟨rfl, rfl, u, ts, hu, rfl⟩

/-- The M1 cycles in a sequence of calls. -/
def m1At {σ : Sig} (t : List (Ev σ)) : List U16 :=
  t.filterMap fun v => match v.req with | .addM1 a => some a | _ => none

omit [FlavourSpec Q] in
theorem noSteps (c : Cpu Q) : { c with r := c.r + BitVec.ofNat 8 0 } = c := by
  rw [show c.r + BitVec.ofNat 8 0 = c.r from BitVec.add_zero _]

/-- `execute_next` called `n` times in a row. -/
inductive NextN {σ : Sig} (deb : Bool) : Nat → Cpu Q → List (Ev σ) → Cpu Q → Prop
  | zero (c) : NextN deb 0 c [] c
  | succ {n c u e d v c'} (h : (executeNext deb c).Runs u (e, d)) (hs : NextN deb n d v c') :
      NextN deb (n + 1) c (u ++ v) c'

theorem m1At_append {σ : Sig} (t u : List (Ev σ)) : m1At (t ++ u) = m1At t ++ m1At u := List.filterMap_append

/-- As long as no interrupt is requested a halted CPU stays as it is but for R: any number of steps
of one M1 cycle each, at the address of HALT, and no memory or I/O access. -/
theorem C29_steps {σ : Sig} {deb : Bool} {n : Nat} {c d : Cpu Q} {t : List (Ev σ)}
    (h : NextN deb n c t d) (hh : c.halt = true) (hq : ∀ ts, (⟨.isIrq ts, true⟩ : Ev σ) ∉ t) :
    d = { c with r := c.r + BitVec.ofNat 8 n } ∧ d.getR = Spec.refresh c.getR n ∧
      m1At t = List.replicate n c.getPc ∧ ∀ v ∈ t, v.req.isQuiet = true ∨ ∃ a, v.req = .addM1 a := by
  have key : d = { c with r := c.r + BitVec.ofNat 8 n } ∧ m1At t = List.replicate n c.getPc ∧
      ∀ v ∈ t, v.req.isQuiet = true ∨ ∃ a, v.req = .addM1 a := by
    induction h with
    | zero c => exact ⟨(noSteps c).symm, rfl, fun v hv => by cases hv⟩
    | @succ n c u e d v c' h _ ih =>
      obtain ⟨rfl, rfl, q, ts, hu, rfl⟩ := C29_step deb c hh h fun ts hm => hq ts (List.mem_append_left _ hm)
      obtain ⟨i1, i2, i3⟩ := ih hh fun ts hm => hq ts (List.mem_append_right _ hm)
      have hq' : m1At q = [] ∧ ∀ v ∈ q, v.req.isQuiet = true := by
        rcases hu with ⟨_, rfl⟩ | ⟨_, ts, rfl⟩
        · exact ⟨rfl, fun v hv => by cases hv⟩
        · refine ⟨rfl, fun v hv => ?_⟩
          rcases hv with _ | ⟨_, _ | ⟨_, h⟩⟩
          · rfl
          · rfl
          · cases h
      refine ⟨?_, ?_, ?_⟩
      · rw [i1]
        show ({ c with r := c.r + 1#8 + BitVec.ofNat 8 n } : Cpu Q) = _
        rw [BitVec.add_assoc, Nat.add_comm n 1, BitVec.ofNat_add]
      · rw [m1At_append, m1At_append, i2, hq'.1]
        rfl
      · intro v hv
        rcases List.mem_append.1 hv with hv | hv
        · rcases List.mem_append.1 hv with hv | hv
          · exact .inl (hq'.2 v hv)
          · rw [List.mem_singleton.1 hv]
            exact .inr ⟨_, rfl⟩
        · exact i3 v hv
  refine ⟨key.1, ?_, key.2⟩
  rw [key.1]
  exact refresh_rOf c.ir c.r n

/-- On a host with memory each step takes 4 T-states and leaves memory alone; `io` requests no interrupt,
or interrupts are disabled. -/
theorem C29_time (io : Handler (tsSig w O R) I) (deb : Bool) (n : Nat) (c : Cpu Q) (t : BitVec w) (m : Mem)
    (i : I) (hh : c.halt = true) (hq : c.iff1 = false ∨ ∀ t i, (devIrq io t i).1 = false) :
    let r := runCalls (ramHost io) (List.replicate n (.next deb)) c (t, m, i)
    r.1 = { c with r := c.r + BitVec.ofNat 8 n } ∧ r.2.1 = t + BitVec.ofNat w (4 * n) ∧ r.2.2.1 = m ∧
      (c.iff1 = false → r.2.2.2 = i) := by
  induction n generalizing c t i with
  | zero =>
    refine ⟨?_, ?_, rfl, fun _ => rfl⟩
    · exact (noSteps c).symm
    · exact (BitVec.add_zero t).symm
  | succ n ih =>
    have e : ∃ j, (executeNext deb c).run (ramHost io) (t, m, i) =
        ((.ok, c.incR), (t + BitVec.ofNat w 4, m, j)) ∧ (c.iff1 = false → j = i) := by
      unfold executeNext
      cases hk : c.isIrqAllowed with
      | false =>
        refine ⟨i, ?_, fun _ => rfl⟩
        show Prog.run (ramHost io) (if false = true then irqNoCheck deb c else if c.halt = true then
          (haltStep c).bind fun c => .ret (.ok, c) else fetchExecute deb c) _ = _
        rw [if_neg Bool.false_ne_true, if_pos hh]
        rfl
      | true =>
        have hi : c.iff1 = true := (irqAllowed_iff c).1 hk |>.1
        have hq := hq.resolve_left (by rw [hi]; nofun) t i
        refine ⟨(devIrq io t i).2, ?_, fun h => absurd (hi.symm.trans h) nofun⟩
        show Prog.run (ramHost io) (if (devIrq io t i).1 = true then irqNoCheck deb c else if c.halt = true then
          (haltStep c).bind fun c => .ret (.ok, c) else fetchExecute deb c)
          (t, m, (devIrq io t i).2) = _
        rw [hq, if_neg Bool.false_ne_true, if_pos hh]
        rfl
    obtain ⟨j, e, hj⟩ := e
    have := ih c.incR (t + BitVec.ofNat w 4) j hh hq
    have e' : runCalls (ramHost io) (List.replicate (n + 1) (.next deb)) c (t, m, i) =
        runCalls (ramHost io) (List.replicate n (.next deb)) c.incR (t + BitVec.ofNat w 4, m, j) := by
      show runCalls (ramHost io) (List.replicate n (.next deb))
        ((executeNext deb c).run (ramHost io) (t, m, i)).1.2 ((executeNext deb c).run (ramHost io) (t, m, i)).2 = _
      rw [e]
    rw [e']
    refine ⟨this.1.trans ?_, this.2.1.trans ?_, this.2.2.1, fun h => (this.2.2.2 h).trans (hj h)⟩
    · show ({ c with r := c.r + 1#8 + BitVec.ofNat 8 n } : Cpu Q) = _
      rw [BitVec.add_assoc, Nat.add_comm n 1, BitVec.ofNat_add]
    · rw [BitVec.add_assoc, ← BitVec.ofNat_add]
      congr 2
      omega

/-- The instructions that return: `RET`, `RET cc` when the condition holds, `RETN`, `RETI`, and the undocumented
copies of `RETN`. PC is past the first byte `op`. -/
inductive ReturnsTo (r : Regs) (m : Mem) : U8 → Prop
  | ret {op} (h : Returns r op) : ReturnsTo r m op
  | retn (h : (m r.pc &&& 0xC7#8) = 0x45#8) : ReturnsTo r m 0xED

theorem retn_decode : ∀ b : U8, (b &&& 0xC7#8) = 0x45#8 → decodeEd b = .retn ∨ decodeEd b = .reti :=
  fun b => of_decide_eq_true (all8_spec
    (p := fun b => decide ((b &&& 0xC7#8) = 0x45#8 → decodeEd b = .retn ∨ decodeEd b = .reti)) (by decide +kernel) b)

/-- An accepted interrupt, maskable or not, of a CPU that was halted or not, and the return from its handler:
in any later state with the SP the interrupt left and the two bytes pushed still in memory, an
instruction that returns goes to the address where execution was interrupted: in the halted state
the address of the instruction following HALT. -/
theorem C29_return (io2 : Handler (tsSig w O R) I) (c : Cpu Q) (m : Mem) (i : I) (i1 i2 : Bool) (pc wz : U16)
    (t : BitVec w) (deb : Bool) (c2 : Cpu Q) (t2 : BitVec w) (m2 : Mem) (j : I) {op : U8}
    (ho : ReturnsTo (abs c2) m2 op) (hsp : c2.getSp = (interrupted c m i i1 i2 pc wz t).r.sp)
    (hm : ∀ k < 2, m2 (c2.getSp + BitVec.ofNat 16 k) =
      (interrupted c m i i1 i2 pc wz t).mem (c2.getSp + BitVec.ofNat 16 k)) :
    let r := (executeInstruction deb op c2).run (ramHost io2) (t2, m2, j)
    r.1.2.getPc = (if c.isHalt then c.getPc + 1#16 else c.getPc) ∧ r.1.2.getSp = c.getSp ∧
      r.1.2.isHalt = false ∧ r.2.2.1 = m2 := by
  intro r
  have htop : m2.get16 c2.getSp = resume c := by
    have h0 := hm 0 (by omega)
    have h1 := hm 1 (by omega)
    have e0 : c2.getSp + BitVec.ofNat 16 0 = c.getSp - 2#16 := by
      rw [hsp]; exact BitVec.add_zero _
    have e1 : c2.getSp + BitVec.ofNat 16 1 = c.getSp - 2#16 + 1#16 := by
      rw [hsp]; rfl
    rw [e0] at h0
    rw [e1] at h1
    show word (m2 (c2.getSp + BitVec.ofNat 16 1)) (m2 c2.getSp) = resume c
    have e2 : c2.getSp = c.getSp - 2#16 := hsp
    rw [e1, e2, h0, h1]
    exact load_stored m c.getSp (resume c)
  have hs : c2.getSp + 2 = c.getSp := by
    rw [hsp]
    exact BitVec.sub_add_cancel _ _
  have h : after r = _ := after_instruction io2 deb op c2 t2 m2 j
  have key : (after r).r.pc = m2.get16 c2.getSp ∧ (after r).r.sp = c2.getSp + 2 ∧ (after r).r.halted = false ∧
      (after r).mem = m2 := by
    rw [h]
    cases ho with
    | ret ho =>
      cases ho with
      | ret => rw [ret_spec]; exact ⟨rfl, rfl, rfl, rfl⟩
      | retCc k hk =>
        rw [retCc_spec]
        have : (⟨abs c2, m2, j, t2⟩ : Mach w I).r.holds k = true := hk
        simp only [this, if_true]
        exact ⟨rfl, rfl, rfl, rfl⟩
    | retn hb =>
      have hd : decode 0xED = .ed := by decide
      unfold execOp
      rw [hd]
      dsimp only
      have hi : (Mach.upd (⟨abs c2, m2, j, t2⟩ : Mach w I) fun r => { r with ei := false, halted := false }).imm8 =
        m2 (abs c2).pc := rfl
      rw [hi]
      rcases retn_decode _ hb with e | e <;> rw [e] <;> exact ⟨rfl, rfl, rfl, rfl⟩
  rw [htop, hs] at key
  exact ⟨key.1, key.2.1, key.2.2.1, key.2.2.2⟩

/-- HALT at 0x8000, three steps in the halted state, a non-maskable interrupt and the `RETN` at 0x0066: execution
continues at 0x8001. The hypotheses of the theorems above are met on the way. -/
example : let c : Cpu NMOS := { Cpu.new with sp := 1#16, pc := 0x8001#16 }
    let m : Mem := fun a => if a = 0x66 then 0xED else if a = 0x67 then 0x45 else 0
    let r1 := (executeInstruction false 0x76#8 c).run demo (0, m, ())
    let r2 := runCalls demo [.next false, .next false, .next false] r1.1.2 r1.2
    let r3 := (nmi r2.1).run demo r2.2
    let r4 := (executeNext false r3.1.2).run demo r3.2
    r1.1.2.isHalt = true ∧ r1.1.2.getPc = 0x8000#16 ∧ r2.1.isHalt = true ∧ r2.2.1 = 12#16 ∧
      r3.1.2.getPc = 0x66#16 ∧ r4.1.2.getPc = 0x8001#16 ∧ r4.1.2.isHalt = false := by decide +kernel

end Z80
