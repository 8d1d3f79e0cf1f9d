import Verif.Props.Int

/-!
# C82: the HALT state entered from outside

The documentation of `halt` (`/repo/src/cpu.rs` 58-60) says that it enters the HALT state without involving the
clock, and that this can also be done by `execute_instruction` with the opcode of HALT.

The two differ. After `execute_instruction` the program goes on, when the handler of an interrupt
returns, where it was; after `halt` it goes on a byte further (`C82_refuted`). After `halt` a prefix or EI stays
pending, and neither `execute_next` nor `irq` nor `nmi` ever leaves the state (`C82_refuted_stuck`).
-/

namespace Z80

open Spec

variable {Q : Type} [FlavourSpec Q] {w : Nat} {O R I : Type}

/-- `nmi` on a machine with memory is accepted and stores `a` as the address to return to. -/
def NmiReturnsTo (c : Cpu Q) (a : U16) : Prop :=
  ∀ (w : Nat) (O R I : Type) (io : Handler (tsSig w O R) I) (t : BitVec w) (m : Mem) (i : I),
    let r := (nmi c).run (ramHost io) (t, m, i)
    r.1.1 = true ∧ r.1.2.getSp = c.getSp - 2#16 ∧
      word (r.2.2.1 (r.1.2.getSp + 1#16)) (r.2.2.1 r.1.2.getSp) = a

/-- `irq` on a machine with memory, in mode 1 or 2, is accepted and stores `a` as the address to return to. -/
def IrqReturnsTo (c : Cpu Q) (a : U16) : Prop :=
  ∀ (w : Nat) (O R I : Type) (io : Handler (tsSig w O R) I) (deb : Bool) (t : BitVec w) (m : Mem) (i : I),
    let r := (irq deb c).run (ramHost io) (t, m, i)
    r.1.1.isSome = true ∧ r.1.2.getSp = c.getSp - 2#16 ∧
      word (r.2.2.1 (r.1.2.getSp + 1#16)) (r.2.2.1 r.1.2.getSp) = a

namespace ForcedHalt

theorem pushed (m : Mem) (sp v : U16) :
    word (((m.set (sp - 1#16) (hi8 v)).set (sp - 2#16) (lo8 v)) (sp - 2#16 + 1#16))
      (((m.set (sp - 1#16) (hi8 v)).set (sp - 2#16) (lo8 v)) (sp - 2#16)) = v := by
  have e : sp - 2#16 + 1#16 = sp - 1#16 := by
    apply BitVec.eq_of_toNat_eq
    simp only [BitVec.toNat_add, BitVec.toNat_sub, BitVec.toNat_ofNat]
    omega
  have n : ¬ sp - 1#16 = sp - 2#16 := by
    intro h
    have := congrArg BitVec.toNat h
    simp only [BitVec.toNat_sub, BitVec.toNat_ofNat] at this
    omega
  rw [e]
  unfold Mem.set
  rw [if_neg n, if_pos rfl, if_pos rfl]
  exact word_hi8_lo8 v

theorem nmi_to {c : Cpu Q} (h : c.pfx = none ∧ c.lastEi = false) : NmiReturnsTo c (resume c) := by
  intro w O R I io t m i r
  have e := C26_nmi io c t m i
  rw [if_pos h] at e
  have hs : r.1.2.getSp = c.getSp - 2#16 := congrArg (fun x => x.r.sp) e.2
  have hm : r.2.2.1 = _ := congrArg (fun x => x.mem) e.2
  refine ⟨e.1, hs, ?_⟩
  rw [hs, hm]
  exact pushed _ _ _

theorem irq_to {c : Cpu Q} (h : c.pfx = none ∧ c.lastEi = false) (hi : c.iff1 = true) (hm : c.im ≠ .mode0) :
    IrqReturnsTo c (resume c) := by
  intro w O R I io deb t m i r
  have e := C25_irq io deb c t m i ⟨hi, h⟩
  obtain ⟨pc, wz, t', e2⟩ : ∃ pc wz t', after r = interrupted c m (ackOf io c t i).2 false false pc wz t' := by
    cases hk : c.im with
    | mode0 => exact absurd hk hm
    | mode1 => exact ⟨_, _, _, e.2.1 hk⟩
    | mode2 => obtain ⟨a, ha, -⟩ := e.2.2.2 hk; exact ⟨_, _, _, ha⟩
  have hs : r.1.2.getSp = c.getSp - 2#16 := congrArg (fun x => x.r.sp) e2
  have hm : r.2.2.1 = _ := congrArg (fun x => x.mem) e2
  refine ⟨e.1, hs, ?_⟩
  rw [hs, hm]
  exact pushed _ _ _

end ForcedHalt

open ForcedHalt

/-- C82: `execute_instruction` with the opcode of HALT enters the HALT state from any state, without a call to
the host; an interrupt is accepted and returns to where the program was. -/
theorem C82_executed {σ : Sig} (c : Cpu Q) :
    ∃ d : Cpu Q, executeInstruction (σ := σ) false 0x76#8 c = .ret (.halt, d) ∧ d.isHalt = true ∧
      NmiReturnsTo d c.getPc ∧ (c.getIffs.1 = true → c.getIm ≠ .mode0 → IrqReturnsTo d c.getPc) := by
  obtain ⟨d, h1, h2, h3, h4⟩ := halt_eq (σ := σ) c
  have hp : d.pfx = none ∧ d.lastEi = false := by
    refine ⟨?_, congrArg (fun x => x.ei) h4⟩
    have := congrArg (fun x => x.idx) h4
    simp only [abs_idx] at this
    rcases hd : d.pfx with _ | _ | _
    · rfl
    · rw [hd] at this; cases this
    · rw [hd] at this; cases this
  have hr : resume d = c.getPc := by
    unfold resume
    rw [if_pos h2, h3, BitVec.sub_add_cancel]
  refine ⟨d, h1, h2, hr ▸ nmi_to hp, fun hi hm => hr ▸ irq_to hp ?_ ?_⟩
  · exact (congrArg (fun x => x.iff1) h4).trans hi
  · have h5 : imOf d.im = imOf c.im := congrArg (fun x => x.im) h4
    intro h6
    refine hm ?_
    rw [h6] at h5
    show c.im = .mode0
    cases h7 : c.im with
    | mode0 => rfl
    | mode1 => rw [h7] at h5; cases h5
    | mode2 => rw [h7] at h5; cases h5

/-- C82: `halt` with nothing pending, too, enters the HALT state, but an interrupt returns to the following
address. -/
theorem C82_halt_partial (c : Cpu Q) (h : c.getPrefix = none ∧ c.isAfterEi = false) :
    c.doHalt.isHalt = true ∧ NmiReturnsTo c.doHalt (c.getPc + 1#16) ∧
      (c.getIffs.1 = true → c.getIm ≠ .mode0 → IrqReturnsTo c.doHalt (c.getPc + 1#16)) :=
  ⟨rfl, nmi_to (c := c.doHalt) h, fun hi hm => irq_to (c := c.doHalt) h hi hm⟩

/-- C82: `halt` with nothing pending is HALT executed from the following address, but for the record of
whether flags were modified. -/
theorem C82_same_partial {σ : Sig} (c : Cpu Q) (h : c.getPrefix = none ∧ c.isAfterEi = false) :
    ∃ d : Cpu Q, executeInstruction (σ := σ) false 0x76#8 (c.setPc (c.getPc + 1#16)) = .ret (.halt, d) ∧
      abs c.doHalt = { abs d with q := (abs c).q } := by
  obtain ⟨d, h1, h2, h3, h4⟩ := halt_eq (σ := σ) (c.setPc (c.getPc + 1#16))
  refine ⟨d, h1, ?_⟩
  have hp : c.pfx = none := h.1
  have he : c.lastEi = false := h.2
  have h3 : (c.setPc (c.getPc + 1#16)).getPc - 1#16 = c.getPc := BitVec.add_sub_cancel _ _
  rw [h4, h3]
  have h5 : (abs c).ei = false := he
  have h6 : (abs c).idx = .hl := by rw [abs_idx, hp]; rfl
  show ({ abs c with halted := true } : Regs) = { abs c with halted := true, ei := false, idx := .hl }
  generalize abs c = a at h5 h6
  obtain ⟨⟩ := a
  subst h5 h6
  rfl

/-- C82, refuted: after `halt` an interrupt does not return to where the program was. -/
theorem C82_refuted : ∃ c : Cpu NMOS, NmiReturnsTo c c.getPc ∧ ¬ NmiReturnsTo c.doHalt c.getPc ∧
    c.getPrefix = none ∧ c.isAfterEi = false ∧ c.isHalt = false := by
  refine ⟨Cpu.new, nmi_to ⟨rfl, rfl⟩, fun h => ?_, rfl, rfl, rfl⟩
  have h1 := nmi_to (c := (Cpu.new : Cpu NMOS).doHalt) ⟨rfl, rfl⟩
  have io : Handler (tsSig 16 Unit Unit) Unit := demoIo false 0 none none
  have h2 := (h 16 Unit Unit Unit io 0 (fun _ => 0) ()).2.2
  have h3 := (h1 16 Unit Unit Unit io 0 (fun _ => 0) ()).2.2
  exact absurd (h2.symm.trans h3) (by decide)

/-- C82, refuted: if `halt` is called when a prefix or EI is pending, the HALT state is never left
by `execute_next`, `irq` and `nmi`, whatever the host requests. -/
theorem C82_refuted_stuck {σ : Sig} {S : Type} (H : Handler σ S) (c : Cpu Q)
    (h : c.getPrefix ≠ none ∨ c.isAfterEi = true) (l : List Call) (s : S) :
    (runCalls H l c.doHalt s).1.isHalt = true ∧ (runCalls H l c.doHalt s).1.getPc = c.getPc := by
  have key : ∀ (l : List Call) (d : Cpu Q) (s : S), d.halt = true → (d.pfx ≠ none ∨ d.lastEi = true) →
      (runCalls H l d s).1.halt = true ∧ (runCalls H l d s).1.getPc = d.getPc := by
    intro l
    induction l with
    | nil => exact fun d s h _ => ⟨h, rfl⟩
    | cons a l ih =>
      intro d s hh hp
      have hn : isIntAllowed d.pfx d.lastEi = false := by
        rcases hp with hp | hp
        · rcases hd : d.pfx with _ | _ | _
          · exact absurd hd hp
          · cases d.lastEi <;> rfl
          · cases d.lastEi <;> rfl
        · rw [hp]; rcases d.pfx with _ | _ | _ <;> rfl
      have hq : d.isIrqAllowed = false := by unfold Cpu.isIrqAllowed; rw [hn, Bool.and_false]
      cases a with
      | next deb =>
        have e : executeNext (σ := σ) deb d = (Prog.bind (haltStep d) fun c => pure (.ok, c)) := by
          unfold executeNext
          rw [hq, if_pos hh]
          rfl
        show (runCalls H l ((executeNext deb d).run H s).1.2 _).1.halt = true ∧ _
        simp only [runCalls]
        rw [e]
        exact ih d.incR _ hh hp
      | irq deb =>
        simp only [runCalls]
        have e : Z80.irq (σ := σ) deb d = .ret (none, d) := by unfold Z80.irq; rw [hq]; rfl
        rw [e]
        exact ih d _ hh hp
      | nmi =>
        simp only [runCalls]
        have e : Z80.nmi (σ := σ) d = .ret (false, d) := by unfold Z80.nmi; rw [hn]; rfl
        rw [e]
        exact ih d _ hh hp
  exact key l c.doHalt s rfl h

/-- A state after the prefix DD. -/
example : ((Cpu.new : Cpu CMOS).setPc 5#16).getPrefix = none ∧
    (∃ c : Cpu CMOS, c.getPrefix ≠ none ∧ c.getPc = 0x1234#16) :=
  ⟨rfl, { (Cpu.new : Cpu CMOS) with pfx := some .xdd, pc := 0x1234#16 }, by decide, rfl⟩

end Z80
