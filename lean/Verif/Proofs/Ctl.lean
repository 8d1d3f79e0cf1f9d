import Verif.Proofs.Pres
import Verif.Proofs.Sim
import Verif.Spec.Control
import Mathlib.Tactic.SplitIfs

/-!
# The control state after any instruction, for every host
-/

namespace Z80
open Ex

variable {σ : Sig} {Q α β : Type}

/-- The opcode byte delivered by a call, if it was an opcode read. -/
def Ev.opcode : Ev σ → Option U8
  | ⟨.readOpcode _ _ _, c⟩ => some c
  | _ => none

/-- Is the call an opcode fetch or other M1 cycle. -/
def Ev.isM1 : Ev σ → Bool
  | ⟨.addM1 _, _⟩ => true
  | _ => false

/-- The opcode bytes read in a sequence of calls. -/
def opcodes (t : List (Ev σ)) : List U8 := t.filterMap Ev.opcode

/-- The number of M1 cycles in a sequence of calls. -/
def m1s (t : List (Ev σ)) : Nat := t.countP Ev.isM1

/-- No call that belongs to interrupts or to the execution loop. -/
def Req.isInstr : Req σ → Bool
  | .isPastLimit _ | .addIrq _ | .irqData _ _ => false
  | _ => true

/-- What bodies without control effect do. -/
def Body (s : St Q) (t : List (Ev σ)) (s' : St Q) : Prop :=
  (∀ e ∈ t, e.req.isBody = true) ∧ s'.cpu.ctl = s.cpu.ctl ∧ s'.pfx = s.pfx ∧ s'.deb = s.deb

theorem body_inv : Inv (Body : St Q → List (Ev σ) → St Q → Prop) where
  refl s := ⟨fun _ h => absurd h List.not_mem_nil, rfl, rfl, rfl⟩
  trans := by
    rintro a t b u c ⟨h1, h2, h3, h4⟩ ⟨g1, g2, g3, g4⟩
    refine ⟨?_, g2.trans h2, g3.trans h3, g4.trans h4⟩
    intro e he
    rcases List.mem_append.1 he with h | h
    · exact h1 e h
    · exact g1 e h
  call s r a h := ⟨by simpa using h, rfl, rfl, rfl⟩
  pc s v := ⟨fun _ h => absurd h List.not_mem_nil, rfl, rfl, rfl⟩
  flags s v := ⟨fun _ h => absurd h List.not_mem_nil, rfl, rfl, rfl⟩
  regs s c h := ⟨fun _ h => absurd h List.not_mem_nil, h, rfl, rfl⟩

theorem opcodes_body {t : List (Ev σ)} (h : ∀ e ∈ t, e.req.isBody = true) : opcodes t = [] := by
  rw [opcodes, List.filterMap_eq_nil_iff]
  rintro ⟨r, a⟩ he
  have := h _ he
  cases r <;> first | rfl | exact absurd this Bool.false_ne_true

theorem m1s_body {t : List (Ev σ)} (h : ∀ e ∈ t, e.req.isBody = true) : m1s t = 0 := by
  rw [m1s, List.countP_eq_zero]
  rintro ⟨r, a⟩ he
  have := h _ he
  cases r <;> first | exact Bool.false_ne_true | exact absurd this Bool.false_ne_true

theorem isInstr_body {t : List (Ev σ)} (h : ∀ e ∈ t, e.req.isBody = true) :
    ∀ e ∈ t, e.req.isInstr = true := by
  rintro ⟨r, a⟩ he
  have := h _ he
  cases r <;> first | rfl | exact absurd this Bool.false_ne_true

theorem isBody_snoc {t : List (Ev σ)} {e : Ev σ} (h : ∀ e ∈ t, e.req.isBody = true)
    (he : e.req.isBody = true) : ∀ v ∈ t ++ [e], v.req.isBody = true := by
  intro v hv
  rcases List.mem_append.1 hv with hv | hv
  · exact h v hv
  · rw [List.mem_singleton.1 hv]; exact he

theorem wp_seq {x : Ex σ Q α} {f : α → Ex σ Q β} {s : St Q}
    {φ : St Q → List (Ev σ) → St Q → Prop} {ψ : α → Prop} {P : List (Ev σ) → β × St Q → Prop}
    (hx : Pres φ ψ x)
    (hf : ∀ t a s', φ s t s' → ψ a → (f a s').wp fun t' r => P (t ++ t') r) :
    ((x >>= f) s).wp P :=
  (Prog.wp_bind _ _ _).2 (Prog.wp_mono (fun t r h => hf t r.1 r.2 h.1 h.2) (hx s))

/-- Control state of an executing instruction as the programmer sees it. -/
def St.ctl (s : St Q) : Spec.Ctl :=
  ⟨s.cpu.ir.hi, s.cpu.getR, s.cpu.iff1, s.cpu.iff2, imOf s.cpu.im, s.cpu.halt, s.cpu.lastEi,
    ixOf s.pfx⟩

theorem St.ctl_eq {s s' : St Q} (h : s'.cpu.ctl = s.cpu.ctl) (hp : s'.pfx = s.pfx) :
    s'.ctl = s.ctl := by
  simp only [Cpu.ctl, Z80.Ctl.mk.injEq] at h
  obtain ⟨h1, h2, h3, h4, h5, h6, h7, h8⟩ := h
  simp only [St.ctl, Cpu.getR, h1, h2, h3, h4, h5, h6, h8, hp]

theorem refresh_rOf (ir : RegPair) (r : U8) (n : Nat) :
    rOf ir (r + BitVec.ofNat 8 n) = Spec.refresh (rOf ir r) n := by
  apply BitVec.eq_of_toNat_eq
  rw [rOf_nat, Spec.refresh, BitVec.toNat_ofNat, rOf_nat, BitVec.toNat_add, BitVec.toNat_ofNat]
  have := ir.lo.isLt
  have := r.isLt
  omega

theorem refresh_zero (r : U8) : Spec.refresh r 0 = r := by
  apply BitVec.eq_of_toNat_eq
  rw [Spec.refresh, BitVec.toNat_ofNat]
  have := r.isLt
  omega

theorem refresh_add (r : U8) (m n : Nat) :
    Spec.refresh (Spec.refresh r m) n = Spec.refresh r (m + n) := by
  apply BitVec.eq_of_toNat_eq
  simp only [Spec.refresh, BitVec.toNat_ofNat]
  have := r.isLt
  omega

/-- What every instruction does to the control state. -/
structure CodeOk (s : St Q) (code : U8) (t : List (Ev σ)) (e : Exit σ) (s' : St Q) : Prop where
  calls : ∀ v ∈ t, v.req.isInstr = true
  fetched : (opcodes t).length = Spec.moreOpcodes (ixOf s.pfx) code
  m1 : m1s t = (opcodes t).length
  ctl : s'.ctl = Spec.control code (opcodes t) s.cpu.af.hi s.ctl
  noUb : e ≠ .ub
  ei : e = .enableInt ↔ code = 0xFB
  halt : e = .halt ↔ code = 0x76
  deb : s'.deb = s.deb

/-- Which clause of `control` applies. -/
def opKind (c : U8) : Nat :=
  if c = 0xDD then 1 else if c = 0xFD then 2 else if c = 0x76 then 3 else if c = 0xF3 then 4
  else if c = 0xFB then 5 else if c = 0xED then 6 else 0

/-- Which clause of `controlEd` applies. -/
def edKind (c : U8) : Nat :=
  if c = 0x46 ∨ c = 0x4E ∨ c = 0x66 ∨ c = 0x6E then 1
  else if c = 0x56 ∨ c = 0x76 then 2
  else if c = 0x5E ∨ c = 0x7E then 3
  else if c = 0x47 then 4
  else if c = 0x4F then 5
  else if c &&& 0xC7 = 0x45 then 6
  else 0

theorem control_eq (c : U8) (ops : List U8) (a : U8) (k : Spec.Ctl) :
    Spec.control c ops a k =
      let k := { k with idx := .hl, r := Spec.refresh k.r ops.length }
      match opKind c with
      | 1 => { k with idx := .ix }
      | 2 => { k with idx := .iy }
      | 3 => { k with halted := true }
      | 4 => { k with iff1 := false, iff2 := false }
      | 5 => { k with iff1 := true, iff2 := true, ei := true }
      | 6 => Spec.controlEd (ops.headD 0) a k
      | _ => k := by
  unfold Spec.control opKind
  split_ifs <;> rfl

theorem controlEd_eq (c a : U8) (k : Spec.Ctl) :
    Spec.controlEd c a k =
      match edKind c with
      | 1 => { k with im := 0 }
      | 2 => { k with im := 1 }
      | 3 => { k with im := 2 }
      | 4 => { k with i := a }
      | 5 => { k with r := a }
      | 6 => { k with iff1 := k.iff2 }
      | _ => k := by
  unfold Spec.controlEd edKind
  split_ifs <;> rfl

/-- Mnemonics of the unprefixed table and the clauses of `control`. -/
def kinds0 (c : U8) : Bool :=
  match decode0 c with
  | none => false
  | some .dd => opKind c == 1
  | some .fd => opKind c == 2
  | some .ldRR => opKind c ==
      (if (Reg8.fromB53 c).isNone && (Reg8.fromB20 c).isNone then 3 else 0) && c != 0xCB
  | some .di => opKind c == 4
  | some .ei => opKind c == 5
  | some .ed => opKind c == 6
  | some .cb => opKind c == 0 && c == 0xCB
  | some _ => opKind c == 0 && c != 0xCB

/-- Mnemonics of the table after ED and the clauses of `controlEd`. -/
def kindsE (c : U8) : Bool :=
  match decodeE c with
  | none => false
  | some .im0 => edKind c == 1
  | some .im1 => edKind c == 2
  | some .im2 => edKind c == 3
  | some .ldIA => edKind c == 4
  | some .ldRA => edKind c == 5
  | some .retn => edKind c == 6
  | some _ => edKind c == 0

/-- The prefixed table and the clauses of `control`. -/
def kindsI (c : U8) : Bool :=
  match decodeI c with
  | none => false
  | some .plain => c != 0xCB
  | some .dd => opKind c == 1
  | some .fd => opKind c == 2
  | some _ => opKind c == 0

theorem kinds0_all (c : U8) : kinds0 c = true := all8_spec (p := kinds0) (by decide +kernel) c
theorem kindsE_all (c : U8) : kindsE c = true := all8_spec (p := kindsE) (by decide +kernel) c
theorem kindsI_all (c : U8) : kindsI c = true := all8_spec (p := kindsI) (by decide +kernel) c

theorem opKind_ei (c : U8) : opKind c = 5 ↔ c = 0xFB := by
  have := all8_spec (p := fun c => decide (opKind c = 5 ↔ c = 0xFB)) (by decide +kernel) c
  exact of_decide_eq_true this
theorem opKind_halt (c : U8) : opKind c = 3 ↔ c = 0x76 := by
  have := all8_spec (p := fun c => decide (opKind c = 3 ↔ c = 0x76)) (by decide +kernel) c
  exact of_decide_eq_true this
theorem opKind_ed (c : U8) : opKind c = 6 ↔ c = 0xED := by
  have := all8_spec (p := fun c => decide (opKind c = 6 ↔ c = 0xED)) (by decide +kernel) c
  exact of_decide_eq_true this
theorem opKind_cb (c : U8) (h : opKind c ≠ 0) : c ≠ 0xCB := by
  rintro rfl; exact h (by decide)

section
variable [Flavour Q]

/-- Bodies without control effect. -/
theorem CodeOk.of_body {s s' : St Q} {t : List (Ev σ)} {e : Exit σ} {code : U8}
    (hb : Body s t s') (he : e.ordinary = true) (hk : opKind code = 0)
    (hc : code ≠ 0xCB ∨ s.pfx ≠ none) :
    CodeOk s code t e { s' with pfx := none } := by
  have h0 := opcodes_body hb.1
  have hed : code ≠ 0xED := fun h => by rw [(opKind_ed _).2 h] at hk; exact absurd hk (by decide)
  refine ⟨isInstr_body hb.1, ?_, ?_, ?_, ?_, ?_, ?_, hb.2.2.2⟩
  · rw [h0, Spec.moreOpcodes, if_neg]
    · rfl
    · rintro (h | ⟨h, h'⟩)
      · exact hed h
      · rcases hc with hc | hc
        · exact hc h
        · revert hc h'
          rcases s.pfx with _ | _ | _ <;> simp [ixOf]
  · rw [h0, m1s_body hb.1]; rfl
  · rw [control_eq, hk, h0]
    have := St.ctl_eq (s := s) (s' := { s' with pfx := s.pfx }) hb.2.1 rfl
    simp only [St.ctl, Spec.Ctl.mk.injEq] at this
    simp only [List.length_nil, refresh_zero, St.ctl]
    simp only [this]
    rfl
  · rintro rfl; exact absurd he Bool.false_ne_true
  · rw [← opKind_ei, hk]
    constructor
    · rintro rfl; exact absurd he Bool.false_ne_true
    · intro h; exact absurd h (by decide)
  · rw [← opKind_halt, hk]
    constructor
    · rintro rfl; exact absurd he Bool.false_ne_true
    · intro h; exact absurd h (by decide)

omit [Flavour Q] in
/-- Bodies that fetch nothing. -/
theorem CodeOk.of_calls {s s' : St Q} {t : List (Ev σ)} {e : Exit σ} {code : U8}
    (ht : ∀ v ∈ t, v.req.isBody = true) (hm : Spec.moreOpcodes (ixOf s.pfx) code = 0)
    (hc : s'.ctl = Spec.control code [] s.cpu.af.hi s.ctl) (hu : e ≠ .ub)
    (he : e = .enableInt ↔ code = 0xFB) (hh : e = .halt ↔ code = 0x76) (hd : s'.deb = s.deb) :
    CodeOk s code t e s' := by
  have h0 := opcodes_body ht
  exact ⟨isInstr_body ht, by rw [h0, hm]; rfl, by rw [h0, m1s_body ht]; rfl, by rw [h0]; exact hc,
    hu, he, hh, hd⟩

omit [Flavour Q] in
/-- Bodies that fetch one opcode first. -/
theorem CodeOk.of_fetch {s s' : St Q} {t : List (Ev σ)} {e : Exit σ} {code : U8} {a b ts c1}
    (ht : ∀ v ∈ t, v.req.isBody = true) (hm : Spec.moreOpcodes (ixOf s.pfx) code = 1)
    (hc : s'.ctl = Spec.control code [c1] s.cpu.af.hi s.ctl) (he : e.ordinary = true)
    (hx : code = 0xED ∨ code = 0xCB) (hd : s'.deb = s.deb) :
    CodeOk s code (⟨.addM1 a, ts⟩ :: ⟨.readOpcode a b ts, c1⟩ :: t) e s' := by
  have h0 := opcodes_body ht
  have h1 : opcodes (⟨.addM1 a, ts⟩ :: ⟨.readOpcode a b ts, c1⟩ :: t) = [c1] := by
    show c1 :: opcodes t = _
    rw [h0]
  refine ⟨?_, by rw [h1, hm]; rfl, ?_, by rw [h1]; exact hc, ?_, ?_, ?_, hd⟩
  · intro v hv
    rcases List.mem_cons.1 hv with rfl | hv
    · rfl
    · rcases List.mem_cons.1 hv with rfl | hv
      · rfl
      · exact isInstr_body ht v hv
  · rw [h1]
    have := m1s_body ht
    rw [m1s] at this ⊢
    rw [List.countP_cons_of_pos rfl, List.countP_cons_of_neg (by exact Bool.false_ne_true), this]
    rfl
  · rintro rfl; exact absurd he Bool.false_ne_true
  · constructor
    · rintro rfl; exact absurd he Bool.false_ne_true
    · rintro rfl; exact absurd hx (by decide)
  · constructor
    · rintro rfl; exact absurd he Bool.false_ne_true
    · rintro rfl; exact absurd hx (by decide)

omit [Flavour Q] in
theorem wp_dbg {s : St Q} {n a} {f : Unit → Ex σ Q β} {l}
    {P : List (Ev σ) → β × St Q → Prop}
    (h : ∀ t s', Body s t s' → s' = s → (f () s').wp fun t' r => P (t ++ t') r) :
    ((dbg l n a >>= f) s).wp P := by
  by_cases hdb : s.deb = true
  · have e : (dbg l n a >>= f) s = .call (.debug (debugInstruction n a s.pfx l s.pc))
        fun u => f u s := by
      show Prog.bind (dbg l n a s) _ = _
      rw [dbg, if_pos hdb]
      rfl
    rw [e]
    exact fun u => h [⟨.debug _, u⟩] s ⟨by simp [Req.isBody], rfl, rfl, rfl⟩ rfl
  · have e : (dbg l n a >>= f) s = f () s := by
      show Prog.bind (dbg l n a s) _ = _
      rw [dbg, if_neg hdb]
      rfl
    rw [e]
    exact h [] s ⟨fun _ h => absurd h List.not_mem_nil, rfl, rfl, rfl⟩ rfl

omit [Flavour Q] in
theorem wp_fetch {f : U8 → Ex σ Q β} {s : St Q} {P : List (Ev σ) → β × St Q → Prop}
    (h : ∀ ts c, (f c { s with cpu := s.cpu.incR, pc := s.pc + 1#16 }).wp fun t r =>
      P (⟨.addM1 s.pc, ts⟩ :: ⟨.readOpcode s.pc s.cpu.incR.getIr ts, c⟩ :: t) r) :
    ((fetchOpcode >>= f) s).wp P := h

omit [Flavour Q] in
theorem ctl_fetch (s : St Q) :
    ({ s with cpu := s.cpu.incR, pc := s.pc + 1#16 } : St Q).ctl =
      { s.ctl with r := Spec.refresh s.ctl.r 1 } := by
  have := refresh_rOf s.cpu.ir s.cpu.r 1
  simp only [St.ctl, Spec.Ctl.mk.injEq, true_and, and_true]
  exact ⟨rfl, this, rfl, rfl, rfl, rfl, rfl⟩

theorem ok_instrE (c1 : U8) (m : ME) (hm : decodeE c1 = some m) (s0 s : St Q) (hp : s0.pfx = none)
    (hs : s = { s0 with cpu := s0.cpu.incR, pc := s0.pc + 1#16 }) :
    (instrE (σ := σ) m 0xED c1 s).wp fun t r =>
      (∀ v ∈ t, v.req.isBody = true) ∧
      r.2.ctl = Spec.control 0xED [c1] s0.cpu.af.hi s0.ctl ∧ r.1.ordinary = true ∧
      r.2.deb = s0.deb := by
  have hk := kindsE_all c1
  rw [kindsE, hm] at hk
  have hx : s.ctl = { s0.ctl with r := Spec.refresh s0.ctl.r 1, idx := .hl } := by
    rw [hs, ctl_fetch]
    simp only [St.ctl, hp, ixOf]
  have ha : s.cpu.af.hi = s0.cpu.af.hi := by rw [hs]; rfl
  have hd : s.deb = s0.deb := by rw [hs]
  rw [control_eq, show opKind 0xED = 6 from by decide]
  simp only [List.length_cons, List.length_nil, Nat.zero_add, List.headD_cons]
  rw [controlEd_eq, ← hx, ← ha, ← hd]
  clear hs hx ha hd hp
  cases m
  case im0 =>
    rw [beq_iff_eq.1 hk]
    refine wp_dbg fun t s' hb hc => ⟨by simpa using hb.1, ?_, rfl, hb.2.2.2⟩
    have := St.ctl_eq hb.2.1 hb.2.2.1
    exact congrArg (fun k : Spec.Ctl => { k with im := 0 }) this
  case im1 =>
    rw [beq_iff_eq.1 hk]
    refine wp_dbg fun t s' hb hc => ⟨by simpa using hb.1, ?_, rfl, hb.2.2.2⟩
    have := St.ctl_eq hb.2.1 hb.2.2.1
    exact congrArg (fun k : Spec.Ctl => { k with im := 1 }) this
  case im2 =>
    rw [beq_iff_eq.1 hk]
    refine wp_dbg fun t s' hb hc => ⟨by simpa using hb.1, ?_, rfl, hb.2.2.2⟩
    have := St.ctl_eq hb.2.1 hb.2.2.1
    exact congrArg (fun k : Spec.Ctl => { k with im := 2 }) this
  case ldIA =>
    rw [beq_iff_eq.1 hk]
    refine wp_dbg fun t s' hb hc => ?_
    intro u
    refine ⟨isBody_snoc hb.1 rfl, ?_, rfl, hb.2.2.2⟩
    have := St.ctl_eq hb.2.1 hb.2.2.1
    rw [← this]
    simp only [St.ctl, Spec.Ctl.mk.injEq, if_true]
    refine ⟨by rw [hc]; rfl, ?_⟩
    exact ⟨rfl, rfl, rfl, rfl, rfl, rfl, trivial⟩
  case ldRA =>
    rw [beq_iff_eq.1 hk]
    refine wp_dbg fun t s' hb hc => ?_
    intro u
    refine ⟨isBody_snoc hb.1 rfl, ?_, rfl, hb.2.2.2⟩
    have := St.ctl_eq hb.2.1 hb.2.2.1
    rw [← this]
    simp only [St.ctl, Spec.Ctl.mk.injEq, Bool.false_eq_true, if_false]
    refine ⟨rfl, ?_, rfl, rfl, rfl, rfl, rfl, trivial⟩
    rw [← hc]
    exact rOf_self _ _
  case retn =>
    rw [beq_iff_eq.1 hk]
    have h := (show Pres (Body (σ := σ)) noUb (do
      let sb ← ifElse (c1 == 0x4D#8) (do
          dbg [0xED, c1] "RETI" .none
          let ts ← asTimestamp
          let pc ← Ex.getPc
          retiCall pc ts)
        (do
          dbg [0xED, c1] "RETN" .none
          pure none)
      let addr ← pop16
      modC fun c => c.setMemptr addr
      Ex.setPc addr
      pure (breakReti sb) : Ex σ Q (Exit σ)) from by
        have hI := body_inv (Q := Q) (σ := σ)
        walk Z80.Pres <;> side) { s with cpu := s.cpu.restoreIff1 }
    refine Prog.wp_mono ?_ h
    intro t r hr
    refine ⟨hr.1.1, ?_, hr.2, hr.1.2.2.2⟩
    rw [St.ctl_eq hr.1.2.1 hr.1.2.2.1]
    rfl
  all_goals
    rw [beq_iff_eq.1 hk]
    refine Prog.wp_mono ?_ (pres_instrE body_inv _ rfl 0xED c1 s)
    intro t r hr
    exact ⟨hr.1.1, St.ctl_eq hr.1.2.1 hr.1.2.2.1, hr.2, hr.1.2.2.2⟩

omit [Flavour Q] in
theorem more_zero {x : Spec.Ix} {c : U8} (h : opKind c ≠ 6) (h' : c ≠ 0xCB ∨ x ≠ .hl) :
    Spec.moreOpcodes x c = 0 := by
  rw [Spec.moreOpcodes, if_neg]
  rintro (g | ⟨g, g'⟩)
  · exact h ((opKind_ed _).2 g)
  · rcases h' with h' | h'
    · exact h' g
    · exact h' g'

theorem ok_plain (code : U8) (s : St Q) (hp : s.pfx = none) :
    (executePlain (σ := σ) code s).wp fun t r => CodeOk s code t r.1 r.2 := by
  have hk := kinds0_all code
  unfold executePlain
  rw [kinds0] at hk
  cases hm : decode0 code with
  | none => rw [hm] at hk; exact absurd hk Bool.false_ne_true
  | some m =>
  rw [hm] at hk
  have body : ∀ {t : List (Ev σ)} {r : Exit σ × St Q}, opKind code = 0 → code ≠ 0xCB →
      (Body s t r.2 ∧ noUb r.1) → CodeOk s code t r.1 r.2 := by
    intro t r h0 hcb h
    have := CodeOk.of_body h.1 h.2 h0 (.inl hcb)
    rwa [show ({ r.2 with pfx := none } : St Q) = r.2 from by rw [← hp, ← h.1.2.2.1]] at this
  by_cases hpl : m.isPlain = true
  · have hk' : opKind code = 0 ∧ code ≠ 0xCB := by
      cases m <;> first
        | exact absurd hpl Bool.false_ne_true
        | simpa using hk
    exact Prog.wp_mono (fun t r h => body hk'.1 hk'.2 h) (pres_instr0 body_inv m hpl code s)
  cases m <;> first | exact absurd rfl hpl | skip
  case ldRR =>
    simp only [Bool.and_eq_true, beq_iff_eq, bne_iff_ne] at hk
    show (instrLdRR code s).wp _
    unfold instrLdRR
    rcases h1 : Reg8.fromB53 code with _ | d <;> rcases h2 : Reg8.fromB20 code with _ | e <;>
      rw [h1, h2] at hk
    · refine wp_dbg fun t s' hb hs => ?_
      have h3 : opKind code = 3 := hk.1
      have h4 : code = 0x76 := (opKind_halt _).1 h3
      refine .of_calls (by simpa using hb.1) (more_zero (by rw [h3]; decide) (.inl hk.2)) ?_
        nofun ⟨nofun, fun h => absurd (h4.symm.trans h) (by decide)⟩ ⟨fun _ => h4, fun _ => rfl⟩
        hb.2.2.2
      rw [control_eq, h3, hs]
      simp only [List.length_nil, refresh_zero, St.ctl, hp]
      rfl
    all_goals
      refine Prog.wp_mono (fun t r h => body hk.1 hk.2 h) ((show Pres (Body (σ := σ)) noUb _ from ?_) s)
      have hI := body_inv (Q := Q) (σ := σ)
      walk Z80.Pres <;> side
  case cb =>
    simp only [Bool.and_eq_true, beq_iff_eq] at hk
    obtain ⟨h0, hcb⟩ := hk
    refine wp_fetch fun ts c1 => ?_
    have hI := body_inv (Q := Q) (σ := σ)
    refine Prog.wp_mono ?_ ((show Pres (Body (σ := σ)) noUb (do
      dbg [code, c1] (bitopsDbg (BitOps.fromCode c1)).1 (bitopsDbg (BitOps.fromCode c1)).2
      bitops (BitOps.fromCode c1)
      pure .cont : Ex σ Q (Exit σ)) from by walk Z80.Pres <;> side) _)
    intro t r h
    refine .of_fetch h.1.1 (by rw [Spec.moreOpcodes, if_pos (.inr ⟨hcb, by rw [hp]; rfl⟩)]) ?_ h.2
      (.inr hcb) h.1.2.2.2
    rw [control_eq, h0, St.ctl_eq h.1.2.1 h.1.2.2.1, ctl_fetch]
    simp only [St.ctl, hp, ixOf, List.length_cons, List.length_nil]
  case ed =>
    have h6 : opKind code = 6 := by simpa using hk
    have hed := (opKind_ed _).1 h6
    subst hed
    refine wp_fetch fun ts c1 => ?_
    cases hm1 : decodeE c1 with
    | none =>
      have := kindsE_all c1
      rw [kindsE, hm1] at this
      exact absurd this Bool.false_ne_true
    | some m1 =>
      refine Prog.wp_mono ?_ (ok_instrE c1 m1 hm1 s _ hp rfl)
      intro t r h
      exact .of_fetch h.1 (by rw [Spec.moreOpcodes, if_pos (.inl rfl)]) h.2.1 h.2.2.1 (.inl rfl) h.2.2.2
  case dd =>
    have h1 : opKind code = 1 := by simpa using hk
    refine .of_calls (t := []) (fun _ h => absurd h List.not_mem_nil)
      (more_zero (by rw [h1]; decide) (.inl (opKind_cb _ (by rw [h1]; decide)))) ?_ nofun
      ⟨nofun, fun h => ?_⟩ ⟨nofun, fun h => ?_⟩ rfl
    · rw [control_eq, h1]
      simp only [List.length_nil, refresh_zero]
      rfl
    · rw [(opKind_ei _).2 h] at h1; exact absurd h1 (by decide)
    · rw [(opKind_halt _).2 h] at h1; exact absurd h1 (by decide)
  case fd =>
    have h1 : opKind code = 2 := by simpa using hk
    refine .of_calls (t := []) (fun _ h => absurd h List.not_mem_nil)
      (more_zero (by rw [h1]; decide) (.inl (opKind_cb _ (by rw [h1]; decide)))) ?_ nofun
      ⟨nofun, fun h => ?_⟩ ⟨nofun, fun h => ?_⟩ rfl
    · rw [control_eq, h1]
      simp only [List.length_nil, refresh_zero]
      rfl
    · rw [(opKind_ei _).2 h] at h1; exact absurd h1 (by decide)
    · rw [(opKind_halt _).2 h] at h1; exact absurd h1 (by decide)
  case di =>
    have h1 : opKind code = 4 := by simpa using hk
    refine wp_dbg fun t s' hb hs => ?_
    refine .of_calls (by simpa using hb.1)
      (more_zero (by rw [h1]; decide) (.inl (opKind_cb _ (by rw [h1]; decide)))) ?_ nofun
      ⟨nofun, fun h => ?_⟩ ⟨nofun, fun h => ?_⟩ hb.2.2.2
    · rw [control_eq, h1, hs]
      simp only [List.length_nil, refresh_zero, St.ctl, hp]
      rfl
    · rw [(opKind_ei _).2 h] at h1; exact absurd h1 (by decide)
    · rw [(opKind_halt _).2 h] at h1; exact absurd h1 (by decide)
  case ei =>
    have h1 : opKind code = 5 := by simpa using hk
    refine wp_dbg fun t s' hb hs => ?_
    refine .of_calls (by simpa using hb.1)
      (more_zero (by rw [h1]; decide) (.inl (opKind_cb _ (by rw [h1]; decide)))) ?_ nofun
      ⟨fun _ => (opKind_ei _).1 h1, fun h => rfl⟩ ⟨nofun, fun h => ?_⟩ hb.2.2.2
    · rw [control_eq, h1, hs]
      simp only [List.length_nil, refresh_zero, St.ctl, hp]
      rfl
    · rw [(opKind_halt _).2 h] at h1; exact absurd h1 (by decide)

theorem indexed_body (p : Prefix) {code : U8} {m : MI}
    (h : decodeI code = some m) (h1 : m ≠ .plain) (h2 : m ≠ .dd) (h3 : m ≠ .fd) :
    executeIndexed (σ := σ) (Q := Q) p code =
      (instrI m p code >>= fun e => Ex.setPfx none >>= fun _ => pure e) := by
  unfold executeIndexed
  rw [h]
  cases m <;> first | rfl | contradiction

theorem ok_indexed (p : Prefix) (code : U8) (s : St Q) (hp : s.pfx = some p) :
    (executeIndexed (σ := σ) p code s).wp fun t r => CodeOk s code t r.1 r.2 := by
  have hk := kindsI_all code
  unfold kindsI at hk
  have hx : ixOf s.pfx ≠ .hl := by rw [hp]; cases p <;> exact Spec.Ix.noConfusion
  cases hm : decodeI code with
  | none => rw [hm] at hk; exact absurd hk Bool.false_ne_true
  | some m =>
  rw [hm] at hk
  by_cases hpl : m ≠ .plain ∧ m ≠ .dd ∧ m ≠ .fd
  · have h0 : opKind code = 0 := by
      cases m <;> first
        | exact absurd rfl hpl.1
        | exact absurd rfl hpl.2.1
        | exact absurd rfl hpl.2.2
        | simpa using hk
    have e := indexed_body (σ := σ) (Q := Q) p hm hpl.1 hpl.2.1 hpl.2.2
    rw [e]
    refine wp_seq (pres_instrI body_inv m p code hm hpl) ?_
    intro t e s' hb he
    show CodeOk s code (t ++ []) e { s' with pfx := none }
    rw [List.append_nil]
    exact CodeOk.of_body hb he h0 (.inr (by rw [hp]; exact Option.some_ne_none _))
  · unfold executeIndexed
    rw [hm]
    cases m <;> first | exact absurd (by decide) hpl | skip
    case plain =>
      have hcb : code ≠ 0xCB := by simpa using hk
      show (executePlain code { s with pfx := none }).wp _
      refine Prog.wp_mono ?_ (ok_plain code { s with pfx := none } rfl)
      intro t r h
      refine ⟨h.calls, ?_, h.m1, ?_, h.noUb, h.ei, h.halt, h.deb⟩
      · rw [h.fetched]
        simp only [Spec.moreOpcodes, hcb, false_and]
      · rw [h.ctl, control_eq, control_eq]
        rfl
    case dd =>
      have h1 : opKind code = 1 := by simpa using hk
      refine .of_calls (t := []) (fun _ h => absurd h List.not_mem_nil)
        (more_zero (by rw [h1]; decide) (.inr hx)) ?_ nofun
        ⟨nofun, fun h => ?_⟩ ⟨nofun, fun h => ?_⟩ rfl
      · rw [control_eq, h1]
        simp only [List.length_nil, refresh_zero]
        rfl
      · rw [(opKind_ei _).2 h] at h1; exact absurd h1 (by decide)
      · rw [(opKind_halt _).2 h] at h1; exact absurd h1 (by decide)
    case fd =>
      have h1 : opKind code = 2 := by simpa using hk
      refine .of_calls (t := []) (fun _ h => absurd h List.not_mem_nil)
        (more_zero (by rw [h1]; decide) (.inr hx)) ?_ nofun
        ⟨nofun, fun h => ?_⟩ ⟨nofun, fun h => ?_⟩ rfl
      · rw [control_eq, h1]
        simp only [List.length_nil, refresh_zero]
        rfl
      · rw [(opKind_ei _).2 h] at h1; exact absurd h1 (by decide)
      · rw [(opKind_halt _).2 h] at h1; exact absurd h1 (by decide)

/-- Every instruction, whatever the state and the answers of the host. -/
theorem ok_code (code : U8) (s : St Q) :
    (executeCode (σ := σ) code s).wp fun t r => CodeOk s code t r.1 r.2 := by
  have conv : ∀ {t : List (Ev σ)} {r : Exit σ × St Q} {q : Q},
      CodeOk { s with cpu := { s.cpu with flavour := q } } code t r.1 r.2 →
      CodeOk s code t r.1 r.2 := by
    intro t r q h
    have e : ({ s with cpu := { s.cpu with flavour := q } } : St Q).ctl = s.ctl := rfl
    have h' := h.ctl
    rw [e] at h'
    exact ⟨h.calls, h.fetched, h.m1, h', h.noUb, h.ei, h.halt, h.deb⟩
  cases hp : s.pfx with
  | none =>
    have e : executeCode (σ := σ) code s = executePlain code
        { s with cpu := { s.cpu with flavour := Flavour.beginInstruction s.cpu.flavour } } := by
      show (match s.pfx with | none => executePlain code | some p => executeIndexed p code) _ = _
      rw [hp]
    rw [e]
    exact Prog.wp_mono (fun _ _ h => conv h) (ok_plain code _ hp)
  | some p =>
    have e : executeCode (σ := σ) code s = executeIndexed p code
        { s with cpu := { s.cpu with flavour := Flavour.beginInstruction s.cpu.flavour } } := by
      show (match s.pfx with | none => executePlain code | some p => executeIndexed p code) _ = _
      rw [hp]
    rw [e]
    exact Prog.wp_mono (fun _ _ h => conv h) (ok_indexed p code _ hp)

end
end Z80
