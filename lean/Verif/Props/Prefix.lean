import Verif.Proofs.Pfx
import Verif.Props.Variant

/-!
# C15: DD and FD prefixes

On any host; `Spec.indexable` tells the opcodes that a prefix changes.
-/

set_option linter.constructorNameAsVariable false

namespace Z80
open Spec
variable {Q : Type} [FlavourSpec Q] {σ : Sig}

/-- The pending prefix after a prefix byte. -/
def pfxOf (p : U8) : Prefix := if p == 0xDD then .xdd else .yfd

theorem pfx_of_idx {c : Cpu Q} {p : U8} (h : (abs c).idx = prefixOf p) : c.pfx = some (pfxOf p) := by
  have h : ixOf c.pfx = prefixOf p := h
  unfold prefixOf at h
  unfold pfxOf
  split at h <;> rename_i hp
  · rw [if_pos hp]; rcases hc : c.pfx with _ | _ | _ <;> rw [hc] at h <;> first | rfl | cases h
  · rw [if_neg hp]; rcases hc : c.pfx with _ | _ | _ <;> rw [hc] at h <;> first | rfl | cases h

/-- C15: `execute_instruction` of a prefix byte makes no bus cycle and changes nothing but the pending
prefix, the pending EI and halted state and the flag history. -/
theorem C15_prefix {deb : Bool} {p : U8} (hp : isIxPrefix p = true) {c c' : Cpu Q} {t : List (Ev σ)}
    {x : Res σ} (h : (executeInstruction deb p c).Runs t (x, c')) :
    (t.filter fun e => !e.req.isDebug) = [] ∧ x = .ok ∧ c'.pfx = some (pfxOf p) ∧
      abs c' = afterPrefix p (abs c) := by
  obtain ⟨l, e, h1, h2, h3, h4⟩ := drives_path (drive_instruction deb p c) h
  rw [pfxOp _ hp] at h1
  cases h1
  have h5 : abs c' = afterPrefix p (abs c) := h3
  have h6 : (t.filter fun e => !e.req.isDebug) = [] := by
    revert h2; generalize (t.filter fun e => !e.req.isDebug) = u; intro h2; cases h2; rfl
  exact ⟨h6, (outS_inj (y := .ok) h4 (by rw [show outS x = _ from h4]; nofun)),
    pfx_of_idx (by rw [h5]; rfl), h5⟩

/-- The interrupt line being sampled, without a request. -/
def noRequest (ask : Bool) (ts : σ.Ts) : List (Ev σ) :=
  if ask then [⟨.asTimestamp, ts⟩, ⟨.isIrq ts, false⟩] else []

/-- C15: `execute_next` fetching a prefix byte makes one M1 cycle, increases PC and R and records
the prefix. -/
theorem C15_prefix_next {deb : Bool} {c c' : Cpu Q} {t : List (Ev σ)} {x : Res σ}
    (h : (executeNext deb c).Runs t (x, c')) (ha : ackOf t = []) {p : U8} {ops : List U8}
    (hp : isIxPrefix p = true) (ho : opcodesOf t = p :: ops) :
    (∃ ts ts', (t.filter fun e => !e.req.isDebug) = noRequest (irqOk (abs c)) ts ++
      [⟨.addM1 c.pc, ts'⟩, ⟨.readOpcode c.pc (abs c).bumpR.ir ts', p⟩]) ∧ x = .ok ∧
    c'.pfx = some (pfxOf p) ∧
    abs c' = afterPrefix p { abs c with pc := c.pc + 1, r := refreshed c.getR 1 } := by
  obtain ⟨l, e, h1, h2, h3, h4⟩ := drives_path (drive_step deb c) h
  rw [← opcodes_filter, performs_opcodes h2] at ho
  rw [← ack_filter, performs_acks h2] at ha
  obtain ⟨h5, h6⟩ := pfxStep _ _ h1 hp ha ho
  have h7 : abs c' = afterPrefix p { abs c with pc := c.pc + 1, r := refreshed c.getR 1 } := by
    rw [show abs c' = _ from h3, h6]; rfl
  refine ⟨?_, outS_inj (y := .ok) (by rw [show outS x = _ from h4, h6]; rfl)
    (by rw [show outS x = _ from h4]; nofun), pfx_of_idx (by rw [h7]; rfl), h7⟩
  rw [h5] at h2
  revert h2
  generalize (t.filter fun e => !e.req.isDebug) = u
  intro h2
  unfold noRequest
  split at h2 <;> rename_i hi
  · cases h2 with
    | cons g1 g2 =>
      cases g2 with
      | cons g2 g3 =>
        cases g1 with
        | irq ts => cases g2 with | m1 ts' => cases g3; exact ⟨ts, ts', by rw [if_pos hi]; rfl⟩
  · cases h2 with
    | cons g2 g3 => cases g2 with | m1 ts' => cases g3; exact ⟨ts', ts', by rw [if_neg hi]; rfl⟩

/-- Executing prefix bytes one after another. -/
inductive Prefixes : Cpu Q → List U8 → List (Ev σ) → Cpu Q → Prop
  | nil (c) : Prefixes c [] [] c
  | snoc {c c' c'' ps p deb t u x} (h : Prefixes c ps t c')
      (hs : (executeNext deb c').Runs u (x, c''))
      (ha : ackOf u = []) (hp : isIxPrefix p = true) (ho : opcodesOf u = [p]) :
      Prefixes c (ps ++ [p]) (t ++ u) c''

theorem refreshed_succ (r : U8) (n : Nat) : refreshed (refreshed r n) 1 = refreshed r (n + 1) := by
  unfold refreshed
  have h1 := r.isLt
  have h2 : (r.toNat / 128 * 128 + (r.toNat % 128 + n) % 128) % 256 =
      r.toNat / 128 * 128 + (r.toNat % 128 + n) % 128 := by omega
  rw [BitVec.toNat_ofNat, h2]
  refine congrArg _ ?_
  omega

theorem refreshed_zero (r : U8) : refreshed r 0 = r := by
  unfold refreshed
  apply BitVec.eq_of_toNat_eq
  rw [BitVec.toNat_ofNat]
  have := r.isLt
  omega

/-- C15: a chain of any length: PC and R count the bytes, only the last byte matters, each takes 4
T-states, and there are no other bus cycles: nothing is written, read from memory or from a port,
or acknowledged. -/
theorem C15_chain {c c' : Cpu Q} {ps : List U8} {p : U8} {t : List (Ev σ)}
    (h : Prefixes c (ps ++ [p]) t c') :
    c'.pfx = some (pfxOf p) ∧
    abs c' = afterPrefix p { abs c with
      pc := c.pc + BitVec.ofNat 16 (ps.length + 1), r := refreshed c.getR (ps.length + 1) } ∧
    clocked t = 4 * (ps.length + 1) ∧ opcodesOf t = ps ++ [p] ∧
    ∀ e ∈ t, match e.req with
      | .addM1 _ | .readOpcode _ _ _ | .asTimestamp | .isIrq _ | .debug _ => True
      | _ => False := by
  have key : ∀ {c c' : Cpu Q} {t : List (Ev σ)} {qs : List U8}, Prefixes c qs t c' →
      (∀ ps p, qs = ps ++ [p] → abs c' = afterPrefix p { abs c with
        pc := c.pc + BitVec.ofNat 16 (ps.length + 1), r := refreshed c.getR (ps.length + 1) }) ∧
      (qs = [] → c' = c) ∧
      clocked t = 4 * qs.length ∧ opcodesOf t = qs ∧
      ∀ e ∈ t, match e.req with
        | .addM1 _ | .readOpcode _ _ _ | .asTimestamp | .isIrq _ | .debug _ => True
        | _ => False := by
    intro c c' t qs h
    induction h with
    | nil => exact ⟨fun ps p hn => by simp at hn, fun _ => rfl, rfl, rfl, fun e he => by cases he⟩
    | @snoc c1 c2 ps p deb t u x h hs ha hp ho ih =>
      obtain ⟨i1, i2, i3, i4, i5⟩ := ih
      obtain ⟨⟨ts, ts', g1⟩, _, _, g4⟩ := C15_prefix_next hs ha hp ho
      have hn : c1.getR = refreshed c.getR ps.length ∧ c1.pc = c.pc + BitVec.ofNat 16 ps.length ∧
          ∀ (p : U8) (r' : U16 × U8), afterPrefix p { abs c1 with pc := r'.1, r := r'.2 } =
            afterPrefix p { abs c with pc := r'.1, r := r'.2 } := by
        rcases List.eq_nil_or_concat ps with rfl | ⟨qs, q, hq⟩
        · rw [i2 rfl]
          exact ⟨(refreshed_zero _).symm, by simp, fun _ _ => rfl⟩
        · rw [List.concat_eq_append] at hq
          have i1 := i1 qs q hq
          have hl : ps.length = qs.length + 1 := by rw [hq]; simp
          rw [hl]
          exact ⟨congrArg Regs.r i1, congrArg Regs.pc i1, fun p r' => by
            rw [i1]; unfold afterPrefix; cases (abs c).q <;> rfl⟩
      obtain ⟨n1, n2, n3⟩ := hn
      refine ⟨?_, fun hn => by simp at hn, ?_, ?_, ?_⟩
      · intro ps' p' he
        obtain ⟨hl, hp'⟩ := List.append_inj' he rfl
        cases hp'
        subst hl
        rw [g4, n1, refreshed_succ, n2, n3 p (_, _), BitVec.add_assoc, BitVec.ofNat_add]
        rfl
      · rw [clocked_append, i3, ← clocked_filter, g1]
        unfold noRequest
        split <;> simp [clocked, Ev.base] <;> omega
      · rw [show opcodesOf (t ++ u) = _ from List.filterMap_append, show t.filterMap Ev.opcode? = opcodesOf t from rfl, show u.filterMap Ev.opcode? = opcodesOf u from rfl, i4, ho]
      · intro e he
        rcases List.mem_append.1 he with he | he
        · exact i5 e he
        · have : e.req.isDebug = true ∨ e ∈ u.filter fun e => !e.req.isDebug := by
            by_cases hd : e.req.isDebug = true
            · exact .inl hd
            · exact .inr (List.mem_filter.2 ⟨he, by simpa using hd⟩)
          rcases this with hd | hm
          · revert hd; obtain ⟨r, a⟩ := e; cases r <;> simp [Req.isDebug]
          · rw [g1] at hm
            unfold noRequest at hm
            split at hm <;> simp at hm <;> rcases hm with rfl | rfl | rfl | rfl <;> trivial
  obtain ⟨h1, _, h3, h4, h5⟩ := key h
  have h1 := h1 ps p rfl
  exact ⟨pfx_of_idx (by rw [h1]; rfl), h1, by simpa using h3, h4, h5⟩

/-- Two CPUs in the same state have the same runs. -/
theorem runs_of_abs {m : Cpu Q → Prog σ (Res σ × Cpu Q)} {b : Regs → Tree σ.O σ.R (Res' σ.O σ.R)}
    (hd : ∀ c, DrivesP (m c) (b (abs c))) (he : ∀ c, (m c).erase = m c) {c d : Cpu Q}
    (hb : b (abs c) = b (abs d)) {t : List (Ev σ)} {x : Res σ} {c' : Cpu Q}
    (h : (m c).Runs t (x, c')) : ∃ d' : Cpu Q, (m d).Runs t (x, d') ∧ abs d' = abs c' := by
  obtain ⟨e, h1, h2, h3⟩ := drives_to (hd c) (he c) h
  rw [hb] at h1
  obtain ⟨d', h4, h5⟩ := drives_from (hd d) (he d) h1 h3
  exact ⟨d', h4, h5.trans h2.symm⟩

/-- C15: a chain has the effect of its last byte: the instruction that follows runs the same from
any state that agrees on the registers with the state after the last byte alone. -/
theorem C15_chain_effect {c c' d : Cpu Q} {ps : List U8} {p : U8} {t : List (Ev σ)}
    (h : Prefixes c (ps ++ [p]) t c')
    (hd : abs d = afterPrefix p { abs c with
      pc := c.pc + BitVec.ofNat 16 (ps.length + 1), r := refreshed c.getR (ps.length + 1) })
    {u : List (Ev σ)} {x : Res σ} {c'' : Cpu Q} (hn : (executeNext false c').Runs u (x, c'')) :
    ∃ d' : Cpu Q, (executeNext false d).Runs u (x, d') ∧ abs d' = abs c'' :=
  runs_of_abs (drive_step false) erase_quiet_next (by rw [(C15_chain h).2.1, hd]) hn

/-- C15: an opcode that uses neither HL nor its parts runs after a prefix as it runs without one. -/
theorem C15_unaffected {op : U8} (ho : indexable op = false) {c c' : Cpu Q} {t : List (Ev σ)}
    {x : Res σ} (h : (executeInstruction false op c).Runs t (x, c')) :
    ∃ d' : Cpu Q, (executeInstruction false op { c with pfx := none }).Runs t (x, d') ∧
      abs d' = abs c' :=
  runs_of_abs (drive_instruction false op) (erase_quiet_instruction op) (by
    rw [idxOp _ ho]; rfl) h

/-- C15: a prefix is consumed by the instruction that follows. -/
theorem C15_consumed {deb : Bool} {op : U8} (hp : isIxPrefix op = false) {c c' : Cpu Q}
    {t : List (Ev σ)} {x : Res σ} (h : (executeInstruction deb op c).Runs t (x, c')) :
    c'.pfx = none := by
  obtain ⟨l, e, h1, h2, h3, h4⟩ := drives_path (drive_instruction deb op c) h
  have h5 := ends_path (idxDone _ hp _) h1
  have h6 : ixOf c'.pfx = .hl := (congrArg Regs.idx h3).trans h5
  rcases hc : c'.pfx with _ | _ | _
  · rfl
  · rw [hc] at h6; cases h6
  · rw [hc] at h6; cases h6

/-- The flag history matters to SCF and CCF only. -/
theorem same_but_history {op : U8} (h1 : op ≠ 0x37#8) (h2 : op ≠ 0x3F#8) {c c' d : Cpu Q}
    (hc : Corr c d) {t : List (Ev σ)} {x : Res σ} (h : (executeInstruction false op c).Runs t (x, c')) :
    ∃ d' : Cpu Q, (executeInstruction false op d).Runs t (x, d') ∧ Corr c' d' := by
  by_cases hv : varies (op :: opcodesOf t) = true
  · by_cases h0 : varies0 op = true
    · have h3 := imp8 (p := varies0) (q := fun op => op == 0x02#8 || op == 0x12#8 || op == 0x32#8 ||
        op == 0xD3#8 || op == 0x37#8 || op == 0x3F#8) (c := op) (by decide +kernel) h0
      simp only [Bool.or_eq_true, beq_iff_eq] at h3
      have h4 : op = 0x02#8 ∨ op = 0x12#8 ∨ op = 0x32#8 ∨ op = 0xD3#8 := by
        rcases h3 with ((((h | h) | h) | h) | h) | h
        · exact .inl h
        · exact .inr (.inl h)
        · exact .inr (.inr (.inl h))
        · exact .inr (.inr (.inr h))
        · exact absurd h h1
        · exact absurd h h2
      exact drives_agree (drive_instruction false op c) (drive_instruction false op d)
        (erase_quiet_instruction op c) (erase_quiet_instruction op d) (fun _ _ h => h)
        (varStoreA' _ _ rfl h4 hc) h fun _ _ h => h
    · rcases ht : opcodesOf t with _ | ⟨v, l⟩
      · rw [ht] at hv; exact absurd hv h0
      · rw [ht] at hv
        simp only [varies, Bool.or_eq_true, Bool.and_eq_true, beq_iff_eq] at hv
        rcases hv with hv | ⟨rfl, hv⟩
        · exact absurd hv h0
        · unfold variesEd at hv
          simp only [Bool.or_eq_true, beq_iff_eq] at hv
          exact C34_ed_alike (v := v) (by rcases hv with (rfl | rfl) | rfl <;> simp) hc h ht
  · exact C34_execute_instruction hc h (by simpa using hv)

theorem without_corr {p : U8} {c c1 d : Cpu Q} {a : U16} {b : U8}
    (h : abs c1 = afterPrefix p { abs c with pc := a, r := b })
    (hd : abs d = { abs c with pc := a, r := b, idx := .hl }) :
    Corr { c1 with pfx := none } { d with lastEi := false, halt := false } := by
  have e1 : abs { c1 with pfx := none } = { abs c1 with idx := .hl } := rfl
  have e2 : abs { d with lastEi := false, halt := false } =
    { abs d with ei := false, halted := false } := rfl
  unfold Corr
  rw [e1, e2, h, hd]
  rfl

/-- C15: a prefix byte followed by an opcode that uses neither HL nor its parts has the effect of the
opcode alone, with PC and R one further; SCF and CCF are excepted, see `C15_scf_ccf`. -/
theorem C15_as_without {p op : U8} (hp : isIxPrefix p = true) (ho : indexable op = false)
    (h1 : op ≠ 0x37#8) (h2 : op ≠ 0x3F#8) {c c1 c2 d : Cpu Q} {t u : List (Ev σ)} {x y : Res σ}
    {deb : Bool} (h : (executeNext deb c).Runs t (x, c1)) (ha : ackOf t = []) (hops : opcodesOf t = [p])
    (hd : abs d = { abs c with pc := c.pc + 1, r := refreshed c.getR 1, idx := .hl })
    (hn : (executeInstruction false op c1).Runs u (y, c2)) :
    ∃ d' : Cpu Q, (executeInstruction false op d).Runs u (y, d') ∧ Corr c2 d' := by
  obtain ⟨_, _, _, h3⟩ := C15_prefix_next h ha hp hops
  obtain ⟨c3, h4, h5⟩ := C15_unaffected ho hn
  obtain ⟨d2, h6, h7⟩ := same_but_history (d := { d with lastEi := false, halt := false }) h1 h2
    (without_corr h3 hd) h4
  obtain ⟨d', h8, h9⟩ := runs_of_abs (d := d) (drive_instruction false op)
    (erase_quiet_instruction op) rfl h6
  exact ⟨d', h8, by unfold Corr at *; rw [← h5, h7, h9]⟩

/-- C15: SCF and CCF after a prefix byte behave as without it but for the flags X and Y, since the
prefix byte counts as an instruction that leaves the flags alone. -/
theorem C15_scf_ccf {p op : U8} (hp : isIxPrefix p = true) (ho : op = 0x37#8 ∨ op = 0x3F#8)
    {c c1 c2 d : Cpu Q} {t u : List (Ev σ)} {x y : Res σ}
    {deb : Bool} (h : (executeNext deb c).Runs t (x, c1)) (ha : ackOf t = []) (hops : opcodesOf t = [p])
    (hd : abs d = { abs c with pc := c.pc + 1, r := refreshed c.getR 1, idx := .hl })
    (hn : (executeInstruction false op c1).Runs u (y, c2)) :
    ∃ d' : Cpu Q, (executeInstruction false op d).Runs u (y, d') ∧ (abs c2).noXY = (abs d').noXY := by
  obtain ⟨_, _, _, h3⟩ := C15_prefix_next h ha hp hops
  obtain ⟨c3, h4, h5⟩ := C15_unaffected (by rcases ho with rfl | rfl <;> decide) hn
  obtain ⟨d2, h6, h7⟩ := C34_scf_ccf (c2 := { d with lastEi := false, halt := false }) ho
    (without_corr h3 hd) h4
  obtain ⟨d', h8, h9⟩ := runs_of_abs (d := d) (drive_instruction false op)
    (erase_quiet_instruction op) rfl h6
  exact ⟨d', h8, by rw [← h5, h7, h9]⟩

/-! ### Concrete cases -/

/-- The chain DD, FD, DD on the machine of the examples is one in the sense of `C15_chain`. -/
example : ∃ t c, Prefixes (σ := tsSig 16 Unit Unit) (Cpu.new : Cpu NMOS) ([0xDD, 0xFD] ++ [0xDD]) t c := by
  let m := program [0xDD, 0xFD, 0xDD, 0x26, 0x05]
  let s1 := (executeNext false (Cpu.new : Cpu NMOS)).run demo (0, m, ())
  let s2 := (executeNext false s1.1.2).run demo s1.2
  exact ⟨_, _, .snoc (deb := false) (ps := [0xDD, 0xFD]) (.snoc (deb := false) (ps := [0xDD]) (.snoc (deb := false) (ps := []) (.nil _)
    (runs_demo demo _ (0, m, ()) rfl) (by decide +kernel) (by decide) (by decide +kernel))
    (runs_demo demo _ s1.2 rfl) (by decide +kernel) (by decide) (by decide +kernel))
    (runs_demo demo _ s2.2 rfl) (by decide +kernel) (by decide) (by decide +kernel)⟩

/-- Followed by `LD H,5` it loads IXH, and no prefix is pending. -/
example :
    let s1 := (executeNext false (Cpu.new : Cpu NMOS)).run demo
      (0, program [0xDD, 0xFD, 0xDD, 0x26, 0x05], ())
    let s2 := (executeNext false s1.1.2).run demo s1.2
    let s3 := (executeNext false s2.1.2).run demo s2.2
    let s4 := (executeNext false s3.1.2).run demo s3.2
    s3.1.2.pfx = some .xdd ∧ s4.1.2.ix.hi = 5#8 ∧ s4.1.2.pfx = none := by decide +kernel

/-- There are opcodes of both kinds, and SCF after a prefix byte is indeed an exception on NMOS: after
an instruction that changed the flags (`CP n`) it sets X and Y from A only, and with a prefix byte in
between from A and F. -/
example : indexable 0x78#8 = false ∧ indexable 0x7C#8 = true ∧ indexable 0xEB#8 = false ∧
    (let go := fun l n => (Nat.rec (motive := fun _ => (Res (tsSig 16 Unit Unit) × Cpu NMOS) ×
        (BitVec 16 × Mem × Unit))
        (((Res.ok, { Cpu.new with af := ⟨0x00, 0⟩ }) : Res (tsSig 16 Unit Unit) × Cpu NMOS), (0, program l, ()))
        (fun _ s => (executeNext false s.1.2).run demo s.2) n).1.2.af.lo
     (go [0xFE, 0x28, 0x37] 2 &&& 0x28#8 = 0#8) ∧ (go [0xFE, 0x28, 0xDD, 0x37] 3 &&& 0x28#8 = 0x28#8)) := by
  decide +kernel

end Z80
