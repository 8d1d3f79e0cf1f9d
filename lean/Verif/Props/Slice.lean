import Verif.Proofs.Slice

/-!
# C51: the emulation can be cut into slices; C31 in both directions

`ReturnsWith H l c s e c' s'` (Proofs/Lap): with the host `H` in state `s`, `execute_with_limit` with
the limit `l` returns `e`, leaving the CPU `c'` and the host in state `s'`. `Trip` (Proofs/Slice):
rounds of `execute_next`, each after a test of the limit.
-/

namespace Z80

variable {σ : Sig} {Q S : Type}

section
variable [Flavour Q]

/-! ## C31 in both directions -/

/-- C31, when no device puts `EI` on the bus and no interrupt request is taken back between two
queries: what `execute_with_limit` does is exactly a sequence of rounds of `execute_next`, each
preceded by a test of the limit, up to the first test that succeeds or the first round that returns a
break. In a round that wakes a halted CPU the interrupt request is asked for twice. -/
theorem C31_limit_is_rounds_partial (l : σ.L) {c c' : Cpu Q} (hc : Calm c) {t : List (Ev σ)}
    {e : Res σ} (hN : NoEi t) (hT : NoTakeBack t) :
    (∃ n, (executeWithLimit n l c).Runs t (some (e, c'))) ↔ Trip l c t e c' :=
  ⟨ends_trip hc hN hT, fun h => trip_ends h hc hN⟩

/-! ## C51 -/

/-- What C51 asks of the host: testing the limit has no effect, no device puts the opcode of `EI` on
the bus when acknowledged, and a device that asks for an interrupt still asks for it when it is
queried again at once. -/
structure Sliceable (H : Handler σ S) : Prop where
  tests : ∀ l s, (H (.isPastLimit l) s).2 = s
  noEi : ∀ pc ts s, (H (.irqData pc ts) s).1.1 ≠ 0xFB
  keeps : ∀ ts s, (H (.isIrq ts) s).1 = true →
    let q := H .asTimestamp (H (.isIrq ts) s).2
    (H (.isIrq q.1) q.2).1 = true

theorem Sliceable.quiet {H : Handler σ S} (hH : Sliceable H) {s s' : S} {t : List (Ev σ)}
    (h : Follows H s t s') : NoEi t ∧ NoTakeBack t := by
  constructor
  · intro pc ts v hv
    obtain ⟨a, b, rfl⟩ := List.append_of_mem hv
    obtain ⟨s1, -, h1, -⟩ := follows_append.1 h
    have h1 : (H (.irqData pc ts) s1).1 = v := h1
    rw [← h1]
    exact hH.noEi pc ts s1
  · rintro ts ts' ⟨a, b, rfl⟩
    obtain ⟨s1, h1, -⟩ := follows_append.1 h
    obtain ⟨s2, -, h2, h3, h4, -⟩ := follows_append.1 h1
    have h3 : (H .asTimestamp (H (.isIrq ts) s2).2).1 = ts' := h3
    subst h3
    have := hH.keeps ts s2 h2
    exact absurd (this.symm.trans h4) Bool.noConfusion

theorem Sliceable.trip {H : Handler σ S} (hH : Sliceable H) {l : σ.L} {c c' : Cpu Q} (hc : Calm c)
    {s s' : S} {e : Res σ} :
    ReturnsWith H l c s e c' s' ↔ ∃ t, Trip l c t e c' ∧ Follows H s t s' := by
  rw [returns_follows]
  constructor
  · rintro ⟨t, h1, h2⟩
    exact ⟨t, ends_trip hc (hH.quiet h2).1 (hH.quiet h2).2 h1, h2⟩
  · rintro ⟨t, h1, h2⟩
    exact ⟨t, trip_ends h1 hc (hH.quiet h2).1, h2⟩

theorem Sliceable.calm {H : Handler σ S} (hH : Sliceable H) {l : σ.L} {c c' : Cpu Q} (hc : Calm c)
    {s s' : S} {e : Res σ} (h : ReturnsWith H l c s e c' s') : Calm c' := by
  obtain ⟨t, ⟨n, h1⟩, h2⟩ := returns_follows.1 h
  exact limit_calm h1 (hH.quiet h2).1 (hH.quiet h2).2 hc

/-- C51: running up to the limit `l` is the same as running up to an earlier limit `k` and, if that
returns `Ok`, running on up to `l`: same result, same CPU, same host. -/
theorem C51_two_slices {H : Handler σ S} (hH : Sliceable H) {k l : σ.L} (hkl : Sooner H k l)
    {c c' : Cpu Q} (hc : Calm c) {s s' : S} {e : Res σ} :
    ReturnsWith H l c s e c' s' ↔
      (∃ d s1, ReturnsWith H k c s .ok d s1 ∧ ReturnsWith H l d s1 e c' s') ∨
        (e ≠ .ok ∧ ReturnsWith H k c s e c' s') := by
  constructor
  · intro h
    obtain ⟨t, h1, h2⟩ := (hH.trip hc).1 h
    rcases trip_cut hH.tests hkl h1 h2 with ⟨d, s1, t1, t2, a1, a2, a3, a4⟩ | ⟨he, t1, a1, a2⟩
    · have r1 := (hH.trip hc).2 ⟨t1, a1, a2⟩
      exact .inl ⟨d, s1, r1, (hH.trip (hH.calm hc r1)).2 ⟨t2, a3, a4⟩⟩
    · exact .inr ⟨he, (hH.trip hc).2 ⟨t1, a1, a2⟩⟩
  · rintro (⟨d, s1, h1, h2⟩ | ⟨he, h⟩)
    · obtain ⟨t1, a1, a2⟩ := (hH.trip hc).1 h1
      obtain ⟨t2, a3, a4⟩ := (hH.trip (hH.calm hc h1)).1 h2
      exact (hH.trip hc).2 ((trip_glue hH.tests hkl a1 a2).1 rfl a3 a4)
    · obtain ⟨t1, a1, a2⟩ := (hH.trip hc).1 h
      exact (hH.trip hc).2 ((trip_glue hH.tests hkl a1 a2).2 he)

/-- A loop of the host: `execute_with_limit` is called with each limit in turn as long as it returns
`Ok`. -/
def Slices (H : Handler σ S) : List σ.L → Cpu Q → S → Res σ → Cpu Q → S → Prop
  | [], c, s, e, c', s' => e = .ok ∧ c' = c ∧ s' = s
  | l :: ls, c, s, e, c', s' =>
    (∃ d s1, ReturnsWith H l c s .ok d s1 ∧ Slices H ls d s1 e c' s') ∨
      (e ≠ .ok ∧ ReturnsWith H l c s e c' s')

/-- C51 for any number of slices: calling `execute_with_limit` with a list of limits, none of them
later than the last one, has the same effect as the single call with the last one. -/
theorem C51_slices {H : Handler σ S} (hH : Sliceable H) {l : σ.L} (ls : List σ.L)
    (hl : ∀ k ∈ ls, Sooner H k l) {c c' : Cpu Q} (hc : Calm c) {s s' : S} {e : Res σ} :
    Slices H (ls ++ [l]) c s e c' s' ↔ ReturnsWith H l c s e c' s' := by
  induction ls generalizing c s with
  | nil =>
    constructor
    · rintro (⟨d, s1, h, rfl, rfl, rfl⟩ | ⟨-, h⟩) <;> exact h
    · intro h
      by_cases he : e = .ok
      · subst he
        exact .inl ⟨c', s', h, rfl, rfl, rfl⟩
      · exact .inr ⟨he, h⟩
  | cons k ls ih =>
    rw [C51_two_slices hH (hl k (List.mem_cons_self ..)) hc]
    have ih := fun {d s1} hd => @ih (fun j hj => hl j (List.mem_cons_of_mem k hj)) d hd s1
    constructor
    · rintro (⟨d, s1, h1, h2⟩ | h)
      · exact .inl ⟨d, s1, h1, (ih (hH.calm hc h1)).1 h2⟩
      · exact .inr h
    · rintro (⟨d, s1, h1, h2⟩ | h)
      · exact .inl ⟨d, s1, h1, (ih (hH.calm hc h1)).2 h2⟩
      · exact .inr h

end

section
variable [Flavour Q] {w : Nat} {O R B : Type}

/-- What C51 asks of the devices when the clock is a `TsCounter`. -/
structure QuietBus (bus : Bus (tsSig w O R) B) : Prop where
  noEi : ∀ pc ts b, (bus (.irqData pc ts) b).1.1 ≠ 0xFB
  keeps : ∀ ts ts' b, (bus (.isIrq ts) b).1 = true → (bus (.isIrq ts') (bus (.isIrq ts) b).2).1 = true

/-- C51 for a host with a `TsCounter`: any sequence of limits that do not exceed the last one. -/
theorem C51_counter {bus : Bus (tsSig w O R) B} (hb : QuietBus bus) (ls : List (BitVec w))
    {l : BitVec w} (hl : ∀ k ∈ ls, k ≤ l) {c c' : Cpu Q} (hc : Calm c) {s s' : BitVec w × B}
    {e : Res (tsSig w O R)} :
    Slices (tsHost bus) (ls ++ [l]) c s e c' s' ↔ ReturnsWith (tsHost bus) l c s e c' s' := by
  refine C51_slices (σ := tsSig w O R) ⟨fun l s => rfl, fun pc ts s => hb.noEi pc ts s.2, fun ts s => ?_⟩ ls ?_ hc
  · exact hb.keeps ts s.1 s.2
  · intro k hk s h
    have h : l ≤ s.1 := of_decide_eq_true h
    exact decide_eq_true (BitVec.le_trans (hl k hk) h)

end

/-! ## Limits of the claim, examples -/

/-- A run that ends with `e`. -/
theorem returns_run {σ : Sig} {S : Type} (n : Nat) (H : Handler σ S) (l : σ.L) (c : Cpu NMOS) (s : S)
    {e : Res σ} (hs : ((executeWithLimit n l c).run H s).1.map Prod.fst = some e) :
    ReturnsWith H l c s e ((((executeWithLimit n l c).run H s).1.map Prod.snd).getD c)
      ((executeWithLimit n l c).run H s).2 := by
  refine returns_of (n := n) ?_
  revert hs
  generalize (executeWithLimit n l c).run H s = r
  obtain ⟨_ | ⟨e', d⟩, s'⟩ := r
  · nofun
  · intro h
    cases h
    rfl

/-- A device that always asks for an interrupt and puts `v` on the bus. -/
abbrev asking (v : U8) := ramHost (demoIo true v none none)

/-- Without the condition on `EI` C51 is false: a device that always asks for an interrupt and
answers the acknowledge in mode 0 with the opcode of `EI`. In one go the limit is reached, in two
slices the `HALT` instruction is reached before it. -/
theorem C51_refuted_ei : ∃ (H : Handler (tsSig 16 Unit Unit) (BitVec 16 × Mem × Unit)) (k l : BitVec 16)
    (c : Cpu NMOS) (s : BitVec 16 × Mem × Unit),
    (∀ l s, (H (.isPastLimit l) s).2 = s) ∧ (∀ ts s, (H (.isIrq ts) s).1 = true) ∧ Sooner H k l ∧
    Calm c ∧ ∃ d s1 d2 s2 d3 s3, ReturnsWith H k c s .ok d s1 ∧ ReturnsWith H l d s1 .halt d2 s2 ∧
      ReturnsWith H l c s .ok d3 s3 := by
  refine ⟨asking 0xFB, 10, 40, intCpu, (0, program [0, 0, 0, 0xFB, 0x76], ()), fun _ _ => rfl,
    fun _ _ => rfl, fun s h => ?_, nofun, _, _, _, _, _, _,
    returns_run 9 _ _ _ _ (by rfl), returns_run 9 _ _ _ _ (by rfl), returns_run 9 _ _ _ _ (by rfl)⟩
  have h : (40 : BitVec 16) ≤ s.1 := of_decide_eq_true h
  exact decide_eq_true (BitVec.le_trans (by decide) h)

/-- Without the condition on repeated queries C51 is false: a halted CPU, a request taken back at
once, and the host has replaced the `HALT` opcode by `NOP`. -/
theorem C51_refuted_take_back : ∃ (H : Handler (tsSig 16 Unit Unit) (BitVec 16 × Mem × List Bool))
    (k l : BitVec 16) (c : Cpu NMOS) (s : BitVec 16 × Mem × List Bool),
    (∀ l s, (H (.isPastLimit l) s).2 = s) ∧ (∀ pc ts s, (H (.irqData pc ts) s).1.1 ≠ 0xFB) ∧
    Sooner H k l ∧ Calm c ∧
    ∃ d s1 d2 s2 d3 s3, ReturnsWith H k c s .ok d s1 ∧ ReturnsWith H l d s1 .ok d2 s2 ∧
      ReturnsWith H l c s .halt d3 s3 := by
  refine ⟨scripted 0xFF, 1, 20, haltedCpu, (0, program [0, 0x76], [true, false]), fun _ _ => rfl,
    fun _ _ _ => by show (0xFF : U8) ≠ 0xFB; decide, fun s h => ?_, fun _ => by decide +kernel, _, _, _, _, _, _,
    returns_run 9 _ _ _ _ (by rfl), returns_run 9 _ _ _ _ (by rfl), returns_run 9 _ _ _ _ (by rfl)⟩
  have h : (20 : BitVec 16) ≤ s.1 := of_decide_eq_true h
  exact decide_eq_true (BitVec.le_trans (by decide) h)

/-- C51 applies to machines whose devices ask for interrupts. -/
theorem quiet_demo (b : Bool) : QuietBus (ramBus (demoIo b 0xFF none none)) :=
  ⟨fun _ _ _ => by show (0xFF : U8) ≠ 0xFB; decide, fun _ _ _ h => h⟩

/-- Some such run, with an interrupt accepted in mode 1: running to 30 in one go and in the slices 7,
19, 30. -/
example : ∃ c' s', ReturnsWith (asking 0xFF) (30 : BitVec 16) (intCpu.setIm .mode1)
      (0, program [], ()) .ok c' s' ∧ s'.1 = 33 ∧
    Slices (asking 0xFF) ([7, 19] ++ [(30 : BitVec 16)]) (intCpu.setIm .mode1) (0, program [], ()) .ok c' s' := by
  obtain ⟨c', s', h, hs⟩ : ∃ c' s', ReturnsWith (asking 0xFF) (30 : BitVec 16) (intCpu.setIm .mode1)
      (0, program [], ()) .ok c' s' ∧ s'.1 = 33 :=
    ⟨_, _, returns_run 9 _ _ _ _ (by rfl), by decide +kernel⟩
  have hc : Calm (intCpu.setIm .mode1) := nofun
  have hl : ∀ k ∈ [(7 : BitVec 16), 19], k ≤ 30 := by simp
  exact ⟨c', s', h, hs, (C51_counter (quiet_demo true) [7, 19] hl hc).2 h⟩

/-- A run ended by a break in the first slice. -/
example : ∃ c' s', ReturnsWith (asking 0xFF) (30 : BitVec 16) (Cpu.new : Cpu NMOS)
      (0, program [0x76], ()) .halt c' s' ∧
    Slices (asking 0xFF) ([7, 19] ++ [(30 : BitVec 16)]) (Cpu.new : Cpu NMOS) (0, program [0x76], ()) .halt c' s' := by
  obtain ⟨c', s', h⟩ : ∃ c' s', ReturnsWith (asking 0xFF) (30 : BitVec 16) (Cpu.new : Cpu NMOS)
      (0, program [0x76], ()) .halt c' s' := ⟨_, _, returns_run 9 _ _ _ _ (by rfl)⟩
  have hc : Calm (Cpu.new : Cpu NMOS) := nofun
  have hl : ∀ k ∈ [(7 : BitVec 16), 19], k ≤ 30 := by simp
  exact ⟨c', s', h, (C51_counter (quiet_demo true) [7, 19] hl hc).2 h⟩

end Z80
