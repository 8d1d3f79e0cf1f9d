import Verif.Props.Shuffle
import Verif.Proofs.ShuffleQuickDeep
import Verif.Proofs.ShuffleQuickDownDeep
import Verif.Proofs.ShufflePeriod

/-!
# Quick sort in the test program (C83)

The two routines of `/repo/tests/shuffle/shuffle.bin` that `/repo/tests/shuffle_test.rs` runs beside those of C71. They
call themselves for one of the two parts of the array, with 6 bytes of stack for each level; the stack has 512 bytes.
-/

namespace Z80
open Spec Spec.Shuffle Routine
variable {Q : Type} [FlavourSpec Q] {w : Nat} {O R I : Type}

/-- What is to be seen after resetting the CPU and calling `execute_next` until it stops: HALT is reported, the stack
is empty, devices have not been used, and the memory is as `P` says. -/
def Finishes (io : Handler (tsSig w O R) I) (deb : Bool) (c : Cpu Q) (t : BitVec w) (m : Mem) (i : I)
    (P : Mem → Prop) : Prop :=
  ∃ n c' m' t', untilStop io deb n c.reset (t, m, i) = some (.halt, c', t', m', i) ∧
    c'.halt = true ∧ c'.sp = 1506 ∧ P m'

/-- After some calls of `execute_next`, with nothing but "carry on" reported, the CPU and the memory are as `P` says. -/
def Passes (io : Handler (tsSig w O R) I) (deb : Bool) (c : Cpu Q) (t : BitVec w) (m : Mem) (i : I)
    (P : Cpu Q → Mem → Prop) : Prop :=
  ∃ k c' t' m', (∀ n, untilStop io deb (k + n) c.reset (t, m, i) = untilStop io deb n c' (t', m', i)) ∧ P c' m'

theorem outcome (io : Handler (tsSig w O R) I) (deb : Bool) {a q : U16} {F : Nat} {P : Mem → Mem → Prop}
    (hr : ∀ c : Core, Loaded c.mem → c.pc = a → c.sp = 0x5E0 → ∃ d : Core, Run (FlavourSpec.opt Q) (envOf io) c d ∧
      ((d.pc = q ∧ d.sp.toNat = F) ∨
       (d.pc = word (c.mem 0x5E1) (c.mem 0x5E0) ∧ d.sp = 0x5E2 ∧ Loaded d.mem ∧ P c.mem d.mem)))
    (c : Cpu Q) (t : BitVec w) (m : Mem) (i : I) (hm : Loaded m) (ha : Starts m a) :
    Finishes io deb c t m i (P (push m 0x5E2 13)) ∨
      Passes io deb c t m i (fun c' _ => c'.pc = q ∧ c'.sp.toNat = F) := by
  have e := coreOf_mach (abs c.reset) m i t rfl rfl rfl
  obtain ⟨b, r1, bp, bs, bm, bt⟩ := boot (o := FlavourSpec.opt Q) (v := envOf io) (c := coreOf (abs c.reset) m)
    hm rfl ha
  have hb : Loaded b.mem := by rw [bm]; exact loaded_push hm _ (by decide)
  obtain ⟨d, r2, h⟩ := hr b hb bp bs
  obtain ⟨k, c1, t1, y, g1, g2⟩ := untilStop_runs io deb (r1.trans r2) e
  rcases h with ⟨h1, h2⟩ | ⟨h1, h2, h3, h4⟩
  · refine .inr ⟨k, c1, t1, d.mem, g1, ?_, ?_⟩
    · exact (congrArg (fun z : Mach w I => z.r.pc) g2).trans h1
    · exact (congrArg (fun z : Mach w I => z.r.sp.toNat) g2).trans h2
  · have dp : d.pc = 13 := by
      rw [h1, bm, push_eq]
      have h1 : put (put m (0x5E2 - 1) (hi8 13)) (0x5E2 - 2) (lo8 13) 0x5E1 = hi8 13 :=
        (put_other _ _ (by decide)).trans (put_same _ _ _)
      have h2 : put (put m (0x5E2 - 1) (hi8 13)) (0x5E2 - 2) (lo8 13) 0x5E0 = lo8 13 := put_same _ _ _
      exact (congr (congrArg word h1) h2).trans (word_hi8_lo8 _)
    obtain ⟨c2, z, g3, g4⟩ := untilStop_halt io deb (halts h3 dp) g2
    rw [bm] at h4
    exact .inl ⟨k + 1, c2, d.mem, _, (g1 1).trans g3, congrArg Regs.halted g4, (congrArg Regs.sp g4).trans h2, h4⟩

theorem outcome_done (io : Handler (tsSig w O R) I) (deb : Bool) {a : U16} {K : Mem → Prop} {P : Mem → Mem → Prop}
    (hr : ∀ c : Core, Loaded c.mem → c.pc = a → c.sp = 0x5E0 → K c.mem →
      ∃ d : Core, Run (FlavourSpec.opt Q) (envOf io) c d ∧
        d.pc = word (c.mem 0x5E1) (c.mem 0x5E0) ∧ d.sp = 0x5E2 ∧ Loaded d.mem ∧ P c.mem d.mem)
    (c : Cpu Q) (t : BitVec w) (m : Mem) (i : I) (hm : Loaded m) (ha : Starts m a) (hk : K (push m 0x5E2 13)) :
    Finishes io deb c t m i (P (push m 0x5E2 13)) := by
  have e := coreOf_mach (abs c.reset) m i t rfl rfl rfl
  obtain ⟨b, r1, bp, bs, bm, bt⟩ := boot (o := FlavourSpec.opt Q) (v := envOf io) (c := coreOf (abs c.reset) m)
    hm rfl ha
  have hb : Loaded b.mem := by rw [bm]; exact loaded_push hm _ (by decide)
  obtain ⟨d, r2, h1, h2, h3, h4⟩ := hr b hb bp bs (by rw [bm]; exact hk)
  obtain ⟨k, c1, t1, y, g1, g2⟩ := untilStop_runs io deb (r1.trans r2) e
  have dp : d.pc = 13 := by
    rw [h1, bm, push_eq]
    have h1 : put (put m (0x5E2 - 1) (hi8 13)) (0x5E2 - 2) (lo8 13) 0x5E1 = hi8 13 :=
      (put_other _ _ (by decide)).trans (put_same _ _ _)
    have h2 : put (put m (0x5E2 - 1) (hi8 13)) (0x5E2 - 2) (lo8 13) 0x5E0 = lo8 13 := put_same _ _ _
    exact (congr (congrArg word h1) h2).trans (word_hi8_lo8 _)
  obtain ⟨c2, z, g3, g4⟩ := untilStop_halt io deb (halts h3 dp) g2
  rw [bm] at h4
  exact ⟨k + 1, c2, d.mem, _, (g1 1).trans g3, congrArg Regs.halted g4, (congrArg Regs.sp g4).trans h2, h4⟩

/-- Nothing but the array and memory from `F` to the end of the stack has changed. -/
def ConfinedTo (F : Nat) (m m' : Mem) : Prop :=
  ∀ a : U16, ¬ (716 ≤ a.toNat ∧ a.toNat < 972) → ¬ (F ≤ a.toNat ∧ a.toNat < 1506) → m' a = m a

theorem confinedTo_push {F : Nat} {m m' : Mem} (hF : F ≤ 1504)
    (h : ∀ a : U16, ¬ (716 ≤ a.toNat ∧ a.toNat < 972) → ¬ (F ≤ a.toNat ∧ a.toNat < 1504) → m' a = push m 0x5E2 13 a) :
    ConfinedTo F m m' := by
  intro a h1 h2
  rw [h a h1 (by omega), push_eq, put_other, put_other]
  · intro e; subst e; exact h2 ⟨by simp only [BitVec.reduceSub, BitVec.reduceToNat]; omega, by decide⟩
  · intro e; subst e; exact h2 ⟨by simp only [BitVec.reduceSub, BitVec.reduceToNat]; omega, by decide⟩

theorem quick_ascending (io : Handler (tsSig w O R) I) (deb : Bool) {F : Nat} (hF : 972 ≤ F) (hF2 : F ≤ 1504)
    (hF3 : (1504 - F) % 6 = 0) (c : Cpu Q) (t : BitVec w) (m : Mem) (i : I) (hm : Loaded m) (ha : Starts m 399) :
    Finishes io deb c t m i (fun m' => Ascending m' ∧ Rearranged m m' ∧ ConfinedTo F m m') ∨
      Passes io deb c t m i (fun c' _ => c'.pc = 413 ∧ c'.sp.toNat = F) := by
  rcases outcome (Q := Q) io deb (a := 399) (q := 413) (F := F) (P := fun m m' => Ascending m' ∧ Rearranged m m' ∧
      (∀ a : U16, ¬ (716 ≤ a.toNat ∧ a.toNat < 972) → ¬ (F ≤ a.toNat ∧ a.toNat < 1504) → m' a = m a))
    (fun c h1 h2 h3 => by
      obtain ⟨d, r, h, _⟩ := quickAll (o := FlavourSpec.opt Q) (v := envOf io) hF hF2 hF3 h1 h2 h3
      refine ⟨d, r, ?_⟩
      rcases h with h | h
      · exact .inl ⟨h.pc, h.sp⟩
      · have f := h.frame
        have e := h.pc
        have s := h.sp
        rw [h3] at e f s
        exact .inr ⟨e, s, f.loaded (by omega) h1, fun x y a b => h.order x y (Nat.zero_le _) a (by omega),
          h.mixed.rearranged, fun a q1 q2 => f a (by omega) q2⟩) c t m i hm ha with h | h
  · obtain ⟨n, c', m', t', g1, g2, g3, g4, g5, g6⟩ := h
    exact .inl ⟨n, c', m', t', g1, g2, g3, g4, (push_order (P := Ascending) ⟨g4, g5⟩).2, confinedTo_push hF2 g6⟩
  · exact .inr h

theorem quick_descending (io : Handler (tsSig w O R) I) (deb : Bool) {F : Nat} (hF : 972 ≤ F) (hF2 : F ≤ 1504)
    (hF3 : (1504 - F) % 6 = 0) (c : Cpu Q) (t : BitVec w) (m : Mem) (i : I) (hm : Loaded m) (ha : Starts m 486) :
    Finishes io deb c t m i (fun m' => Descending m' ∧ Rearranged m m' ∧ ConfinedTo F m m') ∨
      Passes io deb c t m i (fun c' _ => c'.pc = 500 ∧ c'.sp.toNat = F) := by
  rcases outcome (Q := Q) io deb (a := 486) (q := 500) (F := F) (P := fun m m' => Descending m' ∧ Rearranged m m' ∧
      (∀ a : U16, ¬ (716 ≤ a.toNat ∧ a.toNat < 972) → ¬ (F ≤ a.toNat ∧ a.toNat < 1504) → m' a = m a))
    (fun c h1 h2 h3 => by
      obtain ⟨d, r, h, _⟩ := Down.quickAll (o := FlavourSpec.opt Q) (v := envOf io) hF hF2 hF3 h1 h2 h3
      refine ⟨d, r, ?_⟩
      rcases h with h | h
      · exact .inl ⟨h.pc, h.sp⟩
      · have f := h.frame
        have e := h.pc
        have s := h.sp
        rw [h3] at e f s
        refine .inr ⟨e, s, f.loaded (by omega) h1 (by decide), fun x y a b => ?_,
          h.mixed.rearranged, fun a q1 q2 => f a (by omega) q2⟩
        rw [Down.elem_true _ b, Down.elem_true _ (by omega)]
        exact h.order (255 - y) (255 - x) (Nat.zero_le _) (by omega) (by omega)) c t m i hm ha with h | h
  · obtain ⟨n, c', m', t', g1, g2, g3, g4, g5, g6⟩ := h
    exact .inl ⟨n, c', m', t', g1, g2, g3, g4, (push_order (P := Descending) ⟨g4, g5⟩).2, confinedTo_push hF2 g6⟩
  · exact .inr h

/-- C83: quick sort, ascending (`/repo/tests/shuffle/shuffle.bin` 399-485). Missing: nothing is said about arrays for
which the routine calls itself (at 413) with the stack used up; `C83_refuted_ascending` gives one. -/
theorem C83_quick_ascending_partial (io : Handler (tsSig w O R) I) (deb : Bool) (c : Cpu Q) (t : BitVec w) (m : Mem)
    (i : I) (hm : Loaded m) (ha : Starts m 399) :
    Finishes io deb c t m i (fun m' => Ascending m' ∧ Rearranged m m' ∧ Confined m m') ∨
      Passes io deb c t m i (fun c' _ => c'.pc = 413 ∧ c'.sp.toNat = 994) :=
  quick_ascending io deb (by decide) (by decide) (by decide) c t m i hm ha

/-- C83: quick sort, descending (`/repo/tests/shuffle/shuffle.bin` 486-572). Missing: as above, with 500 for 413. -/
theorem C83_quick_descending_partial (io : Handler (tsSig w O R) I) (deb : Bool) (c : Cpu Q) (t : BitVec w) (m : Mem)
    (i : I) (hm : Loaded m) (ha : Starts m 486) :
    Finishes io deb c t m i (fun m' => Descending m' ∧ Rearranged m m' ∧ Confined m m') ∨
      Passes io deb c t m i (fun c' _ => c'.pc = 500 ∧ c'.sp.toNat = 994) :=
  quick_descending io deb (by decide) (by decide) (by decide) c t m i hm ha

/-- C83: three levels more do no harm but to the buffer below the stack. -/
theorem C83_beyond_partial (io : Handler (tsSig w O R) I) (deb : Bool) (c : Cpu Q) (t : BitVec w) (m : Mem) (i : I)
    (hm : Loaded m) :
    (Starts m 399 → Finishes io deb c t m i (fun m' => Ascending m' ∧ Rearranged m m' ∧ ConfinedTo 976 m m') ∨
      Passes io deb c t m i (fun c' _ => c'.pc = 413 ∧ c'.sp.toNat = 976)) ∧
    (Starts m 486 → Finishes io deb c t m i (fun m' => Descending m' ∧ Rearranged m m' ∧ ConfinedTo 976 m m') ∨
      Passes io deb c t m i (fun c' _ => c'.pc = 500 ∧ c'.sp.toNat = 976)) :=
  ⟨quick_ascending io deb (by decide) (by decide) (by decide) c t m i hm,
    quick_descending io deb (by decide) (by decide) (by decide) c t m i hm⟩

theorem sorted_below {f g p q : Nat → Nat} (hf : ∀ i j, i ≤ j → j < 256 → f i ≤ f j)
    (hg : ∀ i j, i ≤ j → j < 256 → g i ≤ g j) (hp : ∀ i, i < 256 → p i < 256 ∧ q (p i) = i)
    (h : ∀ i, i < 256 → g i = f (p i)) {i : Nat} (hi : i < 256) : f i ≤ g i := by
  by_cases q1 : f i ≤ g i
  · exact q1
  · exfalso
    refine squeeze i p (fun j hj => ?_) (fun j k hj hk e => ?_)
    · by_cases q2 : p j < i
      · exact q2
      · have a := hf i (p j) (by omega) (hp j (by omega)).1
        have b := hg j i hj hi
        rw [h j (by omega)] at b
        omega
    · rw [← (hp j (by omega)).2, e, (hp k (by omega)).2]

theorem sorted_unique {f g : Nat → Nat} {p q : Nat → Nat} (hf : ∀ i j, i ≤ j → j < 256 → f i ≤ f j)
    (hg : ∀ i j, i ≤ j → j < 256 → g i ≤ g j) (hp : ∀ i, i < 256 → p i < 256 ∧ q (p i) = i)
    (hq : ∀ i, i < 256 → q i < 256 ∧ p (q i) = i) (h : ∀ i, i < 256 → g i = f (p i)) {i : Nat} (hi : i < 256) :
    g i = f i :=
  Nat.le_antisymm
    (sorted_below hg hf hq (fun j hj => by rw [h _ (hq j hj).1, (hq j hj).2]) hi)
    (sorted_below hf hg hp h hi)

theorem ascending_unique {m m' : Mem} (h : Ascending m) (h' : Ascending m') (hr : Rearranged m m') :
    ∀ x, x < 256 → elem m' x = elem m x := fun x hx => by
  obtain ⟨p, q, hp, hq, he⟩ := hr
  exact BitVec.eq_of_toNat_eq (sorted_unique (f := fun x => (elem m x).toNat) (g := fun x => (elem m' x).toNat)
    h h' hp hq (fun j hj => congrArg BitVec.toNat (he j hj)) hx)

theorem descending_unique {m m' : Mem} (h : Descending m) (h' : Descending m') (hr : Rearranged m m') :
    ∀ x, x < 256 → elem m' x = elem m x := fun x hx => by
  obtain ⟨p, q, hp, hq, he⟩ := hr
  have e := sorted_unique (f := fun x => 255 - (elem m x).toNat) (g := fun x => 255 - (elem m' x).toNat)
    (fun i j a b => Nat.sub_le_sub_left (h i j a b) 255) (fun i j a b => Nat.sub_le_sub_left (h' i j a b) 255) hp hq
    (fun j hj => by rw [he j hj]) hx
  exact BitVec.eq_of_toNat_eq (by omega)

/-- C83: an array in order already is left as it is: for such arrays the routines do come to their end. -/
theorem C83_ordered_partial (io : Handler (tsSig w O R) I) (deb : Bool) (c : Cpu Q) (t : BitVec w) (m : Mem) (i : I)
    (hm : Loaded m) :
    (Starts m 399 → Ascending m → Finishes io deb c t m i (fun m' => (∀ x, x < 256 → elem m' x = elem m x) ∧ Confined m m')) ∧
    (Starts m 486 → Descending m → Finishes io deb c t m i (fun m' => (∀ x, x < 256 → elem m' x = elem m x) ∧ Confined m m')) := by
  refine ⟨fun ha ho => ?_, fun ha ho => ?_⟩
  · have h := outcome_done (Q := Q) io deb (a := 399) (K := Ascending) (P := fun m m' => Ascending m' ∧ Rearranged m m' ∧
        (∀ a : U16, ¬ (716 ≤ a.toNat ∧ a.toNat < 972) → ¬ (994 ≤ a.toNat ∧ a.toNat < 1504) → m' a = m a))
      (fun c h1 h2 h3 h4 => by
        obtain ⟨d, r, _, h⟩ := quickAll (o := FlavourSpec.opt Q) (v := envOf io) (F := 994) (by decide) (by decide)
          (by decide) h1 h2 h3
        have h := h (fun x y _ a b => h4 x y a (by omega)) (Nat.le_refl _)
        have f := h.frame
        have e := h.pc
        have s := h.sp
        rw [h3] at e f s
        exact ⟨d, r, e, s, f.loaded (by omega) h1, fun x y a b => h.order x y (Nat.zero_le _) a (by omega),
          h.mixed.rearranged, fun a q1 q2 => f a (by omega) q2⟩) c t m i hm ha
      (fun x y a b => by
        rw [elem_push _ (by omega) (by decide), elem_push _ b (by decide)]; exact ho x y a b)
    obtain ⟨n, c', m', t', g1, g2, g3, g4, g5, g6⟩ := h
    exact ⟨n, c', m', t', g1, g2, g3, ascending_unique ho g4 (push_order (P := Ascending) ⟨g4, g5⟩).2,
      confinedTo_push (by decide) g6⟩
  · have h := outcome_done (Q := Q) io deb (a := 486) (K := Descending) (P := fun m m' => Descending m' ∧ Rearranged m m' ∧
        (∀ a : U16, ¬ (716 ≤ a.toNat ∧ a.toNat < 972) → ¬ (994 ≤ a.toNat ∧ a.toNat < 1504) → m' a = m a))
      (fun c h1 h2 h3 h4 => by
        obtain ⟨d, r, _, h⟩ := Down.quickAll (o := FlavourSpec.opt Q) (v := envOf io) (F := 994) (by decide) (by decide)
          (by decide) h1 h2 h3
        have h := h (fun x y _ a b => by
          have := h4 (255 - y) (255 - x) (by omega) (by omega)
          rw [Down.elem_true _ (by omega), Down.elem_true _ (by omega), show 255 - (255 - y) = y by omega,
            show 255 - (255 - x) = x by omega] at this
          exact this) (Nat.le_refl _)
        have f := h.frame
        have e := h.pc
        have s := h.sp
        rw [h3] at e f s
        refine ⟨d, r, e, s, f.loaded (by omega) h1 (by decide), fun x y a b => ?_,
          h.mixed.rearranged, fun a q1 q2 => f a (by omega) q2⟩
        rw [Down.elem_true _ b, Down.elem_true _ (by omega)]
        exact h.order (255 - y) (255 - x) (Nat.zero_le _) (by omega) (by omega)) c t m i hm ha
      (fun x y a b => by
        rw [elem_push _ b (by decide), elem_push _ (by omega) (by decide)]; exact ho x y a b)
    obtain ⟨n, c', m', t', g1, g2, g3, g4, g5, g6⟩ := h
    exact ⟨n, c', m', t', g1, g2, g3, descending_unique ho g4 (push_order (P := Descending) ⟨g4, g5⟩).2,
      confinedTo_push (by decide) g6⟩

/-- The program with an array given by a function. -/
def quickTask (a : U16) (f : Nat → Nat) : Mem := fun x =>
  if x.toNat < 712 then bytes.getD x.toNat 0
  else if x = 972 then lo8 a
  else if x = 973 then hi8 a
  else if x.toNat < 716 then 0
  else if x.toNat < 972 then BitVec.ofNat 8 (f (x.toNat - 716)) else 0

theorem quickTask_loaded (a : U16) (f : Nat → Nat) : Loaded (quickTask a f) := by
  intro i hi
  have h : (BitVec.ofNat 16 i).toNat = i := by rw [BitVec.toNat_ofNat]; omega
  unfold quickTask
  rw [h, if_pos hi]

theorem quickTask_starts (a : U16) (f : Nat → Nat) : Starts (quickTask a f) a := by
  show word (hi8 a) (lo8 a) = a
  exact word_hi8_lo8 a

theorem quickTask_elem (a : U16) (f : Nat → Nat) {x : Nat} (hx : x < 256) (hf : f x < 256) :
    (elem (quickTask a f) x).toNat = f x := by
  have h : (BitVec.ofNat 16 (716 + x)).toNat = 716 + x := by rw [BitVec.toNat_ofNat]; omega
  unfold elem quickTask
  rw [if_neg (by omega), if_neg (ne_nat (by rw [h]; show _ ≠ 972; omega)),
    if_neg (ne_nat (by rw [h]; show _ ≠ 973; omega)), if_neg (by omega), if_pos (by omega), BitVec.toNat_ofNat, h,
    show 716 + x - 716 = x by omega]
  omega

/-- Below the stack. -/
theorem quickTask_out (a : U16) (f : Nat → Nat) : quickTask a f 993 = 0 := rfl

theorem deep_byte (x : Nat) (hx : x < 256) : deep 0 x < 256 := by
  unfold deep; repeat' split
  all_goals omega

theorem deep_byte_down (x : Nat) (hx : x < 256) : Down.deep 0 x < 256 := by
  unfold Down.deep; repeat' split
  all_goals omega

theorem overwritten (io : Handler (tsSig w O R) I) (deb : Bool) {a : U16} {f : Nat → Nat}
    (hr : ∀ c : Core, c.mem = push (quickTask a f) 0x5E2 13 → c.pc = a → c.sp = 0x5E0 →
      ∃ d : Core, Run (FlavourSpec.opt Q) (envOf io) c d ∧ d.mem 993 ≠ 0)
    (c : Cpu Q) (t : BitVec w) (i : I) :
    Passes io deb c t (quickTask a f) i (fun _ m' => ¬ Confined (quickTask a f) m') := by
  have e := coreOf_mach (abs c.reset) (quickTask a f) i t rfl rfl rfl
  obtain ⟨b, r1, bp, bs, bm, bt⟩ := boot (o := FlavourSpec.opt Q) (v := envOf io)
    (c := coreOf (abs c.reset) (quickTask a f)) (quickTask_loaded a f) rfl (quickTask_starts a f)
  obtain ⟨d, r2, h⟩ := hr b bm bp bs
  obtain ⟨k, c1, t1, y, g1, g2⟩ := untilStop_runs io deb (r1.trans r2) e
  refine ⟨k, c1, t1, d.mem, g1, fun hc => h ?_⟩
  rw [hc 993 (by decide) (by decide), quickTask_out]

/-- C83 refuted: there is an array for which the routine for ascending order overwrites memory outside the array and
the stack. -/
theorem C83_refuted_ascending (io : Handler (tsSig w O R) I) (deb : Bool) (c : Cpu Q) (t : BitVec w) (i : I) :
    ∃ m, Loaded m ∧ Starts m 399 ∧ Passes io deb c t m i (fun _ m' => ¬ Confined m m') := by
  refine ⟨quickTask 399 (deep 0), quickTask_loaded _ _, quickTask_starts _ _, overwritten io deb (fun b bm bp bs => ?_) c t i⟩
  have hb : Loaded b.mem := by rw [bm]; exact loaded_push (quickTask_loaded _ _) _ (by decide)
  obtain ⟨c1, r1, p1, m1, s1, e1, l1⟩ := qaStart (o := FlavourSpec.opt Q) (v := envOf io) hb bp
  obtain ⟨d, r2, p2, s2, e2, l2, _, f2⟩ := levels (o := FlavourSpec.opt Q) (v := envOf io) 85 c1 (by decide)
    (m1.symm ▸ hb) p1 e1 l1 (by rw [s1, bs]; rfl) (fun x hx => by
      unfold val
      rw [m1, bm, elem_push _ (by omega) (by decide), quickTask_elem _ _ (by omega) (deep_byte x (by omega))])
  have hm2 : Loaded d.mem := f2.loaded (by decide) (m1.symm ▸ hb)
  have hs : d.sp = 994 := BitVec.eq_of_toNat_eq s2
  refine ⟨_, (r1.trans r2).trans (.step (pushDe d (by rw [p2]; exact hm2.at_code _ _ (by decide +kernel))) (.refl _)), ?_⟩
  show push d.mem d.sp d.de 993 ≠ 0
  rw [hs, e2, show (993 : U16) = 994 - 1 by decide, push_hi]
  decide

/-- C83 refuted: and one for which the routine for descending order does. -/
theorem C83_refuted_descending (io : Handler (tsSig w O R) I) (deb : Bool) (c : Cpu Q) (t : BitVec w) (i : I) :
    ∃ m, Loaded m ∧ Starts m 486 ∧ Passes io deb c t m i (fun _ m' => ¬ Confined m m') := by
  refine ⟨quickTask 486 (fun x => Down.deep 0 (255 - x)), quickTask_loaded _ _, quickTask_starts _ _,
    overwritten io deb (fun b bm bp bs => ?_) c t i⟩
  have hb : Loaded b.mem := by rw [bm]; exact loaded_push (quickTask_loaded _ _) _ (by decide)
  obtain ⟨c1, r1, p1, m1, s1, e1, l1⟩ := Down.qaStart (o := FlavourSpec.opt Q) (v := envOf io) hb bp
  obtain ⟨d, r2, p2, s2, e2, l2, _, f2⟩ := Down.levels (o := FlavourSpec.opt Q) (v := envOf io) 85 c1 (by decide)
    (m1.symm ▸ hb) p1 l1 e1 (by rw [s1, bs]; rfl) (fun x hx => by
      unfold Down.val
      rw [m1, bm, Down.elem_push _ (by omega) (by decide), show x = 255 - (255 - x) by omega,
        ← Down.elem_true _ (by omega)]
      exact quickTask_elem 486 (fun x => Down.deep 0 (255 - x)) (by omega) (deep_byte_down _ (by omega)))
  have hm2 : Loaded d.mem := f2.loaded (by decide) (m1.symm ▸ hb) (by decide)
  have hs : d.sp = 994 := BitVec.eq_of_toNat_eq s2
  refine ⟨_, (r1.trans r2).trans (.step (pushDe d (by rw [p2]; exact hm2.at_code _ _ (by decide +kernel))) (.refl _)), ?_⟩
  show push d.mem d.sp d.de 993 ≠ 0
  rw [hs, e2, show (993 : U16) = 994 - 1 by decide, push_hi]
  decide

/-- There are arrays to be sorted, neither in ascending nor in descending order before. -/
example : Loaded (sortingTask 399) ∧ Starts (sortingTask 399) 399 ∧ Starts (sortingTask 486) 486 ∧
    ¬ Ascending (sortingTask 399) ∧ ¬ Descending (sortingTask 486) :=
  ⟨sortingTask_loaded _, sortingTask_starts _, sortingTask_starts _,
    fun h => absurd (h 3 4 (by decide) (by decide)) (by decide +kernel),
    fun h => absurd (h 0 1 (by decide) (by decide)) (by decide +kernel)⟩

/-- There are arrays in order already, not all of whose elements are the same. -/
example : Loaded (quickTask 399 id) ∧ Starts (quickTask 399 id) 399 ∧ Ascending (quickTask 399 id) ∧
    Loaded (quickTask 486 (255 - ·)) ∧ Starts (quickTask 486 (255 - ·)) 486 ∧ Descending (quickTask 486 (255 - ·)) := by
  refine ⟨quickTask_loaded _ _, quickTask_starts _ _, fun x y a b => ?_, quickTask_loaded _ _, quickTask_starts _ _,
    fun x y a b => ?_⟩
  · rw [quickTask_elem _ _ b b, quickTask_elem 399 id (x := x) (by omega) (by simp only [id]; omega)]
    exact a
  · rw [quickTask_elem 486 (255 - ·) b (by omega), quickTask_elem 486 (255 - ·) (x := x) (by omega) (by omega)]
    omega

end Z80
