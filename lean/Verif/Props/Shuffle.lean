import Verif.Proofs.ShuffleBoot
import Verif.Proofs.ShuffleSelect
import Verif.Proofs.ShuffleInsert

/-!
# The test program sorts (C71)

`/repo/tests/shuffle_test.rs` runs a program in Z80 machine code, `/repo/tests/shuffle/shuffle.bin`, on six inputs.
Here the same bytes run on the model of the CPU, with any content of the array.
-/

namespace Z80
open Spec Spec.Shuffle Routine
variable {Q : Type} [FlavourSpec Q] {w : Nat} {O R I : Type}

/-- What is to be seen after resetting the CPU and calling `execute_next` until it stops: HALT is reported, the stack
is empty, memory has changed as `P` says but only in the array and the stack, devices have not been used, and between
`lo` and `hi` T-states have passed. -/
def Completes (io : Handler (tsSig w O R) I) (deb : Bool) (c : Cpu Q) (t : BitVec w) (m : Mem) (i : I)
    (P : Mem → Mem → Prop) (lo hi : Nat) : Prop :=
  ∃ n c' m' τ, untilStop io deb n c.reset (t, m, i) = some (.halt, c', t + BitVec.ofNat w τ, m', i) ∧
    c'.halt = true ∧ c'.sp = 1506 ∧ P m m' ∧ Confined m m' ∧ lo ≤ τ ∧ τ ≤ hi

theorem completes (io : Handler (tsSig w O R) I) (deb : Bool) {a : U16} {P : Mem → Mem → Prop} {lo hi : Nat}
    (hP : ∀ m m' : Mem, P (push m 0x5E2 13) m' → P m m')
    (hr : ∀ c : Core, Loaded c.mem → c.pc = a → c.sp = 0x5E0 → ∃ d : Core, Run (FlavourSpec.opt Q) (envOf io) c d ∧
      d.pc = word (c.mem 0x5E1) (c.mem 0x5E0) ∧ d.sp = 0x5E2 ∧ Loaded d.mem ∧ P c.mem d.mem ∧ Confined c.mem d.mem ∧
      c.t + lo ≤ d.t ∧ d.t ≤ c.t + hi)
    (c : Cpu Q) (t : BitVec w) (m : Mem) (i : I) (hm : Loaded m) (ha : Starts m a) :
    Completes io deb c t m i P (lo + 65) (hi + 65) := by
  obtain ⟨n, c', b, d, y, h, e, bm, bt, h1, h2, h3, h4, h5⟩ := whole (Q := Q) io deb
    (P := fun c d => d.sp = 0x5E2 ∧ P c.mem d.mem ∧ Confined c.mem d.mem ∧ c.t + lo ≤ d.t ∧ d.t ≤ c.t + hi)
    (fun c g1 g2 g3 => by
      obtain ⟨d, k1, k2, k3, k4, k5, k6, k7, k8⟩ := hr c g1 g2 g3
      exact ⟨d, k1, k2, k4, k3, k5, k6, k7, k8⟩) c t m i hm ha
  refine ⟨n, c', d.mem, d.t + 4, h, congrArg Regs.halted e, (congrArg Regs.sp e).trans h1, ?_, ?_, by omega, by omega⟩
  · rw [bm] at h2
    exact hP _ _ h2
  · intro a g1 g2
    rw [h3 a g1 g2, bm, push_eq, put_other, put_other]
    · intro e; subst e; exact g2 (by decide)
    · intro e; subst e; exact g2 (by decide)

theorem push_order {m m' : Mem} {P : Mem → Prop} (h : P m' ∧ Rearranged (push m 0x5E2 13) m') :
    P m' ∧ Rearranged m m' :=
  ⟨h.1, (Rearranged.same fun _ hi => elem_push _ hi (by decide)).trans h.2⟩

theorem Kept.confined {m m' : Mem} (h : Kept m m') : Confined m m' :=
  fun a h1 h2 => h a h1 fun h3 => h2 (by omega)

/-- C71: selection sort, ascending (`/repo/tests/shuffle/shuffle.bin` 255-285). -/
theorem C71_selection_ascending (io : Handler (tsSig w O R) I) (deb : Bool) (c : Cpu Q) (t : BitVec w) (m : Mem) (i : I)
    (hm : Loaded m) (ha : Starts m 255) :
    Completes io deb c t m i (fun m m' => Ascending m' ∧ Rearranged m m') 1261581 1589261 :=
  completes io deb (fun m m' => push_order (P := Ascending)) (fun c h1 h2 h3 => by
    obtain ⟨d, r, p, s, l, a, b, k, t1, t2⟩ := selAscAll h1 h2 h3
    exact ⟨d, r, p, s, l, ⟨a, b⟩, Kept.confined k, t2, t1⟩) c t m i hm ha

/-- C71: selection sort, descending (`/repo/tests/shuffle/shuffle.bin` 286-316). -/
theorem C71_selection_descending (io : Handler (tsSig w O R) I) (deb : Bool) (c : Cpu Q) (t : BitVec w) (m : Mem) (i : I)
    (hm : Loaded m) (ha : Starts m 286) :
    Completes io deb c t m i (fun m m' => Descending m' ∧ Rearranged m m') 1261581 1589261 :=
  completes io deb (fun m m' => push_order (P := Descending)) (fun c h1 h2 h3 => by
    obtain ⟨d, r, p, s, l, a, b, k, t1, t2⟩ := selDescAll h1 h2 h3
    exact ⟨d, r, p, s, l, ⟨a, b⟩, Kept.confined k, t2, t1⟩) c t m i hm ha

/-- C71: insertion sort, ascending (`/repo/tests/shuffle/shuffle.bin` 317-357). -/
theorem C71_insertion_ascending (io : Handler (tsSig w O R) I) (deb : Bool) (c : Cpu Q) (t : BitVec w) (m : Mem) (i : I)
    (hm : Loaded m) (ha : Starts m 317) :
    Completes io deb c t m i (fun m m' => Ascending m' ∧ Rearranged m m') 11585 1500280 :=
  completes io deb (fun m m' => push_order (P := Ascending)) (fun c h1 h2 h3 => by
    obtain ⟨d, r, p, s, l, a, b, k, t1, t2⟩ := insAscAll h1 h2 h3
    exact ⟨d, r, p, s, l, ⟨a, b⟩, Kept.confined k, t2, t1⟩) c t m i hm ha

/-- C71: insertion sort, descending (`/repo/tests/shuffle/shuffle.bin` 358-398). -/
theorem C71_insertion_descending (io : Handler (tsSig w O R) I) (deb : Bool) (c : Cpu Q) (t : BitVec w) (m : Mem) (i : I)
    (hm : Loaded m) (ha : Starts m 358) :
    Completes io deb c t m i (fun m m' => Descending m' ∧ Rearranged m m') 11585 1500280 :=
  completes io deb (fun m m' => push_order (P := Descending)) (fun c h1 h2 h3 => by
    obtain ⟨d, r, p, s, l, a, b, k, t1, t2⟩ := insDescAll h1 h2 h3
    exact ⟨d, r, p, s, l, ⟨a, b⟩, Kept.confined k, t2, t1⟩) c t m i hm ha

/-- The program with an array to be sorted. -/
def sortingTask (a : U16) : Mem := fun x =>
  if x.toNat < 712 then bytes.getD x.toNat 0
  else if x = 972 then lo8 a
  else if x = 973 then hi8 a
  else BitVec.ofNat 8 (x.toNat * 37)

theorem sortingTask_loaded (a : U16) : Loaded (sortingTask a) := by
  intro i hi
  have h : (BitVec.ofNat 16 i).toNat = i := by rw [BitVec.toNat_ofNat]; omega
  unfold sortingTask
  rw [h, if_pos hi]

theorem sortingTask_starts (a : U16) : Starts (sortingTask a) a := by
  show word (hi8 a) (lo8 a) = a
  exact word_hi8_lo8 a

/-- There are arrays to be sorted, neither in ascending nor in descending order before. -/
example : Loaded (sortingTask 255) ∧ Starts (sortingTask 255) 255 ∧ ¬ Ascending (sortingTask 255) ∧
    ¬ Descending (sortingTask 255) :=
  ⟨sortingTask_loaded _, sortingTask_starts _,
    fun h => absurd (h 3 4 (by decide) (by decide)) (by decide +kernel),
    fun h => absurd (h 0 1 (by decide) (by decide)) (by decide +kernel)⟩

end Z80
