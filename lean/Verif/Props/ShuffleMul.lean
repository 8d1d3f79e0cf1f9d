import Verif.Proofs.ShuffleTimes
import Verif.Props.Shuffle

/-!
# The test program multiplies and prints (C73)

`/repo/tests/shuffle_test.rs` 163-187 has the routine `mul_seed` of `/repo/tests/shuffle/shuffle.bin` multiply six
pairs of numbers and print the products. Here the same bytes run on the model of the CPU, with any two numbers.
-/

namespace Z80
open Spec Spec.Shuffle Routine
variable {Q : Type} [FlavourSpec Q] {w : Nat} {O R I : Type}

theorem untilStop_runOut (io : Handler (tsSig w O R) I) (deb : Bool) {em : U8 → I → I} {a b : Core} {l : List U8}
    (h : RunOut (FlavourSpec.opt Q) (envOf io) em a l b) : ∀ {c : Cpu Q} {t : BitVec w} {m : Mem} {i : I} {x : Rest}
    {u : BitVec w}, (⟨abs c, m, i, t⟩ : Mach w I) = a.mach x i u → ∃ k c' t' y,
      (∀ n, untilStop io deb (k + n) c (t, m, i) = untilStop io deb n c' (t', b.mem, l.foldl (fun i z => em z i) i)) ∧
      (⟨abs c', b.mem, l.foldl (fun i z => em z i) i, t'⟩ : Mach w I) = b.mach y (l.foldl (fun i z => em z i) i) u := by
  induction h with
  | run r => exact fun e => untilStop_runs io deb r e
  | @send a b c' d l z r s _ ih =>
    intro c t m i x u e
    obtain ⟨k, c1, t1, y, g1, e1⟩ := untilStop_runs io deb r e
    obtain ⟨y', hs⟩ := s y i u
    have h := C44_execute_next io deb c1 t1 b.mem i
    rw [e1, hs] at h
    obtain ⟨h1, h2⟩ := h
    generalize hr : (executeNext deb c1).run (ramHost io) (t1, b.mem, i) = r at h1 h2
    obtain ⟨⟨res, c2⟩, t2, m2, i2⟩ := r
    simp only at h1 h2
    have hi : i2 = em z i := congrArg Mach.io h1
    subst hi
    obtain ⟨k', c3, t3, y3, g3, e3⟩ := ih h1
    refine ⟨k + (1 + k'), c3, t3, y3, ?_, e3⟩
    have hres : res = .ok := by
      cases res with
      | ok => rfl
      | _ => cases h2
    subst hres
    intro n
    rw [Nat.add_assoc, g1, List.foldl_cons, ← g3, show 1 + k' + n = (k' + n) + 1 by omega]
    simp only [untilStop]
    rw [hr]

/-- C73: the product of `seed` and `multiplicator` is stored in their place and sent to port 0x42 in decimal digits,
if the port does not ask for wait states and does not break. -/
theorem C73_multiplies (io : Handler (tsSig w O R) I) (deb : Bool) (em : U8 → I → I)
    (hio : ∀ (h x : U8) (t : BitVec w) (i : I), devOut io (word h 0x42) x t i = ((none, none), em x i))
    (c : Cpu Q) (t : BitVec w) (m : Mem) (i : I) (hm : Loaded m) (ha : Starts m 573) :
    ∃ n c' m' t', untilStop io deb n c.reset (t, m, i) =
        some (.halt, c', t', m', (decimal (seed m * multiplicator m)).foldl (fun i x => em x i) i) ∧
      c'.halt = true ∧ c'.sp = 1506 ∧ product m' = seed m * multiplicator m ∧ Calculating m m' := by
  have e := coreOf_mach (abs c.reset) m i t rfl rfl rfl
  obtain ⟨b, r1, bp, bs, bm, bt⟩ := boot (o := FlavourSpec.opt Q) (v := envOf io) (c := coreOf (abs c.reset) m)
    hm rfl ha
  have hb : Loaded b.mem := by rw [bm]; exact loaded_push hm _ (by decide)
  have kb : ∀ a : U16, ¬ (0x5E0 ≤ a.toNat ∧ a.toNat < 0x5E2) → b.mem a = m a := by
    intro a g
    rw [bm]
    exact push_off _ (by decide) g
  obtain ⟨d, r2, dp, ds, dl, dr, dk⟩ := times (o := FlavourSpec.opt Q) (v := envOf io) hio hb bp bs
  have es : seed b.mem = seed m := by
    unfold seed
    rw [kb _ (by decide), kb _ (by decide)]
  have em' : multiplicator b.mem = multiplicator m := by
    unfold multiplicator
    rw [kb _ (by decide), kb _ (by decide)]
  have dp' : d.pc = 13 := by
    rw [dp, bm, push_eq]
    have h1 : put (put m (0x5E2 - 1) (hi8 13)) (0x5E2 - 2) (lo8 13) 0x5E1 = hi8 13 :=
      (put_other _ _ (by decide)).trans (put_same _ _ _)
    have h2 : put (put m (0x5E2 - 1) (hi8 13)) (0x5E2 - 2) (lo8 13) 0x5E0 = lo8 13 := put_same _ _ _
    exact (congr (congrArg word h1) h2).trans (word_hi8_lo8 _)
  obtain ⟨k, c1, t1, y, g1, g2⟩ := untilStop_runOut io deb (.before r1 r2) e
  obtain ⟨c2, z, g3, g4⟩ := untilStop_halt io deb (halts dl dp') g2
  rw [es, em'] at g3 g1 dr
  refine ⟨k + 1, c2, d.mem, _, (g1 1).trans g3, congrArg Regs.halted g4, (congrArg Regs.sp g4).trans ds, dr, ?_⟩
  intro a g1 g2 g3
  rw [dk a g1 g2 (by omega), kb a (by omega)]

/-- The devices of the test: bytes sent to port 0x42 are collected (`/repo/tests/shuffle/mod.rs` 94-105, with `out` at
`Some`); the other methods as in `/repo/src/host.rs`. The requests of the clock and the memory do not get here. -/
def printer : Handler (tsSig w Unit Unit) (List U8)
  | .isPastLimit _, s => (false, s)
  | .addIrq _, s => (0, s)
  | .addNoMreq _ _, s => ((), s)
  | .addM1 _, s => (0, s)
  | .addMreq _, s => (0, s)
  | .addIo _, s => (0, s)
  | .addWait _ _, s => ((), s)
  | .asTimestamp, s => (0, s)
  | .readIo _ _, s => ((0xFF, none), s)
  | .writeIo p x _, s => ((none, none), if lo8 p = 0x42 then s ++ [x] else s)
  | .isIrq _, s => (false, s)
  | .irqData _ _, s => ((0xFF, none), s)
  | .reti _ _, s => (none, s)
  | .readMem _ _, s => (0, s)
  | .readMem16 _ _, s => (0, s)
  | .readOpcode _ _ _, s => (0, s)
  | .writeMem _ _ _, s => ((), s)
  | .readDebug _, s => (0, s)
  | .debug _, s => ((), s)

/-- C73: what the test prints is the product. -/
theorem C73_prints (deb : Bool) (c : Cpu Q) (t : BitVec w) (m : Mem) (hm : Loaded m) (ha : Starts m 573) :
    ∃ n c' m' t', untilStop printer deb n c.reset (t, m, []) =
        some (.halt, c', t', m', (toString (product m')).toList.map fun x => BitVec.ofNat 8 x.toNat) ∧
      product m' = seed m * multiplicator m := by
  obtain ⟨n, c', m', t', h, -, -, p, -⟩ := C73_multiplies printer deb (fun x s => s ++ [x])
    (fun h x t i => by
      show ((none, none), if lo8 (word h 0x42) = 0x42 then i ++ [x] else i) = _
      rw [lo8_word, if_pos rfl]) c t m [] hm ha
  refine ⟨n, c', m', t', ?_, p⟩
  rw [h, p]
  have key : ∀ l s : List U8, l.foldl (fun i x => i ++ [x]) s = s ++ l := by
    intro l
    induction l with
    | nil => intro s; rw [List.foldl_nil, List.append_nil]
    | cons x l ih => intro s; rw [List.foldl_cons, ih, List.append_assoc]; rfl
  rw [key, List.nil_append]
  rfl

/-- The program with numbers to be multiplied. -/
example : Loaded (sortingTask 573) ∧ Starts (sortingTask 573) 573 ∧
    seed (sortingTask 573) * multiplicator (sortingTask 573) = 3560 * 22322 :=
  ⟨sortingTask_loaded _, sortingTask_starts _, by decide +kernel⟩

end Z80
