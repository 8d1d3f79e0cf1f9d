import Verif.Props.ShuffleQuick
import Verif.Proofs.ShuffleLoop

/-!
# Shuffling in the test program (C84)

The routine of `/repo/tests/shuffle/shuffle.bin` with which `/repo/tests/shuffle_test.rs` makes the arrays to be sorted,
and the random number generator it uses.
-/

namespace Z80
open Spec Spec.Shuffle Routine
variable {Q : Type} [FlavourSpec Q] {w : Nat} {O R I : Type}

theorem scattered_push {m m' : Mem} (h : ∀ a, ¬ Touched a → m' a = push m 0x5E2 13 a) : Scattered m m' := by
  intro a h1 h2 h3
  have n : ∀ b : U16, 1496 ≤ b.toNat → b.toNat < 1506 → a ≠ b := fun b k1 k2 e => h3 (e ▸ ⟨k1, k2⟩)
  rw [h a, push_out (n _ (by decide) (by decide)) (n _ (by decide) (by decide))]
  rintro (q | q | q | q)
  · subst q; exact h1 (by decide)
  · subst q; exact h1 (by decide)
  · exact h2 q
  · exact h3 (by omega)

theorem seed_push (m : Mem) : seed (push m 0x5E2 13) = seed m := by
  unfold seed
  rw [push_out (by decide) (by decide), push_out (by decide) (by decide)]

/-- C84: the shuffling routine (`/repo/tests/shuffle/shuffle.bin` 119-167). -/
theorem C84_shuffle (io : Handler (tsSig w O R) I) (deb : Bool) (c : Cpu Q) (t : BitVec w) (m : Mem) (i : I)
    (hm : Loaded m) (ha : Starts m 119) :
    Finishes io deb c t m i (fun m' => Permutation m' ∧ Scattered m m' ∧
      ∃ S r : Nat → Nat, S 0 = seed m ∧ (∀ k, k < 256 → Draws (S k) k (r k) (S (k + 1))) ∧ seed m' = S 256 ∧
        ∀ x, x < 256 → (elem m' x).toNat = insideOut r 256 x) := by
  obtain ⟨n, c', m', t', g1, g2, g3, g4, S, r, q1, q2, q3, q4⟩ :=
    outcome_done (Q := Q) io deb (a := 119) (K := fun _ => True) (P := fun m m' => (∀ a, ¬ Touched a → m' a = m a) ∧
      ∃ S r : Nat → Nat, S 0 = seed m ∧ (∀ k, k < 256 → Draws (S k) k (r k) (S (k + 1))) ∧ seed m' = S 256 ∧
        ∀ x, x < 256 → (elem m' x).toNat = insideOut r 256 x)
      (fun c h1 h2 h3 _ => shuffled h1 h2 h3) c t m i hm ha trivial
  rw [seed_push] at q1
  refine ⟨n, c', m', t', g1, g2, g3, ?_, scattered_push g4, S, r, q1, q2, q3, q4⟩
  obtain ⟨q, p1, p2⟩ := insideOut_perm (r := r) (n := 256) (fun k hk => by
    obtain ⟨_, _, _, h, _⟩ := q2 k hk; exact h)
  refine ⟨q, fun x hx => ?_, fun y hy => ⟨(p2 y hy).1, ?_⟩⟩
  · rw [q4 x hx]; exact (p1 x hx).2
  · rw [q4 _ (p2 y hy).1]; exact (p2 y hy).2

/-- C84: the random number generator alone (`/repo/tests/shuffle/shuffle.bin` 168-254). -/
theorem C84_random (io : Handler (tsSig w O R) I) (deb : Bool) (c : Cpu Q) (t : BitVec w) (m : Mem) (i : I)
    (hm : Loaded m) (ha : Starts m 168) :
    Finishes io deb c t m i (fun m' => seed m' = nextSeed (seed m) ∧
      ∀ a : U16, a ≠ 712 → a ≠ 713 → a ≠ 1504 → a ≠ 1505 → m' a = m a) := by
  obtain ⟨n, c', m', t', g1, g2, g3, g4, g5⟩ :=
    outcome_done (Q := Q) io deb (a := 168) (K := fun _ => True) (P := fun m m' => seed m' = nextSeed (seed m) ∧
      ∀ a : U16, a ≠ 712 → a ≠ 713 → m' a = m a)
      (fun c h1 h2 h3 _ => by
        obtain ⟨d, r, p, s, x, hx, e, _⟩ := random (o := FlavourSpec.opt Q) (v := envOf io) h1 h2 (by rw [h3]; decide)
          (by rw [h3]; decide)
        rw [h3] at p s
        have k : ∀ a : U16, a ≠ 712 → a ≠ 713 → d.mem a = c.mem a := fun a q1 q2 => by
          rw [e, put_other _ _ q2, put_other _ _ q1]
        have z1 : d.mem 712 = lo8 x := by rw [e, put_other _ _ (by decide)]; exact put_same _ _ _
        have z2 : d.mem 713 = hi8 x := by rw [e]; exact put_same _ _ _
        refine ⟨d, r, p, s, loaded_touched h1 (fun a q => k a (fun e => q (.inl e)) (fun e => q (.inr (.inl e)))), ?_, k⟩
        rw [← word_seed, ← word_seed, ← hx]
        show (word (d.mem 713) (d.mem 712)).toNat = _
        rw [z1, z2, word_hi8_lo8]) c t m i hm ha trivial
  rw [seed_push] at g4
  refine ⟨n, c', m', t', g1, g2, g3, g4, fun a h1 h2 h3 h4 => ?_⟩
  rw [g5 a h1 h2, push_out h4 h3]

/-- C84: the generator goes through all seeds: from each, each is met within 65536 steps. -/
theorem C84_period {s t : Nat} (hs : s < 65536) (ht : t < 65536) : ∃ n, n < 65536 ∧ nextSeed^[n] s = t := seeds_all hs ht

/-- C84: what is drawn depends on nothing but the seed. -/
theorem C84_determined {s i r s' r2 s2 : Nat} (h : Draws s i r s') (h2 : Draws s i r2 s2) : r = r2 ∧ s' = s2 := by
  obtain ⟨n, a1, a2, a3, a4⟩ := h
  obtain ⟨k, b1, b2, b3, b4⟩ := h2
  have e : n = k := by
    rcases Nat.lt_trichotomy n k with q | q | q
    · have := b4 n q
      rw [← a1, ← a2] at this; omega
    · exact q
    · have := a4 k q
      rw [← b1, ← b2] at this; omega
  subst e
  have e : s' = s2 := a1.trans b1.symm
  exact ⟨by rw [a2, b2, e], e⟩

theorem draws_same (S r S2 r2 : Nat → Nat) (h0 : S 0 = S2 0) (h : ∀ k, k < 256 → Draws (S k) k (r k) (S (k + 1)))
    (h2 : ∀ k, k < 256 → Draws (S2 k) k (r2 k) (S2 (k + 1))) :
    S 256 = S2 256 ∧ ∀ x, insideOut r 256 x = insideOut r2 256 x := by
  have e : ∀ k, k ≤ 256 → S k = S2 k := by
    intro k
    induction k with
    | zero => exact fun _ => h0
    | succ k ih =>
      intro hk
      have a := h k (by omega)
      rw [ih (by omega)] at a
      exact (C84_determined a (h2 k (by omega))).2
  refine ⟨e 256 (Nat.le_refl _), insideOut_congr (fun k hk => ?_)⟩
  have a := h k hk
  rw [e k (by omega)] at a
  exact (C84_determined a (h2 k hk)).1

/-- C84: the seed alone decides what the routine leaves in the array: not what memory has held, not the state of the
CPU, its flavour, or the devices. -/
theorem C84_same : ∃ (f : Nat → Nat → Nat) (g : Nat → Nat), ∀ (Q : Type) [FlavourSpec Q] (w : Nat) (O R I : Type)
    (io : Handler (tsSig w O R) I) (deb : Bool) (c : Cpu Q) (t : BitVec w) (m : Mem) (i : I), Loaded m → Starts m 119 →
    Finishes io deb c t m i (fun m' => seed m' = g (seed m) ∧ ∀ x, x < 256 → (elem m' x).toNat = f (seed m) x) := by
  classical
  let P (s : Nat) (z : (Nat → Nat) × (Nat → Nat)) : Prop := z.1 0 = s ∧ ∀ k, k < 256 → Draws (z.1 k) k (z.2 k) (z.1 (k + 1))
  let F (s : Nat) : (Nat → Nat) × (Nat → Nat) := if h : ∃ z, P s z then h.choose else (id, id)
  refine ⟨fun s => insideOut (F s).2 256, fun s => (F s).1 256, fun Q _ w O R I io deb c t m i hm ha => ?_⟩
  obtain ⟨n, c', m', t', g1, g2, g3, _, _, S, r, q1, q2, q3, q4⟩ := C84_shuffle io deb c t m i hm ha
  have ex : ∃ z, P (seed m) z := ⟨(S, r), q1, q2⟩
  have hF : F (seed m) = ex.choose := dif_pos ex
  have sp := ex.choose_spec
  rw [← hF] at sp
  have e := draws_same S r _ _ (q1.trans sp.1.symm) q2 sp.2
  exact ⟨n, c', m', t', g1, g2, g3, q3.trans e.1, fun x hx => (q4 x hx).trans (e.2 x)⟩

/-- C84: shuffled arrays, sorted, have each number at the place of its value. -/
theorem C84_sorted {m m' : Mem} (hp : Permutation m) (hr : Rearranged m m') :
    (Ascending m' → ∀ x, x < 256 → (elem m' x).toNat = x) ∧
    (Descending m' → ∀ x, x < 256 → (elem m' x).toNat = 255 - x) := by
  obtain ⟨q, h1, h2⟩ := hp
  obtain ⟨p, p', a1, a2, a3⟩ := hr
  have inj : ∀ x y, x < 256 → y < 256 → (elem m' x).toNat = (elem m' y).toNat → x = y := fun x y hx hy e => by
    rw [a3 x hx, a3 y hy] at e
    have e1 := h1 _ (a1 x hx).1
    have e2 := h1 _ (a1 y hy).1
    have : p x = p y := by rw [← e1, ← e2, e]
    rw [← (a1 x hx).2, ← (a1 y hy).2, this]
  refine ⟨fun ho => ?_, fun ho => ?_⟩
  · have lo : ∀ x, x < 256 → x ≤ (elem m' x).toNat := by
      intro x
      induction x with
      | zero => omega
      | succ x ih =>
        intro hx
        have k1 := ih (by omega)
        have k2 := ho x (x + 1) (by omega) hx
        have k3 : (elem m' x).toNat ≠ (elem m' (x + 1)).toNat := fun e => absurd (inj x (x + 1) (by omega) hx e) (by omega)
        omega
    have hi : ∀ k, k < 256 → (elem m' (255 - k)).toNat ≤ 255 - k := by
      intro k
      induction k with
      | zero => have := (elem m' 255).isLt; exact fun _ => by show (elem m' 255).toNat ≤ 255; omega
      | succ k ih =>
        intro hk
        have k1 := ih (by omega)
        have k2 := ho (255 - (k + 1)) (255 - k) (by omega) (by omega)
        have k3 : (elem m' (255 - (k + 1))).toNat ≠ (elem m' (255 - k)).toNat :=
          fun e => absurd (inj _ _ (by omega) (by omega) e) (by omega)
        omega
    intro x hx
    have b1 := lo x hx
    have b2 := hi (255 - x) (by omega)
    rw [show 255 - (255 - x) = x by omega] at b2
    omega
  · have hi : ∀ x, x < 256 → (elem m' x).toNat ≤ 255 - x := by
      intro x
      induction x with
      | zero => have := (elem m' 0).isLt; omega
      | succ x ih =>
        intro hx
        have k1 := ih (by omega)
        have k2 := ho x (x + 1) (by omega) hx
        have k3 : (elem m' x).toNat ≠ (elem m' (x + 1)).toNat := fun e => absurd (inj x (x + 1) (by omega) hx e) (by omega)
        omega
    have lo : ∀ k, k < 256 → k ≤ (elem m' (255 - k)).toNat := by
      intro k
      induction k with
      | zero => omega
      | succ k ih =>
        intro hk
        have k1 := ih (by omega)
        have k2 := ho (255 - (k + 1)) (255 - k) (by omega) (by omega)
        have k3 : (elem m' (255 - (k + 1))).toNat ≠ (elem m' (255 - k)).toNat :=
          fun e => absurd (inj _ _ (by omega) (by omega) e) (by omega)
        omega
    intro x hx
    have b1 := hi x hx
    have b2 := lo (255 - x) (by omega)
    rw [show 255 - (255 - x) = x by omega] at b2
    omega

/-- There is memory with the program and a seed, for both routines. -/
example : Loaded (quickTask 119 id) ∧ Starts (quickTask 119 id) 119 ∧ Loaded (quickTask 168 id) ∧ Starts (quickTask 168 id) 168 :=
  ⟨quickTask_loaded _ _, quickTask_starts _ _, quickTask_loaded _ _, quickTask_starts _ _⟩

/-- From the seed 6 the seeds 524 and 39374 come next; for the place 100 the first is taken. -/
example : nextSeed 6 = 524 ∧ nextSeed 524 = 39374 ∧ maskOf 100 = 127 ∧ Draws 6 100 12 524 :=
  ⟨by decide, by decide, by decide, 0, by decide, by decide, by decide, fun k hk => absurd hk (by omega)⟩

/-- For the place 4 the numbers 7 and 7 are rejected, 4 is taken. -/
example : ∃ s', Draws 7 4 4 s' := by
  refine ⟨nextSeed^[3] 7, 2, rfl, by decide, by decide, ?_⟩
  decide

end Z80
