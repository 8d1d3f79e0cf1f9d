import Verif.Proofs.RalRunner
import Verif.Proofs.RalSession

/-!
# The clock of the example computer in its thread
-/

namespace Z80.Ral.Runner
open Spec Spec.Ral

variable {Q D : Type} {dev : Device D} {P : Nat → Option (Boards D) → Prop} [FlavourSpec Q] {F hz most c k : Nat}

theorem nmi_none {m : Machine Q D} (h : (m.nmi dev).1 = none) : (m.nmi dev).2 = m := by
  have h1 : ¬ m.cpu.isNmiAllowed = true := fun h2 => by
    have := (nmi_allowed (dev := dev) m).2 h2
    rw [h] at this
    cases this
  have h3 : Z80.nmi (σ := ralSig) m.cpu = .ret (false, m.cpu) := if_neg h1
  unfold Machine.nmi
  rw [h3]
  rfl

theorem step_bound {n : Nat} {m m' : Machine Q D} {dbg : Option CpuDebug} {d : Nat}
    (h : m.debugStep dev n = some (dbg, d, m')) : d ≤ m'.cur.toNat := by
  unfold Machine.debugStep at h
  obtain ⟨m0, -, h⟩ := Option.bind_eq_some_iff.1 h
  obtain ⟨l, -, h⟩ := Option.bind_eq_some_iff.1 h
  obtain ⟨⟨r, data, m1⟩, -, h⟩ := Option.bind_eq_some_iff.1 h
  obtain ⟨r', -, h⟩ := Option.bind_eq_some_iff.1 h
  cases h
  exact Nat.sub_le _ _

theorem int_due (hT : Tally dev P) (hd : Prompt dev) (hf : Roomy F hz most) (hc : c ≤ most) {m : Machine Q D}
    (h : Due P F hz (2 * hz + 2 * F) c k m) {n : Nat} (hn : F < 4 * n) :
    ∃ dbg d m' k', m.debugRuntoInt dev n = some (dbg, d, m') ∧ Due P F hz (2 * hz + 2 * F) 0 k' m' ∧
      Accounted F k k' d m m' ∧ k' ≤ k + 1 := by
  obtain ⟨m0, hw, h0, he⟩ := wrap_due hT hf hc h
  have hnum : m0.limit + m0.frame + 22 < 2 ^ 32 ∧ m0.cur.toNat + 23 < 2 ^ 32 ∧
      m0.limit + m0.frame - m0.cur.toNat < 4 * n := by
    have := h0.bound; have := h0.frame; have := hf.room; have := hf.few; have := h0.ahead; have := h0.due; omega
  obtain ⟨⟨dbg, d, m'⟩, h1⟩ := C65_int_returns hd hw hnum.1 hnum.2.1 hnum.2.2
  obtain ⟨m0', hw', hts, hlast⟩ := C65_debug_runto_int_partial h1
  rw [hw] at hw'
  cases hw'
  rw [h0.frame] at hlast
  obtain ⟨k', i1, i2, i3⟩ := last_goon hT hd hf (by omega) hc hlast h0
  have := i1.due
  have := h0.due
  refine ⟨dbg, d, m', k', h1, i1.mono (by omega) (Nat.le_refl _), ?_, by omega⟩
  unfold Accounted
  rcases i3 with ⟨rfl, h4, -⟩ | ⟨rfl, h4⟩
  · omega
  · rw [Nat.add_mul, Nat.one_mul]
    omega

theorem runFor_due (hT : Tally dev P) (hd : Prompt dev) (hf : Roomy F hz most) {n : Nat} (hn : F < 4 * n) :
    ∀ (frames : Nat) {c k start : Nat} {m : Machine Q D}, c ≤ most → Due P F hz (2 * hz + 2 * F) c k m →
    start + (frames + 2) * F + 22 < 2 ^ 32 + (m.cur.toNat - m.limit) →
    ∃ dbg d m' k', runFor (Machine.debugRuntoInt dev n) frames start m = some (dbg, d, m') ∧
      Due P F hz (2 * hz + 2 * F) 0 k' m' ∧
      d + (m.cur.toNat - m.limit) ≤ start + (frames + 1) * F + (m'.cur.toNat - m'.limit)
  | frames, c, k, start, m, hc, h, hb => by
    obtain ⟨dbg, d, m1, k1, e, h1, h2, h3⟩ := int_due hT hd hf hc h hn
    unfold Accounted at h2
    have hahead := h1.ahead
    have hdue := h1.due
    have hd1 : d + (m.cur.toNat - m.limit) ≤ F + (m1.cur.toNat - m1.limit) := by
      rcases Nat.lt_or_ge k k1 with g | g
      · obtain rfl : k1 = k + 1 := by omega
        rw [Nat.add_mul, Nat.one_mul] at h2
        omega
      · have := Nat.mul_le_mul_right F g
        omega
    have hsum : start + d < 2 ^ 32 := by
      have : (frames + 2) * F = frames * F + 2 * F := Nat.add_mul _ _ _
      omega
    unfold runFor
    rw [e]
    dsimp only
    rw [show add32 start d = some (start + d) from if_pos hsum]
    dsimp only
    cases dbg with
    | some r =>
      refine ⟨_, _, _, k1, rfl, h1, ?_⟩
      rw [Nat.add_mul, Nat.one_mul]
      omega
    | none =>
      cases frames with
      | zero =>
        refine ⟨_, _, _, k1, rfl, h1, ?_⟩
        omega
      | succ frames =>
        rw [Nat.add_mul, Nat.add_mul] at hb
        obtain ⟨dbg, d', m', k', i1, i2, i3⟩ := runFor_due hT hd hf hn frames (start := start + d) (Nat.zero_le _) h1
          (by rw [Nat.add_mul]; omega)
        refine ⟨_, _, _, k', i1, i2, ?_⟩
        rw [Nat.add_mul] at i3 ⊢
        rw [Nat.add_mul]
        omega

theorem toIrq_due (hT : Tally dev P) (hd : Prompt dev) (hf : Roomy F hz most) {n fps : Nat} (hn : F < 4 * n)
    (hs : (fps + 4) * F < 2 ^ 32) (hc : c ≤ most) {m : Machine Q D} (h : Due P F hz (2 * hz + 2 * F) c k m) :
    ∃ dbg d m' k', m.runToIrq dev fps n = some (dbg, d, m') ∧ Due P F hz (2 * hz + 2 * F) 0 k' m' ∧ d + F < 2 ^ 32 := by
  have hf1 := hf.few
  rw [Nat.add_mul] at hs
  obtain ⟨dbg, d, m', k', h1, h2, h3⟩ := runFor_due hT hd hf hn fps (start := 0) hc h (by rw [Nat.add_mul]; omega)
  have := h2.ahead
  have := h2.due
  refine ⟨dbg, d, m', k', h1, h2, ?_⟩
  rw [Nat.add_mul] at h3
  omega

theorem step_due (hT : Tally dev P) (hd : Prompt dev) (hf : Roomy F hz most) {n : Nat} (hn : 2 ≤ n) (hc : c ≤ most)
    {m : Machine Q D} (h : Due P F hz (2 * hz + 2 * F) c k m) :
    ∃ dbg d m' k', m.debugStep dev n = some (dbg, d, m') ∧ Due P F hz (2 * hz + 2 * F) 0 k' m' ∧ d + F < 2 ^ 32 := by
  obtain ⟨dbg, d, m', k', h1, h2, -⟩ := debugStep_due hT hd hf hc h hn
  have := step_bound h1
  have := h2.ahead; have := h2.bound; have := hf.few; have := hf.room
  exact ⟨dbg, d, m', k', h1, h2, by omega⟩

theorem reset_due (hT : Tally dev P) {m : Machine Q D} (h : Due P F hz (2 * hz + 2 * F) c k m) :
    Due P F hz (2 * hz + 2 * F) c k (m.reset dev) :=
  ⟨h.frame, h.hz, h.due, h.ahead, h.bound, hT.reset _ h.tally⟩

/-- `nmi` is called or not. -/
theorem top_due (hT : Tally dev P) (hd : Prompt dev) (hf : Roomy F hz most) {request : Bool} {last : Nat}
    {m : Machine Q D} (h : Due P F hz (2 * hz + 2 * F) c k m) (hc : c + request.toNat ≤ most)
    (hl : last + F < 2 ^ 32 + 11 * c) :
    ∃ request' last' m' u c', top dev request last m = some (request', last', m', u) ∧
      Due P F hz (2 * hz + 2 * F) c' k m' ∧ c' + request'.toNat ≤ c + request.toNat ∧ last' + F < 2 ^ 32 + 11 * c' := by
  unfold top
  cases request with
  | false => exact ⟨_, _, _, _, c, rfl, h, Nat.le_refl _, hl⟩
  | true =>
    have hc1 : c + 1 ≤ most := hc
    rw [if_pos rfl]
    have h1 := (nmi_due hT hd hf (Nat.le_of_succ_le hc1) h).1
    have hf1 := hf.few
    obtain ⟨d, hd1, -⟩ := nmi_paces hd m (by
      have := h.ahead; have := h.bound; have := hf.short; have := hf.room; omega)
    have hn := nmi_none (dev := dev) (m := m)
    generalize m.nmi dev = r at hd1 h1 hn
    obtain ⟨_ | ts, m1⟩ := r
    · obtain rfl : m1 = m := hn rfl
      exact ⟨_, _, _, _, c, rfl, h, Nat.le_refl _, hl⟩
    · have : ts = 11 := by
        rcases hd1 with ⟨h, -⟩ | ⟨h, -⟩
        · cases h
        · exact Option.some.inj h
      subst this
      refine ⟨false, last + 11, m1, [.nmi m.cpu (some 11), .preview (last + 11)], c + 1, ?_, h1, Nat.le_refl _, by omega⟩
      dsimp only
      rw [show add32 last 11 = some (last + 11) from if_pos (by omega)]
      rfl

theorem retry_due (hT : Tally dev P) (hd : Prompt dev) (hf : Roomy F hz most) {request : Bool}
    {m : Machine Q D} (h : Due P F hz (2 * hz + 2 * F) c k m) (hc : c + request.toNat ≤ most) :
    ∃ request' m' u c', retry dev request m = (request', m', u) ∧ Due P F hz (2 * hz + 2 * F) c' k m' ∧ c' ≤ most := by
  unfold retry
  cases request with
  | false => exact ⟨_, _, _, c, rfl, h, hc⟩
  | true =>
    have hc1 : c + 1 ≤ most := hc
    rw [if_pos rfl]
    have h1 := (nmi_due hT hd hf (Nat.le_of_succ_le hc1) h).1
    generalize m.nmi dev = r at h1
    obtain ⟨_ | ts, m1⟩ := r
    · exact ⟨_, _, _, c + 1, rfl, h1, hc1⟩
    · exact ⟨_, _, _, c + 1, rfl, h1, hc1⟩

variable {search : List U16 → U16 → Machine.Found} {fps n j : Nat}

theorem wait_due (hT : Tally dev P) (hd : Prompt dev) (hf : Roomy F hz (most + 1)) (hn : F + 23 ≤ 4 * n)
    (hs : (fps + 4) * F < 2 ^ 32) :
    ∀ (l : List (Option Msg)) {p c k lines last : Nat} {request : Bool} {m : Machine Q D}, Patient most (some p) l →
    p ≤ most → Due P F hz (2 * hz + 2 * F) c k m → c + request.toNat ≤ 1 + p → last + F < 2 ^ 32 + 11 * c →
    ∃ done rest request' m' u c' k', wait dev search fps n l lines last request m = some (done, rest, request', m', u) ∧
      Due P F hz (2 * hz + 2 * F) c' k' m' ∧ c' + request'.toNat ≤ 1 + most ∧ (done = false → Patient most none rest)
  | [], p, c, k, lines, last, request, m, _, hp, h, hc, _ => ⟨_, _, _, _, _, c, k, rfl, h, by omega, nofun⟩
  | none :: l, p, c, k, lines, last, request, m, hl, hp, h, hc, hb =>
    wait_due hT hd hf hn hs l hl hp h hc hb
  | some a :: l, p, c, k, lines, last, request, m, hl, hp, h, hc, hb => by
    have hf1 := hf.few
    have goon : ∀ {p' c1 k1 li la : Nat} {re : Bool} {m1 : Machine Q D} {t : List (Note Q)},
        a ≠ .continue ∧ a ≠ .terminate →
        order dev search fps n a lines last request m = some (li, la, re, m1, t) → Patient most (some p') l → p' ≤ most →
        Due P F hz (2 * hz + 2 * F) c1 k1 m1 → c1 + re.toNat ≤ 1 + p' → la + F < 2 ^ 32 + 11 * c1 →
        ∃ done rest request' m' u c' k', wait dev search fps n (some a :: l) lines last request m =
            some (done, rest, request', m', u) ∧
          Due P F hz (2 * hz + 2 * F) c' k' m' ∧ c' + request'.toNat ≤ 1 + most ∧
          (done = false → Patient most none rest) := by
      intro p' c1 k1 li la re m1 t ha e hl' hp' h' hc' hb'
      obtain ⟨re2, la2, m2, t2, c2, e2, i1, i2, i3⟩ := top_due hT hd hf (request := re) h' (by omega) hb'
      obtain ⟨done, rest, re3, m3, t3, c3, k3, e3, g1, g2, g3⟩ := wait_due hT hd hf hn hs l (lines := li) (request := re2) hl' hp' i1
        (by omega) i3
      refine ⟨done, rest, re3, m3, .got a :: (t ++ (t2 ++ t3)), c3, k3, ?_, g1, g2, g3⟩
      rw [wait_order ha, e, Option.bind_some, e2, Option.bind_some, e3]
      rfl
    cases a with
    | «continue» => exact ⟨_, _, _, _, _, c, k, rfl, h, by omega, fun _ => hl⟩
    | terminate => exact ⟨_, _, _, _, _, c, k, rfl, h, by omega, nofun⟩
    | reset => exact goon ⟨nofun, nofun⟩ rfl hl hp (reset_due hT h) (Nat.le_trans (Nat.le_add_right c _) hc) hb
    | nmi => exact goon ⟨nofun, nofun⟩ rfl hl.2 hl.1 h (by have := hl.1; show c + 1 ≤ _; omega) hb
    | debugCompletion => exact hl.elim
    | debugNext =>
      obtain ⟨dbg, d, m', k', h1, h2, h3⟩ := step_due hT hd hf (n := n) (by omega) (by omega) h
      exact goon (t := .next d :: (print lines dbg).2) (li := (print (Q := Q) lines dbg).1) (re := request) ⟨nofun, nofun⟩
        (by simp only [order, h1, Option.map_some]) hl (Nat.zero_le _) h2 (by cases request <;> decide) h3
    | debugRunIrq =>
      obtain ⟨dbg, d, m', k', h1, h2, h3⟩ := toIrq_due hT hd hf (n := n) (by omega) hs (by omega) h
      exact goon (t := .toIrq d :: (print lines dbg).2) (li := (print (Q := Q) lines dbg).1) (re := request) ⟨nofun, nofun⟩
        (by simp only [order, h1, Option.map_some]) hl (Nat.zero_le _) h2 (by cases request <;> decide) h3

theorem loop_due (hT : Tally dev P) (hd : Prompt dev) (hf : Roomy F hz (most + 1)) (hn : F + 23 ≤ 4 * n)
    (hj : F + 4 ≤ 4 * j) (hs : (fps + 4) * F < 2 ^ 32) :
    ∀ (i : Nat) {l : List (Option Msg)} {c k : Nat} {request : Bool} {m : Machine Q D}, l.length < i →
    Patient most none l → Due P F hz (2 * hz + 2 * F) c k m → c + request.toNat ≤ 1 + most →
    ∃ rest m' u c' k', loop dev search fps n j i l request m = some (rest, m', u) ∧
      Due P F hz (2 * hz + 2 * F) c' k' m' ∧ c' ≤ 1 + most
  | 0, l, c, k, request, m, hi, _, _, _ => absurd hi (Nat.not_lt_zero _)
  | i + 1, l, c, k, request, m, hi, hl, h, hc => by
    obtain ⟨re, m1, t, c1, e1, h1, hc1⟩ := retry_due hT hd hf (request := request) h (by omega)
    obtain ⟨d, m2, k2, e2, h2, -⟩ := frame_due hT hd hf hc1 h1 hn hj
    have hre : re.toNat ≤ 1 := by cases re <;> simp
    suffices hh : ∀ x : Option (List (Option Msg) × Machine Q D × List (Note Q)), (∃ rest m' u c' k',
        x = some (rest, m', u) ∧ Due P F hz (2 * hz + 2 * F) c' k' m' ∧ c' ≤ 1 + most) →
        ∃ rest m' u c' k', (x.bind fun y => some (y.1, y.2.1, t ++ .frame :: y.2.2)) = some (rest, m', u) ∧
          Due P F hz (2 * hz + 2 * F) c' k' m' ∧ c' ≤ 1 + most by
      unfold loop
      rw [e1]
      dsimp only
      rw [e2]
      refine hh _ ?_
      have more : ∀ {l c k request} {m : Machine Q D} {f : List (Note Q) → List (Note Q)}, l.length < i →
          Patient most none l → Due P F hz (2 * hz + 2 * F) c k m → c + request.toNat ≤ 1 + most →
          ∃ rest m' u c' k', ((loop dev search fps n j i l request m).map fun y => (y.1, y.2.1, f y.2.2)) =
              some (rest, m', u) ∧ Due P F hz (2 * hz + 2 * F) c' k' m' ∧ c' ≤ 1 + most := by
        intro l c k request m f hi hl h hc
        obtain ⟨rest, m', u, c', k', g1, g2⟩ := loop_due hT hd hf hn hj hs i hi hl h hc
        rw [g1]
        exact ⟨_, _, _, c', k', rfl, g2⟩
      have deb : ∀ {a : Msg} {l : List (Option Msg)}, l.length < i → Patient most (some 0) l →
          ∃ rest m' u c' k', ((debug dev search fps n l re m2).bind fun x =>
            if x.1 = true then some (x.2.1, x.2.2.2.1, .got a :: x.2.2.2.2)
            else (loop dev search fps n j i x.2.1 x.2.2.1 x.2.2.2.1).map
              fun y => (y.1, y.2.1, .got a :: (x.2.2.2.2 ++ y.2.2))) = some (rest, m', u) ∧
            Due P F hz (2 * hz + 2 * F) c' k' m' ∧ c' ≤ 1 + most := by
        intro a l hi hl
        have hf1 := hf.few
        have hf2 := hf.short
        have hf3 := hf.room
        obtain ⟨re3, la3, m3, t3, c3, e3, i1, i2, i3⟩ := top_due hT hd hf (last := 0) h2 (request := re) (by omega)
          (by omega)
        obtain ⟨done, rest, re4, m4, t4, c4, k4, e4, g1, g2, g3⟩ := wait_due hT hd hf hn hs l (lines := 255)
          (request := re3) (search := search) hl (Nat.zero_le _) i1 (by omega) i3
        have e5 : debug dev search fps n l re m2 = some (done, rest, re4, m4, t3 ++ t4) := by
          unfold debug
          rw [e3]
          show (wait dev search fps n l 255 la3 re3 m3).bind _ = _
          rw [e4]
          rfl
        rw [e5]
        cases done with
        | true => exact ⟨_, _, _, c4, k4, rfl, g1, by omega⟩
        | false =>
          exact more (request := re4) (f := fun y => .got a :: (t3 ++ t4 ++ y))
            (Nat.lt_of_le_of_lt (wait_taken e4).2.1 hi) (g3 rfl) g1 g2
      rcases l with _ | ⟨_ | a, l⟩
      · exact ⟨_, _, _, 0, k2, rfl, h2, Nat.zero_le _⟩
      · exact more (f := fun y => .empty :: y) (Nat.lt_of_succ_lt_succ hi) hl h2 (by omega)
      · have hi' : l.length < i := Nat.lt_of_succ_lt_succ hi
        cases a with
        | terminate => exact ⟨_, _, _, 0, k2, rfl, h2, Nat.zero_le _⟩
        | reset => exact more (f := fun y => .got .reset :: .reset :: y) hi' hl (reset_due hT h2) (by simp)
        | nmi =>
          have h3 := (nmi_due hT hd hf (Nat.zero_le _) h2).1
          have hn := nmi_none (dev := dev) (m := m2)
          dsimp only
          generalize m2.nmi dev = r at h3 hn
          obtain ⟨_ | ts, m3⟩ := r
          · obtain rfl : m3 = m2 := hn rfl
            exact more (f := fun y => .got .nmi :: .nmi _ none :: y) hi' hl h2 (by simp)
          · exact more (f := fun y => .got .nmi :: .nmi _ (some ts) :: y) hi' hl h3 (by simp)
        | «continue» => exact more (f := fun y => .got .continue :: y) hi' hl h2 (by omega)
        | debugNext => exact deb hi' hl
        | debugCompletion => exact deb hi' hl
        | debugRunIrq => exact deb hi' hl
    rintro x ⟨rest, m', u, c', k', rfl, g⟩
    exact ⟨_, _, _, c', k', rfl, g⟩

end Z80.Ral.Runner
