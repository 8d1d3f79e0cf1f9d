import Verif.Proofs.AlikeLimit

/-!
# The way a host keeps time does not matter (C77): `execute_with_limit`
-/

namespace Z80
open Spec

/-- What the CPU can be told to do, `execute_with_limit` included. -/
inductive Job (L : Type)
  | order (o : Order)
  | upTo (l : L)

/-- The jobs are done one after the other. What is reported, and the CPU and the host afterwards. -/
def Does {σ : Sig} {S Q : Type} [FlavourSpec Q] (H : Handler σ S) :
    List (Job σ.L) → Cpu Q → S → List (Option (Option (Out σ.O σ.R))) → Cpu Q → S → Prop
  | [], c, s, v, c', s' => v = [] ∧ c' = c ∧ s' = s
  | .order o :: l, c, s, v, c', s' =>
    ∃ w, v = (obey H o c s).1 :: w ∧ Does H l (obey H o c s).2.1 (obey H o c s).2.2 w c' s'
  | .upTo k :: l, c, s, v, c', s' =>
    ∃ e c1 s1 w, ReturnsWith H k c s e c1 s1 ∧ v = some (outS e) :: w ∧ Does H l c1 s1 w c' s'

/-- The same jobs, with limits that correspond. -/
inductive JobsAlike {L L' : Type} (P : L → L' → Prop) : List (Job L) → List (Job L') → Prop
  | nil : JobsAlike P [] []
  | order {l l'} (o) : JobsAlike P l l' → JobsAlike P (.order o :: l) (.order o :: l')
  | upTo {l l' k k'} : P k k' → JobsAlike P l l' → JobsAlike P (.upTo k :: l) (.upTo k' :: l')

section
variable {Ts Ts' O R L L' S S' Q : Type} [FlavourSpec Q] {H : Handler ⟨Ts, O, R, L⟩ S}
  {H' : Handler ⟨Ts', O, R, L'⟩ S'} {E : Ts → Ts' → Prop} {A : S → S' → Prop}

theorem returns_alike (h : HostsAlike H H' E A) {l : L} {l' : L'} (hl : LimitsAlike H H' A l l') {c d : Cpu Q}
    (hc : abs c = abs d) {s : S} {s' : S'} (hs : A s s') {e : Res ⟨Ts, O, R, L⟩} {c1 : Cpu Q} {s1 : S}
    (hr : ReturnsWith H l c s e c1 s1) : ∃ e' d1 s1', ReturnsWith H' l' d s' e' d1 s1' ∧ outS e = outS e' ∧
      abs c1 = abs d1 ∧ A s1 s1' := by
  obtain ⟨n, hn⟩ := hr
  have h1 := match_limit h hl n hc s s' hs
  rw [hn n (Nat.le_refl n)] at h1
  rcases hq : (executeWithLimit n l' d).run H' s' with ⟨_ | ⟨e', d1⟩, s1'⟩
  · rw [hq] at h1
    cases h1.1
  · rw [hq] at h1
    have h2 : (abs c1, outS e) = (abs d1, outS e') := Option.some.inj h1.1
    exact ⟨e', d1, s1', returns_of hq, congrArg Prod.snd h2, congrArg Prod.fst h2, h1.2⟩

/-- C77: hosts that behave alike cannot be told apart by what the CPU does with `execute_with_limit` either, if the
limits given to it are reached at the same time. -/
theorem C77_jobs (h : HostsAlike H H' E A) {l : List (Job L)} {l' : List (Job L')}
    (hl : JobsAlike (LimitsAlike H H' A) l l') (c : Cpu Q) {s : S} {s' : S'} (hs : A s s')
    {v : List (Option (Option (Out O R)))} {c1 : Cpu Q} {s1 : S} (hd : Does H l c s v c1 s1) :
    ∃ d1 s1', Does H' l' c s' v d1 s1' ∧ c1.obs = d1.obs ∧ A s1 s1' := by
  have key : ∀ {l : List (Job L)} {l' : List (Job L')}, JobsAlike (LimitsAlike H H' A) l l' → ∀ (c d : Cpu Q)
      {s : S} {s' : S'}, abs c = abs d → A s s' → ∀ {v : List (Option (Option (Out O R)))} {c1 : Cpu Q} {s1 : S},
      Does H l c s v c1 s1 → ∃ d1 s1', Does H' l' d s' v d1 s1' ∧ abs c1 = abs d1 ∧ A s1 s1' := by
    intro l l' hl
    induction hl with
    | nil =>
      intro c d s s' hc hs v c1 s1 hd
      obtain ⟨rfl, rfl, rfl⟩ := hd
      exact ⟨d, s', ⟨rfl, rfl, rfl⟩, hc, hs⟩
    | order o _ ih =>
      intro c d s s' hc hs v c1 s1 hd
      obtain ⟨w, rfl, hd⟩ := hd
      obtain ⟨h1, h2, h3⟩ := obey_alike h o hc hs
      obtain ⟨d1, s1', h4, h5⟩ := ih _ _ h2 h3 hd
      exact ⟨d1, s1', ⟨w, by rw [h1], h4⟩, h5⟩
    | upTo hk _ ih =>
      intro c d s s' hc hs v c1 s1 hd
      obtain ⟨e, c2, s2, w, hr, rfl, hd⟩ := hd
      obtain ⟨e', d2, s2', h1, h2, h3, h4⟩ := returns_alike h hk hc hs hr
      obtain ⟨d1, s1', h5, h6⟩ := ih _ _ h3 h4 hd
      exact ⟨d1, s1', ⟨e', d2, s2', w, h1, by rw [h2], h5⟩, h6⟩
  obtain ⟨d1, s1', h1, h2, h3⟩ := key hl c c rfl hs hd
  exact ⟨d1, s1', h1, by rw [obs_shown, obs_shown, h2], h3⟩

end

section
variable {C C' O R L L' I Q : Type} [FlavourSpec Q]

/-- The same memory and devices, and clocks in that relation. -/
def Ticking (E : C → C' → Prop) (x : C × Mem × I) (y : C' × Mem × I) : Prop := E x.1 y.1 ∧ x.2 = y.2

theorem clocks_alike (k : Clockwork C L) (k' : Clockwork C' L') (d : Devices O R I) {E : C → C' → Prop}
    (hE : ∀ t t', E t t' → ∀ n, E (k.add n t) (k'.add n t')) :
    HostsAlike (k.host d) (k'.host d) E (Ticking E) := by
  constructor
  · rintro pc ⟨t, m⟩ ⟨t', m'⟩ ⟨h, rfl⟩; exact ⟨hE _ _ h 2, hE _ _ h 6, rfl⟩
  · rintro a n ⟨t, m⟩ ⟨t', m'⟩ ⟨h, rfl⟩; exact ⟨hE _ _ h _, rfl⟩
  · rintro a ⟨t, m⟩ ⟨t', m'⟩ ⟨h, rfl⟩; exact ⟨hE _ _ h 4, hE _ _ h 4, rfl⟩
  · rintro a ⟨t, m⟩ ⟨t', m'⟩ ⟨h, rfl⟩; exact ⟨hE _ _ h 3, hE _ _ h 3, rfl⟩
  · rintro a ⟨t, m⟩ ⟨t', m'⟩ ⟨h, rfl⟩; exact ⟨hE _ _ h 1, hE _ _ h 4, rfl⟩
  · rintro a n ⟨t, m⟩ ⟨t', m'⟩ ⟨h, rfl⟩; exact ⟨hE _ _ h _, rfl⟩
  · rintro ⟨t, m⟩ ⟨t', m'⟩ ⟨h, rfl⟩; exact ⟨h, h, rfl⟩
  · rintro p _ _ ⟨t, m⟩ ⟨t', m'⟩ - ⟨h, rfl⟩; exact ⟨rfl, h, rfl⟩
  · rintro p v _ _ ⟨t, m⟩ ⟨t', m'⟩ - ⟨h, rfl⟩; exact ⟨rfl, h, rfl⟩
  · rintro _ _ ⟨t, m⟩ ⟨t', m'⟩ - ⟨h, rfl⟩; exact ⟨rfl, h, rfl⟩
  · rintro p _ _ ⟨t, m⟩ ⟨t', m'⟩ - ⟨h, rfl⟩; exact ⟨rfl, h, rfl⟩
  · rintro p _ _ ⟨t, m⟩ ⟨t', m'⟩ - ⟨h, rfl⟩; exact ⟨rfl, h, rfl⟩
  · rintro p _ _ ⟨t, m⟩ ⟨t', m'⟩ - ⟨h, rfl⟩; exact ⟨rfl, h, rfl⟩
  · rintro p _ _ ⟨t, m⟩ ⟨t', m'⟩ - ⟨h, rfl⟩; exact ⟨rfl, h, rfl⟩
  · rintro p ir _ _ ⟨t, m⟩ ⟨t', m'⟩ - ⟨h, rfl⟩; exact ⟨rfl, h, rfl⟩
  · rintro a v _ _ ⟨t, m⟩ ⟨t', m'⟩ - ⟨h, rfl⟩; exact ⟨h, rfl⟩
  · rintro a ⟨t, m⟩ ⟨t', m'⟩ ⟨h, rfl⟩; exact ⟨h, rfl⟩

/-- A time in frames of `n` T-states, and the same time in T-states. -/
def FrameTime (n : Nat) (t : Nat × Nat) (t' : Nat) : Prop := t.2 < n ∧ t' = t.1 * n + t.2

theorem frameTime_add {n : Nat} {t : Nat × Nat} {t' : Nat} (h : FrameTime n t t') (k : Nat) :
    FrameTime n ((framed n).add k t) (linear.add k t') := by
  obtain ⟨h1, rfl⟩ := h
  refine ⟨Nat.mod_lt _ (by omega), ?_⟩
  show t.1 * n + t.2 + k = (t.1 + (t.2 + k) / n) * n + (t.2 + k) % n
  have := Nat.div_add_mod (t.2 + k) n
  rw [Nat.add_mul, Nat.mul_comm ((t.2 + k) / n) n]
  omega

theorem frameTime_past {n : Nat} {l t : Nat × Nat} {l' t' : Nat} (hl : FrameTime n l l') (h : FrameTime n t t') :
    (framed n).past l t = linear.past l' t' := by
  obtain ⟨h1, rfl⟩ := h
  obtain ⟨h2, rfl⟩ := hl
  refine decide_eq_decide.2 ?_
  constructor
  · rintro (h | ⟨h, h'⟩)
    · have := Nat.mul_le_mul_right n (Nat.succ_le_of_lt h)
      rw [Nat.succ_eq_add_one, Nat.add_mul] at this
      omega
    · rw [h]; omega
  · intro h
    rcases Nat.lt_trichotomy l.1 t.1 with g | g | g
    · exact .inl g
    · rw [g] at h
      exact .inr ⟨g, by omega⟩
    · have := Nat.mul_le_mul_right n (Nat.succ_le_of_lt g)
      rw [Nat.succ_eq_add_one, Nat.add_mul] at this
      omega

/-- C77: counting frames, and T-states within the frame, instead of T-states alone makes no difference: the same jobs, with
limits given in the same way, are done with the same results, and the clocks show the same time afterwards. -/
theorem C77_frames (d : Devices O R I) {n : Nat} {l : List (Job (Nat × Nat))} {l' : List (Job Nat)}
    (hl : JobsAlike (FrameTime n) l l') (c : Cpu Q) {t : Nat × Nat} {t' : Nat} (ht : FrameTime n t t') (m : Mem) (i : I)
    {v : List (Option (Option (Out O R)))} {c1 : Cpu Q} {t1 : Nat × Nat} {m1 : Mem} {i1 : I}
    (hd : Does ((framed n).host d) l c (t, m, i) v c1 (t1, m1, i1)) :
    ∃ d1, Does (linear.host d) l' c (t', m, i) v d1 (t1.1 * n + t1.2, m1, i1) ∧ c1.obs = d1.obs ∧ t1.2 < n := by
  have ha : JobsAlike (LimitsAlike ((framed n).host d) (linear.host d) (Ticking (FrameTime n))) l l' := by
    clear hd
    induction hl with
    | nil => exact .nil
    | order o _ ih => exact .order o ih
    | upTo hk _ ih =>
      refine .upTo ?_ ih
      rintro ⟨s, m⟩ ⟨s', m'⟩ ⟨hs, rfl⟩
      exact ⟨frameTime_past hk hs, hs, rfl⟩
  obtain ⟨d1, ⟨t2, m2⟩, h1, h2, h3, h4⟩ := C77_jobs (clocks_alike _ _ d fun t t' h n => frameTime_add h n) ha c
    (s := (t, m, i)) (s' := (t', m, i)) ⟨ht, rfl⟩ hd
  obtain ⟨h5, rfl⟩ := h3
  obtain rfl : (m1, i1) = m2 := h4
  exact ⟨d1, h1, h2, h5⟩

end

/-- The devices of `alike_case`, with frames of 20 T-states and with T-states alone: `LD A,5`, `OUT (7),A`, which takes 300
wait states and ends the run. -/
def frames_case {C : Type} (k : Clockwork C C) (t l : C) : Option (U8 × U16) × C × List U8 :=
  let r := (executeWithLimit 9 l (Cpu.new : Cpu NMOS)).run (k.host alike_devices)
    (t, Z80.program [0x3E, 5, 0xD3, 7, 0xFB, 0x3C], [])
  (r.1.map fun x => (x.2.obs.a, x.2.obs.pc), r.2.1, r.2.2.2)

example : frames_case (framed 20) (2, 17) (4, 0) = (some (5, 4), (18, 15), [5]) ∧
    frames_case linear 57 80 = (some (5, 4), 375, [5]) ∧ FrameTime 20 (2, 17) 57 ∧
    FrameTime 20 (4, 0) 80 ∧ FrameTime 20 (18, 15) 375 := by
  refine ⟨by decide +kernel, by decide +kernel, ?_⟩
  unfold FrameTime
  omega

/-- The premises of `C77_frames` are met. -/
example : ∃ v c t m i, Does ((framed 20).host alike_devices) [.upTo (4, 0)] (Cpu.new : Cpu NMOS)
    ((2, 17), Z80.program [0x3E, 5, 0xD3, 7, 0xFB, 0x3C], []) v c (t, m, i) := by
  rcases h : (executeWithLimit 9 (4, 0) (Cpu.new : Cpu NMOS)).run ((framed 20).host alike_devices)
    ((2, 17), Z80.program [0x3E, 5, 0xD3, 7, 0xFB, 0x3C], []) with ⟨_ | ⟨e, c⟩, t, m, i⟩
  · have : (frames_case (framed 20) (2, 17) (4, 0)).1.isSome = true := by decide +kernel
    unfold frames_case at this
    rw [h] at this
    cases this
  · exact ⟨_, c, t, m, i, e, c, (t, m, i), [], returns_of h, rfl, rfl, rfl, rfl⟩

end Z80
