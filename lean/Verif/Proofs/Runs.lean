import Verif.Proofs.Kit

/-!
# Runs of programs: some answers of the host
-/

namespace Z80

variable {σ : Sig} {Q α β γ : Type}

namespace Prog

/-- `p.Runs t a`: for some answers of the host the calls-and-answers list is `t` and the final
value is `a`. -/
inductive Runs : Prog σ α → List (Ev σ) → α → Prop
  | ret (a) : Runs (.ret a) [] a
  | call (r k x t a) : Runs (k x) t a → Runs (.call r k) (⟨r, x⟩ :: t) a

theorem runs_ret {a b : α} {t : List (Ev σ)} (h : Runs (.ret a) t b) : t = [] ∧ b = a := by
  cases h; exact ⟨rfl, rfl⟩

theorem runs_call {r : Req σ} {k : r.Ans → Prog σ α} {t a} (h : Runs (.call r k) t a) :
    ∃ x u, t = ⟨r, x⟩ :: u ∧ Runs (k x) u a := by
  cases h with
  | call _ _ x u _ h => exact ⟨x, u, rfl, h⟩

theorem wp_iff (p : Prog σ α) (P : List (Ev σ) → α → Prop) :
    p.wp P ↔ ∀ t a, p.Runs t a → P t a := by
  induction p generalizing P with
  | ret a =>
    constructor
    · intro h t b hr
      obtain ⟨rfl, rfl⟩ := runs_ret hr
      exact h
    · exact fun h => h [] a (.ret a)
  | call r k ih =>
    constructor
    · intro h t a hr
      obtain ⟨x, u, rfl, hr'⟩ := runs_call hr
      exact (ih x _).1 (h x) u a hr'
    · exact fun h x => (ih x _).2 fun t a hr => h _ _ (.call r k x t a hr)

theorem runs_wp {p : Prog σ α} {P : List (Ev σ) → α → Prop} {t a} (hr : p.Runs t a) (h : p.wp P) :
    P t a := (wp_iff p P).1 h t a hr

theorem runs_bind {p : Prog σ α} {f : α → Prog σ β} {t : List (Ev σ)} {b : β} :
    (p.bind f).Runs t b ↔ ∃ u v a, t = u ++ v ∧ p.Runs u a ∧ (f a).Runs v b := by
  induction p generalizing t with
  | ret a =>
    constructor
    · exact fun h => ⟨[], t, a, rfl, .ret a, h⟩
    · rintro ⟨u, v, a', rfl, h, h'⟩
      obtain ⟨rfl, rfl⟩ := runs_ret h
      exact h'
  | call r k ih =>
    constructor
    · intro h
      obtain ⟨x, u, rfl, h'⟩ := runs_call h
      obtain ⟨u', v, a, rfl, h1, h2⟩ := (ih x).1 h'
      exact ⟨⟨r, x⟩ :: u', v, a, rfl, .call r k x u' a h1, h2⟩
    · rintro ⟨u, v, a', rfl, h, h'⟩
      obtain ⟨x, u', rfl, h1⟩ := runs_call h
      exact .call _ _ x _ _ ((ih x).2 ⟨u', v, a', rfl, h1, h'⟩)

theorem runs_map {p : Prog σ α} {f : α → β} {t : List (Ev σ)} {b : β} :
    (p.map f).Runs t b ↔ ∃ a, p.Runs t a ∧ b = f a := by
  rw [map, runs_bind]
  constructor
  · rintro ⟨u, v, a, rfl, h, h'⟩
    obtain ⟨rfl, rfl⟩ := runs_ret h'
    exact ⟨a, by simpa using h, rfl⟩
  · rintro ⟨a, h, rfl⟩
    exact ⟨t, [], a, by simp, h, .ret _⟩

/-- A run against a deterministic host is a run. -/
theorem runs_run {S : Type} (H : Handler σ S) (p : Prog σ α) (h : S) :
    p.Runs (p.trace H h) (p.run H h).1 := by
  induction p generalizing h with
  | ret a => exact .ret a
  | call r k ih => exact .call r k _ _ _ (ih _ _)

theorem wp_self (p : Prog σ α) : p.wp fun t a => p.Runs t a := (wp_iff _ _).2 fun _ _ h => h

end Prog
end Z80
