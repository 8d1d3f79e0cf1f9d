import Verif.Model.Serde

/-!
# Reading maps
-/

namespace Z80.Serde

variable {F : Type} [DecidableEq F] {Ty : F → Type}

/-- The fields named by the keys of a map. -/
def fieldsOf (k : Keys F) (l : List (String × Val)) : List F := l.filterMap fun e => k.of e.1

/-- The value of a field in a map: that of the first key that names it. -/
def value (k : Keys F) (f : F) (l : List (String × Val)) : Option Val :=
  (l.find? fun e => k.of e.1 = some f).map (·.2)

theorem value_nil (k : Keys F) (f : F) : value k f [] = none := rfl

theorem value_cons (k : Keys F) (f : F) (e : String × Val) (l : List (String × Val)) :
    value k f (e :: l) = if k.of e.1 = some f then some e.2 else value k f l := by
  unfold value
  rw [List.find?_cons]
  by_cases h : k.of e.1 = some f
  · rw [if_pos h, show decide (k.of e.1 = some f) = true from decide_eq_true h]
    rfl
  · rw [if_neg h, show decide (k.of e.1 = some f) = false from decide_eq_false h]

theorem value_none {k : Keys F} {f : F} {l : List (String × Val)} :
    value k f l = none ↔ f ∉ fieldsOf k l := by
  unfold value fieldsOf
  simp

theorem set_same (p : Slots Ty) (f : F) (x : Ty f) : p.set f x f = some x := by
  unfold Slots.set
  rw [dif_pos rfl]

theorem set_other (p : Slots Ty) {f g : F} (x : Ty f) (h : g ≠ f) : p.set f x g = p g := by
  unfold Slots.set
  rw [dif_neg h]

/-- What the variable `x` of field `f` is after reading the value `v`, `d` before. -/
def Read (parse : (f : F) → Val → De (Ty f)) (f : F) (v : Option Val) (d x : Option (Ty f)) : Prop :=
  match v with
  | none => x = d
  | some v => ∃ y, parse f v = .ok y ∧ x = some y

/-- When the loop succeeds, and with what. -/
theorem collect_iff (k : Keys F) (parse : (f : F) → Val → De (Ty f)) (l : List (String × Val))
    (p p' : Slots Ty) : collect k parse l p = .ok p' ↔
      (k.strict = true → ∀ e ∈ l, (k.of e.1).isSome) ∧ (fieldsOf k l).Nodup ∧
      (∀ f ∈ fieldsOf k l, p f = none) ∧ ∀ f, Read parse f (value k f l) (p f) (p' f) := by
  induction l generalizing p with
  | nil =>
    unfold collect
    constructor
    · intro h
      cases h
      exact ⟨fun _ _ h => absurd h List.not_mem_nil, List.nodup_nil,
        fun _ h => absurd h List.not_mem_nil, fun f => rfl⟩
    · rintro ⟨-, -, -, h⟩
      exact congrArg Except.ok (funext fun f => (h f).symm)
  | cons e l ih =>
    obtain ⟨s, v⟩ := e
    rw [collect]
    cases hf : k.of s with
    | none =>
      have h1 : fieldsOf k ((s, v) :: l) = fieldsOf k l := by
        unfold fieldsOf
        rw [List.filterMap_cons]
        simp only [hf]
      have h2 : ∀ f, value k f ((s, v) :: l) = value k f l := fun f => by
        rw [value_cons, hf, if_neg (by nofun)]
      simp only [h1, h2]
      cases hs : k.strict with
      | true =>
        rw [if_pos rfl]
        refine ⟨nofun, fun h => ?_⟩
        have := h.1 rfl _ (.head _)
        rw [hf] at this
        cases this
      | false =>
        rw [if_neg Bool.false_ne_true, ih, hs]
        simp
    | some f =>
      have h1 : fieldsOf k ((s, v) :: l) = f :: fieldsOf k l := by
        unfold fieldsOf
        rw [List.filterMap_cons]
        simp only [hf]
      rw [h1]
      simp only
      by_cases hp : (p f).isSome = true
      · rw [if_pos hp]
        refine ⟨nofun, fun h => ?_⟩
        rw [h.2.2.1 f (.head _)] at hp
        cases hp
      · rw [if_neg hp]
        have hp : p f = none := by simpa using hp
        cases hx : parse f v with
        | error e =>
          refine ⟨nofun, fun h => ?_⟩
          have := h.2.2.2 f
          rw [value_cons, hf, if_pos rfl] at this
          obtain ⟨y, hy, -⟩ := this
          rw [hx] at hy
          cases hy
        | ok x =>
          show collect k parse l (p.set f x) = _ ↔ _
          rw [ih]
          constructor
          · rintro ⟨g1, g2, g3, g4⟩
            have hn : f ∉ fieldsOf k l := fun hm => by
              have := g3 f hm
              rw [set_same] at this
              cases this
            refine ⟨fun hs e he => ?_, List.nodup_cons.2 ⟨hn, g2⟩, fun g hg => ?_, fun g => ?_⟩
            · cases he with
              | head => rw [hf]; rfl
              | tail _ he => exact g1 hs e he
            · cases hg with
              | head => exact hp
              | tail _ hg =>
                have := g3 g hg
                rwa [set_other _ _ (fun h : g = f => hn (h ▸ hg))] at this
            · have := g4 g
              rw [value_cons, hf]
              by_cases hg : g = f
              · subst hg
                rw [if_pos rfl]
                rw [value_none.2 hn] at this
                have : p' g = p.set g x g := this
                exact ⟨x, hx, this.trans (set_same _ _ _)⟩
              · rw [if_neg (fun h => hg (Option.some.inj h).symm)]
                rwa [set_other _ _ hg] at this
          · rintro ⟨g1, g2, g3, g4⟩
            have hn := List.nodup_cons.1 g2
            refine ⟨fun hs e he => g1 hs e (.tail _ he), hn.2, fun g hg => ?_, fun g => ?_⟩
            · rw [set_other _ _ (fun h : g = f => hn.1 (h ▸ hg))]
              exact g3 g (.tail _ hg)
            · have := g4 g
              rw [value_cons, hf] at this
              by_cases hg : g = f
              · subst hg
                rw [if_pos rfl] at this
                obtain ⟨y, hy, h⟩ := this
                rw [hx] at hy
                cases hy
                rw [value_none.2 hn.1]
                show p' g = p.set g x g
                rw [h, set_same]
              · rw [if_neg (fun h => hg (Option.some.inj h).symm)] at this
                rwa [set_other _ _ hg]

/-- Maps with the same fields and values, in any order and with any of the names, are read alike. -/
theorem collect_perm {k : Keys F} {parse : (f : F) → Val → De (Ty f)} {l l' : List (String × Val)}
    (h : (l.map fun e => (k.of e.1, e.2)).Perm (l'.map fun e => (k.of e.1, e.2))) {p p' : Slots Ty}
    (hl : collect k parse l p = .ok p') : collect k parse l' p = .ok p' := by
  rw [collect_iff] at hl ⊢
  obtain ⟨h1, h2, h3, h4⟩ := hl
  have e1 : ∀ m : List (String × Val), fieldsOf k m = (m.map fun e => (k.of e.1, e.2)).filterMap (·.1) := by
    intro m
    unfold fieldsOf
    rw [List.filterMap_map]
    rfl
  have hp : (fieldsOf k l).Perm (fieldsOf k l') := by
    rw [e1, e1]
    exact h.filterMap _
  refine ⟨fun hs e he => ?_, hp.nodup_iff.1 h2, fun f hf => h3 f (hp.mem_iff.2 hf), fun f => ?_⟩
  · have : (k.of e.1, e.2) ∈ l.map fun e => (k.of e.1, e.2) := h.mem_iff.2 (List.mem_map.2 ⟨e, he, rfl⟩)
    obtain ⟨e', he', hh⟩ := List.mem_map.1 this
    have := h1 hs e' he'
    rwa [(Prod.mk.inj hh).1] at this
  · have hv : ∀ m : List (String × Val), (fieldsOf k m).Nodup → ∀ v,
        value k f m = some v ↔ (some f, v) ∈ m.map fun e => (k.of e.1, e.2) := by
      intro m
      induction m with
      | nil => intro _ v; simp [value_nil]
      | cons e m ih =>
        intro hn v
        rw [value_cons, List.map_cons, List.mem_cons]
        by_cases he : k.of e.1 = some f
        · rw [if_pos he, he]
          unfold fieldsOf at hn
          simp only [List.filterMap_cons, he, List.nodup_cons] at hn
          constructor
          · intro h; left; cases h; rfl
          · rintro (h | h)
            · cases h; rfl
            · exfalso
              refine hn.1 ?_
              obtain ⟨e', he', hh⟩ := List.mem_map.1 h
              exact List.mem_filterMap.2 ⟨e', he', (Prod.mk.inj hh).1⟩
        · rw [if_neg he]
          have hn' : (fieldsOf k m).Nodup := by
            unfold fieldsOf at hn ⊢
            cases hk : k.of e.1 with
            | none => simpa only [List.filterMap_cons, hk] using hn
            | some g => simp only [List.filterMap_cons, hk] at hn; exact (List.nodup_cons.1 hn).2
          rw [ih hn']
          constructor
          · exact .inr
          · rintro (h | h)
            · exact absurd (Prod.mk.inj h).1.symm he
            · exact h
    have : value k f l = value k f l' := by
      refine Option.ext fun v => ?_
      rw [hv l h2, hv l' (hp.nodup_iff.1 h2), h.mem_iff]
    rw [← this]
    exact h4 f

end Z80.Serde
