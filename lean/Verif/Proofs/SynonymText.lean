import Verif.Spec.Synonym
import Std.Data.String.ToNat

/-!
# Operands are told by their texts
-/

set_option linter.constructorNameAsVariable false

namespace Z80.Synonym
open Spec

/-- Characters of names. -/
def up (c : Char) : Bool := c.isUpper || c == '\''

/-- What is written as a number. -/
structure Numeral (l : List Char) : Prop where
  alnum : ∀ c ∈ l, c.isAlphanum = true
  low : ∃ c ∈ l, up c = false

/-- Names. -/
structure Named (l : List Char) : Prop where
  up : ∀ c ∈ l, up c = true
  some : l ≠ []

theorem nibble_ok (u : Bool) (n : Nat) (h : n < 16) : (nibble u n).isAlphanum = true := by
  have : ∀ n : Fin 16, ∀ u : Bool, (nibble u n).isAlphanum = true := by decide +kernel
  exact this ⟨n, h⟩ u

theorem nibble_inj (u : Bool) {n m : Nat} (hn : n < 16) (hm : m < 16) (h : nibble u n = nibble u m) :
    n = m := by
  have : ∀ n m : Fin 16, ∀ u : Bool, nibble u n = nibble u m → n = m := by decide +kernel
  exact congrArg Fin.val (this ⟨n, hn⟩ ⟨m, hm⟩ u h)

theorem hex8_inj (u : Bool) {a b : U8} (h : hex8 u a = hex8 u b) : a = b := by
  have h := String.ofList_injective h
  simp only [List.cons.injEq, and_true] at h
  have := a.isLt
  have := b.isLt
  have h1 := nibble_inj u (by omega) (by omega) h.1
  have h2 := nibble_inj u (by omega) (by omega) h.2
  exact BitVec.eq_of_toNat_eq (by omega)

theorem hex16_inj (u : Bool) {a b : U16} (h : hex16 u a = hex16 u b) : a = b := by
  have h := String.ofList_injective h
  simp only [List.cons.injEq, and_true] at h
  have := a.isLt
  have := b.isLt
  have h1 := nibble_inj u (by omega) (by omega) h.1
  have h2 := nibble_inj u (by omega) (by omega) h.2.1
  have h3 := nibble_inj u (by omega) (by omega) h.2.2.1
  have h4 := nibble_inj u (by omega) (by omega) h.2.2.2
  exact BitVec.eq_of_toNat_eq (by omega)

theorem marked_inj (pre : Bool) {s t : String} (h : marked pre s = marked pre t) : s = t := by
  have h := congrArg String.toList h
  cases pre
  · simp only [marked, Bool.false_eq_true, if_false, String.toList_append] at h
    exact String.toList_inj.1 (List.append_cancel_right h)
  · simp only [marked, if_true, String.toList_append] at h
    exact String.toList_inj.1 (List.append_cancel_left h)

theorem dec_inj {n m : Nat} (h : toString n = toString m) : n = m := Nat.repr_injective h

theorem num8_inj (s : Style) {a b : U8} (h : s.num8 a = s.num8 b) : a = b := by
  cases s with
  | dec => exact BitVec.eq_of_toNat_eq (dec_inj h)
  | hex u p => exact hex8_inj u (marked_inj p h)

theorem num16_inj (s : Style) {a b : U16} (h : s.num16 a = s.num16 b) : a = b := by
  cases s with
  | dec => exact BitVec.eq_of_toNat_eq (dec_inj h)
  | hex u p => exact hex16_inj u (marked_inj p h)

theorem numeral_dec (n : Nat) : Numeral (toString n).toList := by
  have hd : ∀ c ∈ (toString n).toList, c.isDigit = true := by
    intro c hc
    have : (toString n).toList = Nat.toDigits 10 n := by
      show (Nat.repr n).toList = _
      simp [Nat.repr]
    rw [this] at hc
    exact Nat.isDigit_of_mem_toDigits (by omega) (by omega) hc
  refine ⟨fun c hc => ?_, ?_⟩
  · simp [Char.isAlphanum, hd c hc]
  · have hne : (toString n).toList ≠ [] := by
      show (Nat.repr n).toList ≠ _
      simp [Nat.repr]
    obtain ⟨c, l, hc⟩ := List.exists_cons_of_ne_nil hne
    refine ⟨c, hc ▸ List.mem_cons_self, ?_⟩
    have := hd c (hc ▸ List.mem_cons_self)
    simp only [up, Char.isUpper, Char.isDigit, Bool.and_eq_true, decide_eq_true_eq, Bool.or_eq_false_iff,
      decide_eq_false_iff_not, beq_eq_false_iff_ne] at this ⊢
    obtain ⟨h1, h2⟩ := this
    refine ⟨fun h => ?_, ?_⟩
    · have h2 := UInt32.le_iff_toNat_le.1 h2
      have h := UInt32.le_iff_toNat_le.1 h.1
      have : ('A'.val).toNat = 65 := rfl
      have : ('9'.val).toNat = 57 := rfl
      omega
    · rintro rfl
      exact absurd h1 (by decide)

theorem numeral_marked (pre : Bool) {t : String} (h : ∀ c ∈ t.toList, c.isAlphanum = true) :
    Numeral (marked pre t).toList := by
  cases pre
  · simp only [marked, Bool.false_eq_true, if_false, String.toList_append]
    refine ⟨fun c hc => ?_, 'h', List.mem_append_right _ (by decide), by decide⟩
    rcases List.mem_append.1 hc with hc | hc
    · exact h c hc
    · have : ∀ c ∈ ("h" : String).toList, c.isAlphanum = true := by decide
      exact this c hc
  · simp only [marked, if_true, String.toList_append]
    refine ⟨fun c hc => ?_, '0', List.mem_append_left _ (by decide), by decide⟩
    rcases List.mem_append.1 hc with hc | hc
    · have : ∀ c ∈ ("0x" : String).toList, c.isAlphanum = true := by decide
      exact this c hc
    · exact h c hc

theorem numeral_num8 (s : Style) (b : U8) : Numeral (s.num8 b).toList := by
  cases s with
  | dec => exact numeral_dec _
  | hex u p =>
    refine numeral_marked p fun c hc => ?_
    have := b.isLt
    simp only [hex8, String.toList_ofList, List.mem_cons, List.not_mem_nil, or_false] at hc
    rcases hc with rfl | rfl <;> exact nibble_ok u _ (by omega)

theorem numeral_num16 (s : Style) (b : U16) : Numeral (s.num16 b).toList := by
  cases s with
  | dec => exact numeral_dec _
  | hex u p =>
    refine numeral_marked p fun c hc => ?_
    have := b.isLt
    simp only [hex16, String.toList_ofList, List.mem_cons, List.not_mem_nil, or_false] at hc
    rcases hc with rfl | rfl | rfl | rfl <;> exact nibble_ok u _ (by omega)

/-- The part of an operand that its text tells at once. -/
inductive Pat
  | name (t : String) | number | ind (t : String) | mem | idx (t : String)
deriving DecidableEq, Repr

/-- The pattern of an operand. -/
def pat : Opd → Pat
  | .name t => .name t
  | .num _ | .byte _ | .word _ => .number
  | .mem _ | .port _ => .mem
  | .ind t => .ind t
  | .idx t _ => .idx t

/-- The name in a pattern is one. -/
def Pat.Ok : Pat → Prop
  | .name t | .ind t | .idx t => (∀ c ∈ t.toList, up c = true) ∧ t ≠ ""
  | _ => True

instance (p : Pat) : Decidable p.Ok := by cases p <;> (unfold Pat.Ok; infer_instance)

theorem named {t : String} (h : (∀ c ∈ t.toList, up c = true) ∧ t ≠ "") : Named t.toList :=
  ⟨h.1, fun hn => h.2 (String.toList_inj.1 hn)⟩

theorem Numeral.not_named {l : List Char} (h : Numeral l) (h' : Named l) : False := by
  obtain ⟨c, hc, hu⟩ := h.low
  exact absurd (h'.up c hc) (by rw [hu]; exact Bool.false_ne_true)

/-- Signs of displacements. -/
def sign (c : Char) : Bool := c == '+' || c == '-'

theorem Numeral.no_sign {l : List Char} (h : Numeral l) : ∀ c ∈ l, sign c = false := by
  intro c hc
  have := h.alnum c hc
  cases hs : sign c with
  | false => rfl
  | true =>
    simp only [sign, Bool.or_eq_true, beq_iff_eq] at hs
    rcases hs with rfl | rfl <;> exact absurd this (by decide)

theorem Named.no_sign {l : List Char} (h : Named l) : ∀ c ∈ l, sign c = false := by
  intro c hc
  have := h.up c hc
  cases hs : sign c with
  | false => rfl
  | true =>
    simp only [sign, Bool.or_eq_true, beq_iff_eq] at hs
    rcases hs with rfl | rfl <;> exact absurd this (by decide)

theorem Numeral.some {l : List Char} (h : Numeral l) : l ≠ [] := by
  obtain ⟨c, hc, -⟩ := h.low
  rintro rfl
  cases hc

/-- The displacement: a sign and a number. -/
theorem disp_shape (s : Style) (d : U8) :
    ∃ c n, sign c = true ∧ Numeral n ∧ (s.disp d).toList = c :: n := by
  unfold Style.disp
  split
  · exact ⟨'+', _, rfl, numeral_num8 s d, by simp [String.toList_append]⟩
  · exact ⟨'-', _, rfl, numeral_num8 s (BitVec.ofNat 8 (256 - d.toNat)), by simp [String.toList_append]⟩

theorem disp_inj (s : Style) {d e : U8} (h : s.disp d = s.disp e) : d = e := by
  have h := congrArg String.toList h
  unfold Style.disp at h
  have hd := d.isLt
  have he := e.isLt
  split at h <;> split at h <;> simp only [String.toList_append] at h
  · exact num8_inj s (String.toList_inj.1 (List.append_cancel_left h))
  · exact absurd (List.cons.inj h).1 (by decide)
  · exact absurd (List.cons.inj h).1 (by decide)
  · have h := num8_inj s (String.toList_inj.1 (List.append_cancel_left h))
    have h := congrArg BitVec.toNat h
    simp only [BitVec.toNat_ofNat] at h
    exact BitVec.eq_of_toNat_eq (by omega)

/-- Where a list is split by the first element with a property. -/
theorem split_first {α : Type} {p : α → Bool} {a b : List α} {x y : α} {u v : List α}
    (ha : ∀ c ∈ a, p c = false) (hb : ∀ c ∈ b, p c = false) (hx : p x = true) (hy : p y = true)
    (h : a ++ x :: u = b ++ y :: v) : a = b ∧ x = y ∧ u = v := by
  induction a generalizing b with
  | nil =>
    cases b with
    | nil => exact ⟨rfl, List.cons.inj h⟩
    | cons c b =>
      have := (List.cons.inj h).1
      rw [this, hb c (.head _)] at hx
      cases hx
  | cons c a ih =>
    cases b with
    | nil =>
      have := (List.cons.inj h).1
      rw [← this, ha c (.head _)] at hy
      cases hy
    | cons d b =>
      obtain ⟨h1, h2⟩ := List.cons.inj h
      obtain ⟨h3, h4⟩ := ih (fun c hc => ha c (.tail _ hc)) (fun c hc => hb c (.tail _ hc)) h2
      exact ⟨by rw [h1, h3], h4⟩

/-- The text of an operand, taken apart. -/
inductive Shape : Opd → List Char → Prop
  | name {t} : Named t.toList → Shape (.name t) t.toList
  | number {o l} : pat o = .number → Numeral l → Shape o l
  | ind {t} : Named t.toList → Shape (.ind t) ('(' :: (t.toList ++ [')']))
  | mem {o l} : pat o = .mem → Numeral l → Shape o ('(' :: (l ++ [')']))
  | idx {t d c n} : Named t.toList → sign c = true → Numeral n →
    Shape (.idx t d) ('(' :: ((t.toList ++ c :: n) ++ [')']))

theorem shape (s : Style) {o : Opd} (h : (pat o).Ok) : Shape o (o.text s).toList := by
  cases o with
  | name t => exact .name (named h)
  | num n => exact .number rfl (numeral_dec n)
  | byte n => exact .number rfl (numeral_num8 s n)
  | word n => exact .number rfl (numeral_num16 s n)
  | mem n =>
    have := Shape.mem (o := .mem n) rfl (numeral_num16 s n)
    simpa [Opd.text, String.toList_append] using this
  | port n =>
    have := Shape.mem (o := .port n) rfl (numeral_num8 s n)
    simpa [Opd.text, String.toList_append] using this
  | ind t =>
    have := Shape.ind (named h)
    simpa [Opd.text, String.toList_append] using this
  | idx t d =>
    obtain ⟨c, n, hc, hn, e⟩ := disp_shape s d
    have := Shape.idx (d := d) (named h) hc hn
    rw [← e] at this
    simpa [Opd.text, String.toList_append] using this

theorem Named.head {l : List Char} (h : Named ('(' :: l)) : False :=
  absurd (h.up _ (.head _)) (by decide)

theorem Numeral.head {l : List Char} (h : Numeral ('(' :: l)) : False :=
  absurd (h.alnum _ (.head _)) (by decide)

theorem inner {a b : List Char} (h : '(' :: (a ++ [')']) = '(' :: (b ++ [')'])) : a = b :=
  List.append_cancel_right (List.cons.inj h).2

theorem signed {a n : List Char} {c : Char} (h : ∀ x ∈ a ++ c :: n, sign x = false)
    (hc : sign c = true) : False := by
  have := h c (List.mem_append_right _ (.head _))
  rw [hc] at this
  cases this

theorem Shape.pat_eq {o o' : Opd} {l l' : List Char} (h : Shape o l) (h' : Shape o' l') (e : l = l') :
    pat o = pat o' := by
  cases h with
  | name n =>
    cases h' with
    | name n' => rw [String.toList_inj.1 e]
    | number p n' => exact ((e ▸ n').not_named n).elim
    | ind _ => rw [e] at n; exact n.head.elim
    | mem _ _ => rw [e] at n; exact n.head.elim
    | idx _ _ _ => rw [e] at n; exact n.head.elim
  | number p n =>
    cases h' with
    | name n' => exact ((e ▸ n).not_named n').elim
    | number p' n' => rw [p, p']
    | ind _ => rw [e] at n; exact n.head.elim
    | mem _ _ => rw [e] at n; exact n.head.elim
    | idx _ _ _ => rw [e] at n; exact n.head.elim
  | ind n =>
    cases h' with
    | name n' => rw [← e] at n'; exact n'.head.elim
    | number p' n' => rw [← e] at n'; exact n'.head.elim
    | ind n' => rw [String.toList_inj.1 (inner e)]
    | mem p n' => exact ((inner e ▸ n').not_named n).elim
    | idx _ c _ =>
      have := n.no_sign
      rw [inner e] at this
      exact (signed this c).elim
  | mem p n =>
    cases h' with
    | name n' => rw [← e] at n'; exact n'.head.elim
    | number p' n' => rw [← e] at n'; exact n'.head.elim
    | ind n' => exact ((inner e ▸ n).not_named n').elim
    | mem p' n' => rw [p, p']
    | idx _ c _ =>
      have := n.no_sign
      rw [inner e] at this
      exact (signed this c).elim
  | idx m c n =>
    cases h' with
    | name n' => rw [← e] at n'; exact n'.head.elim
    | number p' n' => rw [← e] at n'; exact n'.head.elim
    | ind n' =>
      have := n'.no_sign
      rw [← inner e] at this
      exact (signed this c).elim
    | mem p n' =>
      have := n'.no_sign
      rw [← inner e] at this
      exact (signed this c).elim
    | idx m' c' n' =>
      have := split_first m.no_sign m'.no_sign c c' (inner e)
      rw [String.toList_inj.1 this.1]
      rfl

/-- Operands with the same text have the same pattern. -/
theorem text_pat (s : Style) {o o' : Opd} (h : (pat o).Ok) (h' : (pat o').Ok)
    (e : o.text s = o'.text s) : pat o = pat o' :=
  (shape s h).pat_eq (shape s h') (congrArg String.toList e)

/-- The kind of an operand. -/
def kind : Opd → Nat
  | .name _ => 0 | .num _ => 1 | .byte _ => 2 | .word _ => 3 | .mem _ => 4 | .ind _ => 5 | .idx _ _ => 6
  | .port _ => 7

theorem paren_inj {s t : String} (h : "(" ++ s ++ ")" = "(" ++ t ++ ")") : s = t := by
  have h := congrArg String.toList h
  simp only [String.toList_append] at h
  exact String.toList_inj.1 (List.append_cancel_left (List.append_cancel_right h))

/-- Operands of the same kind with the same text are equal. -/
theorem text_inj (s : Style) {o o' : Opd} (h : (pat o).Ok) (h' : (pat o').Ok) (hk : kind o = kind o')
    (e : o.text s = o'.text s) : o = o' := by
  have hp := text_pat s h h' e
  cases o <;> cases o' <;> first | (exfalso; revert hk; simp [kind]; done) | skip
  · exact congrArg _ e
  · exact congrArg _ (dec_inj e)
  · exact congrArg _ (num8_inj s e)
  · exact congrArg _ (num16_inj s e)
  · exact congrArg _ (num16_inj s (paren_inj e))
  · exact congrArg _ (paren_inj e)
  · next t d t' d' =>
    obtain rfl : t = t' := by simpa [pat] using hp
    have e := congrArg String.toList e
    simp only [Opd.text, String.toList_append] at e
    have e := List.append_cancel_right e
    rw [List.append_assoc, List.append_assoc] at e
    have e := List.append_cancel_left (List.append_cancel_left e)
    rw [disp_inj s (String.toList_inj.1 e)]
  · exact congrArg _ (num8_inj s (paren_inj e))

theorem text_ne (s : Style) {o : Opd} (h : (pat o).Ok) : (o.text s).toList ≠ [] := by
  have := shape s h
  clear h
  generalize (o.text s).toList = l at this
  cases this with
  | name h => exact h.some
  | number _ h => exact h.some
  | _ => exact List.cons_ne_nil _ _

/-- No operand contains a comma or a space. -/
theorem text_comma (s : Style) {o : Opd} (h : (pat o).Ok) :
    ∀ c ∈ (o.text s).toList, (c == ',' || c == ' ') = false := by
  have := shape s h
  have hn : ∀ l, Named l → ∀ c ∈ l, (c == ',' || c == ' ') = false := by
    intro l h c hc
    have := h.up c hc
    cases hs : (c == ',' || c == ' ') with
    | false => rfl
    | true =>
      simp only [Bool.or_eq_true, beq_iff_eq] at hs
      rcases hs with rfl | rfl <;> exact absurd this (by decide)
  have hm : ∀ l, Numeral l → ∀ c ∈ l, (c == ',' || c == ' ') = false := by
    intro l h c hc
    have := h.alnum c hc
    cases hs : (c == ',' || c == ' ') with
    | false => rfl
    | true =>
      simp only [Bool.or_eq_true, beq_iff_eq] at hs
      rcases hs with rfl | rfl <;> exact absurd this (by decide)
  have hx : ∀ l : List Char, (∀ c ∈ l, (c == ',' || c == ' ') = false) →
      ∀ c ∈ '(' :: (l ++ [')']), (c == ',' || c == ' ') = false := by
    intro l hl c hc
    rcases List.mem_cons.1 hc with rfl | hc
    · rfl
    rcases List.mem_append.1 hc with hc | hc
    · exact hl c hc
    · rw [List.mem_singleton] at hc; subst hc; rfl
  clear h
  generalize (o.text s).toList = l at this
  cases this with
  | name h => exact hn _ h
  | number _ h => exact hm _ h
  | ind h => exact hx _ (hn _ h)
  | mem _ h => exact hx _ (hm _ h)
  | @idx t d c n h hc h' =>
    refine hx _ fun x hx => ?_
    rcases List.mem_append.1 hx with hx | hx
    · exact hn _ h x hx
    rcases List.mem_cons.1 hx with rfl | hx
    · simp only [sign, Bool.or_eq_true, beq_iff_eq] at hc
      rcases hc with rfl | rfl <;> rfl
    · exact hm _ h' x hx

/-- The texts of a list of operands. -/
def flat : List (List Char) → List Char
  | [] => []
  | [t] => t
  | t :: l => t ++ ',' :: ' ' :: flat l

theorem intercalate_flat (l : List String) :
    (String.intercalate ", " l).toList = flat (l.map String.toList) := by
  induction l with
  | nil => rfl
  | cons t l ih =>
    cases l with
    | nil => simp [flat]
    | cons u l =>
      rw [String.intercalate_cons_cons, String.toList_append, String.toList_append, ih]
      simp [flat]

theorem flat_inj {l l' : List (List Char)} (h : ∀ t ∈ l, t ≠ [] ∧ ∀ c ∈ t, (c == ',') = false)
    (h' : ∀ t ∈ l', t ≠ [] ∧ ∀ c ∈ t, (c == ',') = false) (e : flat l = flat l') : l = l' := by
  induction l generalizing l' with
  | nil =>
    cases l' with
    | nil => rfl
    | cons t l' =>
      have := (h' t (.head _)).1
      cases l' with
      | nil => exact absurd e.symm this
      | cons u l' => exact absurd e.symm (by simp [flat])
  | cons t l ih =>
    cases l' with
    | nil =>
      have := (h t (.head _)).1
      cases l with
      | nil => exact absurd e this
      | cons u l => exact absurd e (by simp [flat])
    | cons t' l' =>
      have c := (h t (.head _)).2
      have c' := (h' t' (.head _)).2
      have no : ∀ {a b u : List Char}, (∀ c ∈ a, (c == ',') = false) → a = b ++ ',' :: u → False := by
        intro a b u ha e
        have := ha ',' (e ▸ List.mem_append_right _ (.head _))
        exact absurd this (by decide)
      cases l with
      | nil =>
        cases l' with
        | nil => exact congrArg (fun x => [x]) e
        | cons u' l' => exact (no c e).elim
      | cons u l =>
        cases l' with
        | nil => exact (no c' e.symm).elim
        | cons u' l' =>
          obtain ⟨h1, -, h2⟩ := split_first c c' rfl rfl e
          have := ih (fun t ht => h t (.tail _ ht)) (fun t ht => h' t (.tail _ ht)) (List.cons.inj h2).2
          rw [h1, this]

/-- The texts of operands are told from the text of all. -/
theorem operands_inj (s : Style) {l l' : List Opd} (h : ∀ o ∈ l, (pat o).Ok) (h' : ∀ o ∈ l', (pat o).Ok)
    (e : operands s l = operands s l') : l.map (Opd.text s) = l'.map (Opd.text s) := by
  have e := congrArg String.toList e
  unfold operands at e
  rw [intercalate_flat, intercalate_flat] at e
  have hm : ∀ l : List Opd, (∀ o ∈ l, (pat o).Ok) →
      ∀ t ∈ (l.map (Opd.text s)).map String.toList, t ≠ [] ∧ ∀ c ∈ t, (c == ',') = false := by
    intro l hl t ht
    rw [List.map_map, List.mem_map] at ht
    obtain ⟨o, ho, rfl⟩ := ht
    exact ⟨text_ne s (hl o ho), fun c hc => (Bool.or_eq_false_iff.1 (text_comma s (hl o ho) c hc)).1⟩
  have := flat_inj (hm l h) (hm l' h') e
  exact (List.map_inj_right fun _ _ h => String.toList_inj.1 h).1 this

theorem map_pat (s : Style) {l l' : List Opd} (h : ∀ o ∈ l, (pat o).Ok) (h' : ∀ o ∈ l', (pat o).Ok)
    (e : l.map (Opd.text s) = l'.map (Opd.text s)) : l.map pat = l'.map pat := by
  induction l generalizing l' with
  | nil => cases l' with | nil => rfl | cons _ _ => cases e
  | cons o l ih =>
    cases l' with
    | nil => cases e
    | cons o' l' =>
      simp only [List.map_cons, List.cons.injEq] at e ⊢
      exact ⟨text_pat s (h o (.head _)) (h' o' (.head _)) e.1,
        ih (fun o ho => h o (.tail _ ho)) (fun o ho => h' o (.tail _ ho)) e.2⟩

theorem map_inj (s : Style) {l l' : List Opd} (h : ∀ o ∈ l, (pat o).Ok) (h' : ∀ o ∈ l', (pat o).Ok)
    (hk : l.map kind = l'.map kind) (e : l.map (Opd.text s) = l'.map (Opd.text s)) : l = l' := by
  induction l generalizing l' with
  | nil => cases l' with | nil => rfl | cons _ _ => cases e
  | cons o l ih =>
    cases l' with
    | nil => cases e
    | cons o' l' =>
      simp only [List.map_cons, List.cons.injEq] at e hk ⊢
      exact ⟨text_inj s (h o (.head _)) (h' o' (.head _)) hk.1 e.1,
        ih (fun o ho => h o (.tail _ ho)) (fun o ho => h' o (.tail _ ho)) hk.2 e.2⟩

end Z80.Synonym
