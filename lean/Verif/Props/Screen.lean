import Verif.Proofs.Screen

/-!
# C76: the debugger of the example computer shows what it says it shows
-/

namespace Z80.Ral.Screen
open Text Spec

/-- Two bytes as four digits. -/
def pair (x y : U8) : String := hex8 true x ++ hex8 true y

/-- The titles of the table and what they name. -/
def named (o : Obs) : List (String × String) :=
  [("SZYHXPNC", bits o.f), ("A F ", pair o.a o.f), ("B C ", pair o.b o.c), ("D E ", pair o.d o.e),
   ("H L ", pair o.h o.l), ("A'F'", pair o.a' o.f'), ("B'C'", pair o.b' o.c'), ("D'E'", pair o.d' o.e'),
   ("H'L'", pair o.h' o.l'), (" IX ", pair o.ixh o.ixl), (" IY ", pair o.iyh o.iyl), (" SP ", hex16 true o.sp),
   (" PC ", hex16 true o.pc), (" IR ", pair o.i o.r),
   ("IFM", bool01 o.iffs.1 ++ bool01 o.iffs.2 ++ toString o.im.toNum.toNat), ("MPTR", hex16 true o.memptr)]

/-- The titles of the table of two lines and what they name in the first line, -/
def first (o : Obs) : List (String × String) :=
  [("SZYHXPNC", bits o.f), ("A F ", pair o.a o.f), ("B C ", pair o.b o.c), ("D E ", pair o.d o.e),
   ("H L ", pair o.h o.l), ("IXIY", pair o.ixh o.ixl), ("SPPC", hex16 true o.sp), ("IRMP", pair o.i o.r)]

/-- and in the second: the alternative registers below the registers. -/
def second (o : Obs) : List (String × String) :=
  [("SZYHXPNC", "IF" ++ bool01 o.iffs.1 ++ bool01 o.iffs.2 ++ " IM" ++ toString o.im.toNum.toNat),
   ("A F ", pair o.a' o.f'), ("B C ", pair o.b' o.c'), ("D E ", pair o.d' o.e'),
   ("H L ", pair o.h' o.l'), ("IXIY", pair o.iyh o.iyl), ("SPPC", hex16 true o.pc), ("IRMP", hex16 true o.memptr)]

/-- Texts one after the other with a space in front of each. -/
def row : List String → String
  | [] => ""
  | t :: l => " " ++ t ++ row l

theorem occurs_row {k : Nat} {l : List String} {i : Nat} {t : String} (ht : l[i]? = some t)
    (hk : ((l.take i).map fun t => t.length + 1).sum + 1 = k) : Occurs (row l) t k := by
  induction l generalizing k i with
  | nil => simp at ht
  | cons a l ih =>
    cases i with
    | zero =>
      obtain rfl : a = t := by simpa using ht
      subst hk
      exact occurs_skip (k := 0) (String.append_assoc) rfl (occurs_zero rfl)
    | succ i =>
      have ht : l[i]? = some t := by simpa using ht
      have := ih ht rfl
      rw [List.take_succ_cons, List.map_cons, List.sum_cons] at hk
      have h2 := occurs_skip (p := " " ++ a) (line := row (a :: l)) rfl
        (n := a.length + 1) (by rw [String.length_append, Nat.add_comm]; rfl) this
      rwa [← hk, Nat.add_assoc]

/-- The same where the lengths are known. -/
theorem occurs_at {l : List String} {ls : List Nat} (hl : l.map String.length = ls) (i : Nat) {t : String}
    (ht : l[i]? = some t) {p line : String} {n : Nat} (hp : p.length = n) (he : line = p ++ row l) :
    Occurs line t (n + (((ls.take i).map (· + 1)).sum + 1)) := by
  subst hl
  refine occurs_skip he hp (occurs_row ht ?_)
  rw [← List.map_take, List.map_map]
  rfl

theorem row_length {l : List String} : (row l).length = ((l.map String.length).map (· + 1)).sum := by
  induction l with
  | nil => rfl
  | cons a l ih =>
    have h1 : (" " : String).length = 1 := rfl
    rw [row, String.length_append, String.length_append, ih, List.map_cons, List.map_cons, List.sum_cons, h1,
      Nat.add_comm 1]

theorem pair_length (x y : U8) : (pair x y).length = 4 := by simp [pair, hex8]

theorem hex16_length (w : U16) : (hex16 true w).length = 4 := by simp [hex16]

theorem bits_length (b : U8) : (bits b).length = 8 := by simp [bits]

theorem flags_length (x y : Bool) (m : IntMode) :
    (bool01 x ++ bool01 y ++ toString m.toNum.toNat).length = 3 := by
  cases x <;> cases y <;> cases m <;> rfl

theorem named_lengths (o : Obs) :
    ((named o).map Prod.snd).map String.length = [8, 4, 4, 4, 4, 4, 4, 4, 4, 4, 4, 4, 4, 4, 3, 4] := by
  simp only [named, List.map_cons, List.map_nil, pair_length, hex16_length, bits_length, flags_length]

theorem first_lengths (o : Obs) :
    ((first o).map Prod.snd).map String.length = [8, 4, 4, 4, 4, 4, 4, 4] := by
  simp only [first, List.map_cons, List.map_nil, pair_length, hex16_length, bits_length]

theorem second_lengths (o : Obs) :
    ((second o).map Prod.snd).map String.length = [8, 4, 4, 4, 4, 4, 4, 4] := by
  have : ∀ (x y : Bool) (m : IntMode),
      ("IF" ++ bool01 x ++ bool01 y ++ " IM" ++ toString m.toNum.toNat).length = 8 := by
    intro x y m
    cases x <;> cases y <;> cases m <;> rfl
  simp only [second, List.map_cons, List.map_nil, pair_length, hex16_length, this]

/-- What the columns contain. -/
theorem values {Q : Type} (c : Cpu Q) :
    bin c.getFlags = bits c.obs.f ∧
    word4 (c.getReg16 .AF) = pair c.obs.a c.obs.f ∧ word4 (c.getReg16 .BC) = pair c.obs.b c.obs.c ∧
    word4 (c.getReg16 .DE) = pair c.obs.d c.obs.e ∧ word4 (c.getReg16 .HL) = pair c.obs.h c.obs.l ∧
    word4 (c.getAltReg16 .AF) = pair c.obs.a' c.obs.f' ∧ word4 (c.getAltReg16 .BC) = pair c.obs.b' c.obs.c' ∧
    word4 (c.getAltReg16 .DE) = pair c.obs.d' c.obs.e' ∧ word4 (c.getAltReg16 .HL) = pair c.obs.h' c.obs.l' ∧
    word4 (c.getIndex16 .xdd) = pair c.obs.ixh c.obs.ixl ∧ word4 (c.getIndex16 .yfd) = pair c.obs.iyh c.obs.iyl ∧
    word4 c.getSp = hex16 true c.obs.sp ∧ word4 c.getPc = hex16 true c.obs.pc ∧
    word4 c.getIr = pair c.obs.i c.obs.r ∧ bit c.getIffs.1 = bool01 c.obs.iffs.1 ∧
    bit c.getIffs.2 = bool01 c.obs.iffs.2 ∧ dec c.getIm.toNum.toNat = toString c.obs.im.toNum.toNat ∧
    word4 c.getMemptr = hex16 true c.obs.memptr :=
  ⟨bin_bits _, word4_pair _ _, word4_pair _ _, word4_pair _ _, word4_pair _ _, word4_pair _ _, word4_pair _ _,
    word4_pair _ _, word4_pair _ _, word4_pair _ _, word4_pair _ _, word4_eq _, word4_eq _,
    (congrArg word4 (getIr_eq c)).trans (word4_pair _ _), bit_eq _, bit_eq _, rfl, word4_eq _⟩

theorem line_eq {Q : Type} {d : CpuDebug} (h : Faithful d) (c : Cpu Q) :
    formatDebug d c = some (told " " d.pc d.code ++ dump "" d.code ++ row ((named c.obs).map Prod.snd)) := by
  unfold formatDebug
  rw [formatInstr_eq h, Option.map_some]
  refine congrArg some ?_
  have e : formatCode "" d.code = dump "" d.code := formatCode_eq 0 d.code
  obtain ⟨v1, v2, v3, v4, v5, v6, v7, v8, v9, v10, v11, v12, v13, v14, v15, v16, v17, v18⟩ := values c
  rw [e, v1, v2, v3, v4, v5, v6, v7, v8, v9, v10, v11, v12, v13, v14, v15, v16, v17, v18]
  simp only [named, row, List.map_cons, List.map_nil, String.append_empty, String.append_assoc]

/-- The two lines; there is no space in front of the flags. -/
theorem lines_eq {Q : Type} {d : CpuDebug} (h : Faithful d) (c : Cpu Q) :
    ∃ l1 f l2, formatDebugAlt d c = some (l1 ++ "\n" ++ l2) ∧
      l1 = told " " d.pc d.code ++ f ∧ " " ++ f = row ((first c.obs).map Prod.snd) ∧
      l2 = hex16 true d.pc ++ " " ++ dump " " d.code ++ "       " ++ row ((second c.obs).map Prod.snd) := by
  have e : formatCode " " d.code = dump " " d.code := formatCode_eq 1 d.code
  have w : word4 d.pc = hex16 true d.pc := word4_eq _
  obtain ⟨v1, v2, v3, v4, v5, v6, v7, v8, v9, v10, v11, v12, v13, v14, v15, v16, v17, v18⟩ := values c
  refine ⟨_, bits c.obs.f ++ row (((first c.obs).map Prod.snd).drop 1), _, ?_, rfl, ?_, rfl⟩
  · unfold formatDebugAlt
    rw [formatInstr_eq h, Option.map_some]
    refine congrArg some ?_
    rw [e, w, v1, v2, v3, v4, v5, v6, v7, v8, v9, v10, v11, v12, v13, v14, v15, v16, v17, v18]
    have hs : ∀ t : String, "        IF" ++ t = "       " ++ (" " ++ ("IF" ++ t)) := by
      intro t
      rw [← String.append_assoc, ← String.append_assoc]
      rfl
    simp only [first, second, row, List.map_cons, List.map_nil, List.drop_succ_cons, List.drop_zero,
      String.append_empty, String.append_assoc, hs]
  · simp only [first, row, List.map_cons, List.map_nil, List.drop_succ_cons, List.drop_zero,
      String.append_assoc]

/-- C76: every record right about itself, as are all those delivered (C47), is shown together with any CPU
as a line as long as the header. It begins with the address, the name, the operands and the bytes of the
instruction, and below each title is the content of the registers with that name, as given by the getters. -/
theorem C76_line {Q : Type} {d : CpuDebug} (h : Faithful d) (c : Cpu Q) :
    ∃ s, debugger false d c = some s ∧ s.length = (header false).length ∧
      Occurs s (told " " d.pc d.code ++ dump "" d.code) 0 ∧
      ∀ p ∈ named c.obs, Under (header false) s p.1 p.2 := by
  refine ⟨_, line_eq h c, ?_, occurs_zero rfl, ?_⟩
  · have e : (dump "" d.code).length = 8 := dump_length 0 (short h)
    rw [String.length_append, String.length_append, told_length rfl, e, row_length, named_lengths]
    decide +kernel
  · have hp : (told " " d.pc d.code ++ dump "" d.code).length = 33 := by
      have e : (dump "" d.code).length = 8 := dump_length 0 (short h)
      rw [String.length_append, told_length rfl, e]
    have at_ := fun i t ht => occurs_at (named_lengths c.obs) i (t := t) ht hp rfl
    generalize told " " d.pc d.code ++ dump "" d.code ++ row ((named c.obs).map Prod.snd) = s at at_
    simp only [named, List.forall_mem_cons]
    refine ⟨under 34 ?_ (at_ 0 _ rfl), under 43 ?_ (at_ 1 _ rfl), under 48 ?_ (at_ 2 _ rfl),
      under 53 ?_ (at_ 3 _ rfl), under 58 ?_ (at_ 4 _ rfl), under 63 ?_ (at_ 5 _ rfl),
      under 68 ?_ (at_ 6 _ rfl), under 73 ?_ (at_ 7 _ rfl), under 78 ?_ (at_ 8 _ rfl),
      under 83 ?_ (at_ 9 _ rfl), under 88 ?_ (at_ 10 _ rfl), under 93 ?_ (at_ 11 _ rfl),
      under 98 ?_ (at_ 12 _ rfl), under 103 ?_ (at_ 13 _ rfl), under 108 ?_ (at_ 14 _ rfl),
      under 112 ?_ (at_ 15 _ rfl), nofun⟩ <;> decide +kernel

/-- C76: in two lines (`{:#}`) both are as long as the header. The first begins with the address, the name
and the operands of the instruction, the second with its address and bytes. Below the titles are the
registers in the first line, and the alternative ones and those with the second of the names in the second. -/
theorem C76_lines {Q : Type} {d : CpuDebug} (h : Faithful d) (c : Cpu Q) :
    ∃ s s', debugger true d c = some (s ++ "\n" ++ s') ∧ s.length = (header true).length ∧
      s'.length = (header true).length ∧ Occurs s (told " " d.pc d.code) 0 ∧
      Occurs s' (hex16 true d.pc ++ " " ++ dump " " d.code) 0 ∧
      (∀ p ∈ first c.obs, Under (header true) s p.1 p.2) ∧
      ∀ p ∈ second c.obs, Under (header true) s' p.1 p.2 := by
  obtain ⟨l1, f, l2, he, h1, hf, h2⟩ := lines_eq h c
  have hd : (hex16 true d.pc ++ " " ++ dump " " d.code ++ "       ").length = 24 := by
    have e : (dump " " d.code).length = 12 := dump_length 1 (short h)
    rw [String.length_append, String.length_append, String.length_append, hex16_length, e]
    rfl
  obtain ⟨x, hx⟩ : ∃ x, told " " d.pc d.code = x ++ " " := ⟨_, rfl⟩
  have hx' : x.length = 24 := by
    have := told_length (sep := " ") rfl d.pc d.code
    rw [hx, String.length_append] at this
    have h1 : (" " : String).length = 1 := rfl
    omega
  have h1' : l1 = x ++ row ((first c.obs).map Prod.snd) := by rw [h1, hx, String.append_assoc, hf]
  refine ⟨l1, l2, he, ?_, ?_, occurs_zero h1, occurs_zero (h2.trans String.append_assoc), ?_, ?_⟩
  · rw [h1', String.length_append, hx', row_length, first_lengths]
    decide +kernel
  · rw [h2, String.length_append, hd, row_length, second_lengths]
    decide +kernel
  · have at_ := fun i t ht => occurs_at (first_lengths c.obs) i (t := t) ht hx' h1'
    simp only [first, List.forall_mem_cons]
    refine ⟨under 25 ?_ (at_ 0 _ rfl), under 34 ?_ (at_ 1 _ rfl), under 39 ?_ (at_ 2 _ rfl),
      under 44 ?_ (at_ 3 _ rfl), under 49 ?_ (at_ 4 _ rfl), under 54 ?_ (at_ 5 _ rfl),
      under 59 ?_ (at_ 6 _ rfl), under 64 ?_ (at_ 7 _ rfl), nofun⟩ <;> decide +kernel
  · have at_ := fun i t ht => occurs_at (second_lengths c.obs) i (t := t) ht hd h2
    simp only [second, List.forall_mem_cons]
    refine ⟨under 25 ?_ (at_ 0 _ rfl), under 34 ?_ (at_ 1 _ rfl), under 39 ?_ (at_ 2 _ rfl),
      under 44 ?_ (at_ 3 _ rfl), under 49 ?_ (at_ 4 _ rfl), under 54 ?_ (at_ 5 _ rfl),
      under 59 ?_ (at_ 6 _ rfl), under 64 ?_ (at_ 7 _ rfl), nofun⟩ <;> decide +kernel

/-- C76: the preview is the same but for the sign after the address, and the bytes begin in the column
where the registers of the two lines do. -/
theorem C76_preview {d : CpuDebug} (h : Faithful d) :
    ∃ s, formatPreview d = some s ∧ s.length = 37 ∧ Occurs s (told ">" d.pc d.code) 0 ∧
      Occurs s (dump " " d.code) 25 := by
  have e : formatCode " " d.code = dump " " d.code := formatCode_eq 1 d.code
  have l : (dump " " d.code).length = 12 := dump_length 1 (short h)
  refine ⟨_, by rw [formatPreview, formatInstr_eq h, Option.map_some], ?_, occurs_zero rfl, ?_⟩
  · rw [e, String.length_append, told_length rfl, l]
  · rw [e]
    exact occurs_skip (k := 0) rfl (told_length rfl _ _) (occurs_zero (s := "") (String.append_empty).symm)

/-! ## Nothing is lost -/

theorem nibble_inj {m n : Nat} (hm : m < 16) (hn : n < 16) (h : nibble true m = nibble true n) : m = n := by
  have : ∀ m n : Fin 16, nibble true m = nibble true n → m = n := by decide +kernel
  exact congrArg Fin.val (this ⟨m, hm⟩ ⟨n, hn⟩ h)

theorem hex8_inj {x y : U8} (h : hex8 true x = hex8 true y) : x = y := by
  have h := congrArg String.toList h
  simp only [hex8, String.toList_ofList, List.cons.injEq, and_true] at h
  have hx := x.isLt
  have hy := y.isLt
  have h1 := nibble_inj (by omega) (by omega) h.1
  have h2 := nibble_inj (by omega) (by omega) h.2
  exact BitVec.eq_of_toNat_eq (by omega)

theorem hex16_inj {x y : U16} (h : hex16 true x = hex16 true y) : x = y := by
  have h := congrArg String.toList h
  simp only [hex16, String.toList_ofList, List.cons.injEq, and_true] at h
  have hx := x.isLt
  have hy := y.isLt
  have h1 := nibble_inj (by omega) (by omega) h.1
  have h2 := nibble_inj (by omega) (by omega) h.2.1
  have h3 := nibble_inj (by omega) (by omega) h.2.2.1
  have h4 := nibble_inj (by omega) (by omega) h.2.2.2
  exact BitVec.eq_of_toNat_eq (by omega)

/-- Strings with equal starts of the same length. -/
theorem append_inj {a a' b b' : String} (h : a ++ b = a' ++ b') (hl : a.length = a'.length) :
    a = a' ∧ b = b' := by
  have h := congrArg String.toList h
  rw [String.toList_append, String.toList_append] at h
  have := List.append_inj h (by rw [String.length_toList, String.length_toList, hl])
  exact ⟨String.toList_inj.mp this.1, String.toList_inj.mp this.2⟩

theorem hex8_length (b : U8) : (hex8 true b).length = 2 := by simp [hex8]

theorem pair_inj {x y x' y' : U8} (h : pair x y = pair x' y') : x = x' ∧ y = y' := by
  have := append_inj h (by rw [hex8_length, hex8_length])
  exact ⟨hex8_inj this.1, hex8_inj this.2⟩

theorem flags_inj {x y x' y' : Bool} {m m' : IntMode}
    (h : bool01 x ++ bool01 y ++ toString m.toNum.toNat = bool01 x' ++ bool01 y' ++ toString m'.toNum.toNat) :
    x = x' ∧ y = y' ∧ m = m' := by
  revert h
  cases x <;> cases y <;> cases m <;> cases x' <;> cases y' <;> cases m' <;> decide +kernel

theorem mode_inj {x y x' y' : Bool} {m m' : IntMode}
    (h : "IF" ++ bool01 x ++ bool01 y ++ " IM" ++ toString m.toNum.toNat =
      "IF" ++ bool01 x' ++ bool01 y' ++ " IM" ++ toString m'.toNum.toNat) :
    x = x' ∧ y = y' ∧ m = m' := by
  revert h
  cases x <;> cases y <;> cases m <;> cases x' <;> cases y' <;> cases m' <;> decide +kernel

theorem dump_inj (k : Nat) : ∀ {l l' : List U8} {n : Nat},
    String.join (l.map fun b => hex8 true b ++ spaces k) ++ spaces ((n - l.length) * (2 + k)) =
      String.join (l'.map fun b => hex8 true b ++ spaces k) ++ spaces ((n - l'.length) * (2 + k)) →
    l.length ≤ n → l'.length ≤ n → l = l' := by
  have hj : ∀ (b : U8) (l : List U8), String.join ((b :: l).map fun b => hex8 true b ++ spaces k) =
      hex8 true b ++ (spaces k ++ String.join (l.map fun b => hex8 true b ++ spaces k)) := by
    intro b l
    unfold String.join
    rw [List.map_cons, List.foldl_cons, foldl_append, String.empty_append]
    simp only [String.append_assoc]
  have hno : ∀ (b : U8) (t : String) (m : Nat), hex8 true b ++ t ≠ spaces m := by
    intro b t m he
    have he := congrArg String.toList he
    simp only [hex8, spaces, String.toList_append, String.toList_ofList] at he
    have : ∀ n : Fin 16, nibble true n ≠ ' ' := by decide +kernel
    have hm : nibble true (b.toNat / 16) ∈ List.replicate m ' ' := by rw [← he]; exact .head _
    have hb := b.isLt
    exact this ⟨b.toNat / 16, by omega⟩ (List.eq_of_mem_replicate hm)
  intro l
  induction l with
  | nil =>
    intro l' n h _ h'
    cases l' with
    | nil => rfl
    | cons b l' =>
      rw [hj, String.append_assoc] at h
      exact absurd ((String.empty_append).symm.trans h).symm (hno _ _ _)
  | cons b l ih =>
    intro l' n h h1 h2
    cases l' with
    | nil =>
      rw [hj, String.append_assoc] at h
      exact absurd (h.trans String.empty_append) (hno _ _ _)
    | cons b' l' =>
      rw [hj, hj] at h
      simp only [String.append_assoc] at h
      obtain ⟨hb, h⟩ := append_inj h (by rw [hex8_length, hex8_length])
      obtain ⟨-, h⟩ := append_inj h rfl
      obtain _ | n := n
      · simp at h1
      rw [List.length_cons, List.length_cons, Nat.add_sub_add_right, Nat.add_sub_add_right] at h
      rw [hex8_inj hb, ih h (Nat.le_of_succ_le_succ h1) (Nat.le_of_succ_le_succ h2)]

/-- What can be seen of the CPU: all but whether it is halted or between `EI` or a prefix and the
next instruction. -/
def visible (o : Obs) : Obs := { o with halt := false, afterEi := false, pfx := none }

theorem told_inj {sep : String} {a a' : U16} {l l' : List U8} (h : told sep a l = told sep a' l') : a = a' := by
  unfold told at h
  simp only [String.append_assoc] at h
  exact hex16_inj (append_inj h (by rw [hex16_length, hex16_length])).1

/-- C76: what is seen determines the address and the bytes of the instruction and all the registers: in one
line and in two, of two records and two CPUs, also of different flavours. -/
theorem C76_complete {Q Q' : Type} {alt : Bool} {d d' : CpuDebug} (h : Faithful d) (h' : Faithful d')
    {c : Cpu Q} {c' : Cpu Q'} (he : debugger alt d c = debugger alt d' c') :
    d.pc = d'.pc ∧ d.code = d'.code ∧ visible c.obs = visible c'.obs := by
  cases alt with
  | false =>
    obtain ⟨s, e, -, ht, hu⟩ := C76_line h c
    obtain ⟨s', e', -, ht', hu'⟩ := C76_line h' c'
    obtain rfl : s = s' := Option.some.inj (e.symm.trans (he.trans e'))
    have l1 : (dump "" d.code).length = 8 := dump_length 0 (short h)
    have l2 : (dump "" d'.code).length = 8 := dump_length 0 (short h')
    have k1 := told_length (sep := " ") rfl d.pc d.code
    have k2 := told_length (sep := " ") rfl d'.pc d'.code
    have hx := occurs_inj ht ht' (by rw [String.length_append, String.length_append, l1, l2, k1, k2])
    obtain ⟨hx, hy⟩ := append_inj hx (k1.trans k2.symm)
    refine ⟨told_inj hx, dump_inj 0 hy (short h) (short h'), ?_⟩
    simp only [named, List.forall_mem_cons] at hu hu'
    obtain ⟨-, u1, u2, u3, u4, u5, u6, u7, u8, u9, u10, u11, u12, u13, u14, u15, -⟩ := hu
    obtain ⟨-, v1, v2, v3, v4, v5, v6, v7, v8, v9, v10, v11, v12, v13, v14, v15, -⟩ := hu'
    have p : ∀ {t x y x' y'}, Under (header false) s t (pair x y) → Under (header false) s t (pair x' y') →
      x = x' ∧ y = y' := fun u v => pair_inj (under_inj u v (by rw [pair_length, pair_length]))
    have q : ∀ {t x x'}, Under (header false) s t (hex16 true x) → Under (header false) s t (hex16 true x') →
      x = x' := fun u v => hex16_inj (under_inj u v (by rw [hex16_length, hex16_length]))
    have m := flags_inj (under_inj u14 v14 (by rw [flags_length, flags_length]))
    unfold visible
    rw [Obs.mk.injEq]
    exact ⟨(p u1 v1).1, (p u1 v1).2, (p u2 v2).1, (p u2 v2).2, (p u3 v3).1, (p u3 v3).2, (p u4 v4).1,
      (p u4 v4).2, (p u9 v9).1, (p u9 v9).2, (p u10 v10).1, (p u10 v10).2, (p u5 v5).1, (p u5 v5).2,
      (p u6 v6).1, (p u6 v6).2, (p u7 v7).1, (p u7 v7).2, (p u8 v8).1, (p u8 v8).2, q u12 v12, q u11 v11,
      q u15 v15, (p u13 v13).1, (p u13 v13).2, Prod.ext m.1 m.2.1, m.2.2, rfl, rfl, rfl⟩
  | true =>
    obtain ⟨s, t, e, n1, n2, hs, ht, hu, hw⟩ := C76_lines h c
    obtain ⟨s', t', e', n1', n2', hs', ht', hu', hw'⟩ := C76_lines h' c'
    have e1 := Option.some.inj (e.symm.trans (he.trans e'))
    rw [String.append_assoc, String.append_assoc] at e1
    have e2 := append_inj e1 (n1.trans n1'.symm)
    obtain rfl := e2.1
    obtain rfl := (append_inj e2.2 rfl).2
    have l1 : (dump " " d.code).length = 12 := dump_length 1 (short h)
    have l2 : (dump " " d'.code).length = 12 := dump_length 1 (short h')
    have k1 := told_length (sep := " ") rfl d.pc d.code
    have k2 := told_length (sep := " ") rfl d'.pc d'.code
    have hx := occurs_inj hs hs' (k1.trans k2.symm)
    have hy := occurs_inj ht ht' (by simp only [String.length_append, l1, l2, hex16_length])
    obtain ⟨-, hy⟩ := append_inj hy (by simp only [String.length_append, hex16_length])
    refine ⟨told_inj hx, dump_inj 1 hy (short h) (short h'), ?_⟩
    simp only [first, second, List.forall_mem_cons] at hu hu' hw hw'
    obtain ⟨-, u1, u2, u3, u4, u9, u11, u13, -⟩ := hu
    obtain ⟨-, v1, v2, v3, v4, v9, v11, v13, -⟩ := hu'
    obtain ⟨u14, u5, u6, u7, u8, u10, u12, u15, -⟩ := hw
    obtain ⟨v14, v5, v6, v7, v8, v10, v12, v15, -⟩ := hw'
    have p : ∀ {z t x y x' y'}, Under (header true) z t (pair x y) → Under (header true) z t (pair x' y') →
      x = x' ∧ y = y' := fun u v => pair_inj (under_inj u v (by rw [pair_length, pair_length]))
    have q : ∀ {z t x x'}, Under (header true) z t (hex16 true x) → Under (header true) z t (hex16 true x') →
      x = x' := fun u v => hex16_inj (under_inj u v (by rw [hex16_length, hex16_length]))
    have w : ∀ (x y : Bool) (m : IntMode),
        ("IF" ++ bool01 x ++ bool01 y ++ " IM" ++ toString m.toNum.toNat).length = 8 := by
      intro x y m
      cases x <;> cases y <;> cases m <;> rfl
    have m := mode_inj (under_inj u14 v14 (by rw [w, w]))
    unfold visible
    rw [Obs.mk.injEq]
    exact ⟨(p u1 v1).1, (p u1 v1).2, (p u2 v2).1, (p u2 v2).2, (p u3 v3).1, (p u3 v3).2, (p u4 v4).1,
      (p u4 v4).2, (p u9 v9).1, (p u9 v9).2, (p u10 v10).1, (p u10 v10).2, (p u5 v5).1, (p u5 v5).2,
      (p u6 v6).1, (p u6 v6).2, (p u7 v7).1, (p u7 v7).2, (p u8 v8).1, (p u8 v8).2, q u12 v12, q u11 v11,
      q u15 v15, (p u13 v13).1, (p u13 v13).2, Prod.ext m.1 m.2.1, m.2.2, rfl, rfl, rfl⟩

/-- C76: so whatever the host does, what `execute_next` tells the debugger can be shown, with the CPU then
or any other. -/
theorem C76_execute_next {Q Q' : Type} {σ : Sig} [Flavour Q] {deb : Bool} {c : Cpu Q} {t : List (Ev σ)}
    {r : Res σ × Cpu Q} (h : (executeNext deb c).Runs t r) (alt : Bool) (c' : Cpu Q') :
    ∀ d ∈ records t, (debugger alt d c').isSome ∧ (formatPreview d).isSome := by
  intro d hd
  have hf := C47_execute_next h d hd
  obtain ⟨_, e, -⟩ := C76_preview hf
  refine ⟨?_, e ▸ rfl⟩
  cases alt with
  | false => obtain ⟨_, e, -⟩ := C76_line hf c'; exact e ▸ rfl
  | true => obtain ⟨_, _, e, -⟩ := C76_lines hf c'; exact e ▸ rfl

/-- The longest instruction, as shown in the comment of the source, after executing it from a reset state. -/
def screen_case : List String :=
  let p := executeNext true { (Cpu.new : Cpu NMOS) with pfx := some .xdd, pc := 1#16 }
  let t := p.trace demo (0, Z80.program [0xDD, 0xCB, 0x00, 0xDF], ())
  (records t).filterMap fun d => debugger false d (Cpu.new : Cpu NMOS)

example : screen_case = ["0000 SET  3, (IX+00h), A DDCB00DF 11111111 FFFF 0000 0000 0000 FFFF 0000 0000 0000" ++
    " 0000 0000 FFFF 0000 0000 000 0000"] := by decide +kernel

end Z80.Ral.Screen
