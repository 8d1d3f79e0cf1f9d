import Verif.Model.RalMemory
import Verif.Spec.RalMemory

/-!
# Lemmas on the banked memory of the example computer: how the boards make up the memory map
-/

namespace Z80.Ral
open Spec.Ral (Op Ans Banks Owned)

/-- What a use of the memory answers and leaves in the model; `none` for a panic and for undefined behaviour. -/
def Memory.step (m : Memory) : Op → Option (Ans × Memory)
  | .fetch pc => (m.readOpcode pc).map fun (v, m) => (.byte v, m)
  | .read a => (m.readMem a).map fun v => (.byte v, m)
  | .read16 a => (m.readMem16 a).map fun v => (.word v, m)
  | .peek a => (m.readDebug a).map fun v => (.byte v, m)
  | .write a v => some (.none, m.writeMem a v)
  | .ctrlRead => some (.byte m.readCtrl, m)
  | .ctrlWrite n => some (.none, m.writeCtrl n)
  | .attach b d => (m.attachExrom (b, d)).map fun (n, m) => (.count n, m)
  | .eject => let (l, m) := m.ejectExroms; some (.boxes (l.map Prod.fst), m)

/-- A sequence of uses. -/
def Memory.steps : List Op → Memory → Option (List Ans × Memory)
  | [], m => some ([], m)
  | o :: l, m => match m.step o with
    | none => none
    | some (x, m) => (steps l m).map fun (xs, m) => (x :: xs, m)

/-- The names of the boxes inside. -/
def Memory.held (m : Memory) : List Nat := m.exroms.map Prod.fst

/-- How the boards of the model make up the memory map. -/
structure Maps (m : Memory) (s : Banks) : Prop where
  rom : ∀ i : BitVec 13, s.rom i.toNat = m.rom i
  ram0 : ∀ i : BitVec 13, s.ram0 i.toNat = m.ram0 i
  size : s.size = m.ram1.length
  max : m.ram1.length ≤ 0xC000
  ram1 : ∀ i (h : i < m.ram1.length), s.ram1 i = m.ram1[i]
  sel : s.sel = m.exromSelect
  low : s.low = m.bank1IsRam
  exroms : s.exroms = m.exroms.map fun x => (x.1, fun i => x.2 (BitVec.ofNat 13 i))
  nodup : m.held.Nodup
  slots : m.exroms.length ≤ 256
  bank1 : m.bank1 = if m.bank1IsRam then some .ram0 else (m.exroms[m.exromSelect.toNat]?).map fun x => .exrom x.1

theorem find_box : ∀ (l : List (Nat × Block)) (n : Nat) (h : n < l.length), (l.map Prod.fst).Nodup →
    l.find? (fun x => x.1 == l[n].1) = some l[n]
  | [], _, h, _ => absurd h (Nat.not_lt_zero _)
  | x :: l, 0, _, _ => by simp
  | x :: l, n + 1, h, hn => by
    simp only [List.map_cons, List.nodup_cons] at hn
    have h' : n < l.length := Nat.lt_of_succ_lt_succ h
    have hx : ¬ x.1 = l[n].1 := fun e => hn.1 (e ▸ List.mem_map.2 ⟨l[n], List.getElem_mem h', rfl⟩)
    simp only [List.getElem_cons_succ, List.find?_cons, beq_eq_false_iff_ne.2 hx]
    exact find_box l n h' hn.2

/-- What the specification shows in bank 1. -/
def window (s : Banks) (i : Nat) : U8 :=
  if s.low then s.ram0 i
  else match s.exroms[s.sel.toNat]? with
    | some e => e.2 i
    | none => 0xFF#8

/-- The pointer, if there is one, points to the block that the specification shows. -/
theorem Maps.pointer {m : Memory} {s : Banks} (h : Maps m s) :
    (m.bank1 = none ∧ ∀ i, window s i = 0xFF#8) ∨
    ∃ p b, m.bank1 = some p ∧ m.deref p = some b ∧ ∀ i : BitVec 13, window s i.toNat = b i := by
  have hb := h.bank1
  unfold window
  rw [h.low, h.sel, h.exroms, List.getElem?_map]
  cases hl : m.bank1IsRam with
  | true =>
    rw [hl, if_pos rfl] at hb
    exact .inr ⟨_, _, hb, rfl, fun i => h.ram0 i⟩
  | false =>
    rw [hl, if_neg Bool.false_ne_true] at hb
    by_cases hs : m.exromSelect.toNat < m.exroms.length
    · rw [List.getElem?_eq_getElem hs] at hb ⊢
      refine .inr ⟨_, m.exroms[m.exromSelect.toNat].2, hb, ?_, fun i => ?_⟩
      · simp only [Memory.deref, find_box m.exroms _ hs h.nodup, Option.map_some]
      · simp
    · rw [List.getElem?_eq_none (Nat.le_of_not_lt hs)] at hb ⊢
      exact .inl ⟨hb, fun i => by simp⟩

theorem offset_toNat (a : U16) : (offset a).toNat = a.toNat % 0x2000 := by simp [offset]

theorem Maps.readBank1 {m : Memory} {s : Banks} (h : Maps m s) (a : U16) :
    m.readBank1 a = some (window s (a.toNat % 0x2000)) := by
  unfold Memory.readBank1
  rcases h.pointer with ⟨e, hw⟩ | ⟨p, b, e, hd, hw⟩
  · rw [e, hw]
  · rw [e]; simp only [hd, Option.map_some, ← hw, offset_toNat]

theorem Maps.readRom {m : Memory} {s : Banks} (h : Maps m s) (a : U16) :
    m.readRom a = s.rom (a.toNat % 0x2000) := by
  rw [Memory.readRom, ← h.rom, offset_toNat]

theorem Maps.readRam1 {m : Memory} {s : Banks} (h : Maps m s) (a : U16) (ha : 0x4000 ≤ a.toNat) :
    m.readRam1 a = s.peek a := by
  have e : (a - 0x4000#16).toNat = a.toNat - 0x4000 := by
    rw [BitVec.toNat_sub]; have := a.isLt; simp only [BitVec.reduceToNat]; omega
  have h0 : ¬ a.toNat < 0x2000 := by omega
  have h1 : ¬ a.toNat < 0x4000 := by omega
  simp only [Memory.readRam1, e, Banks.peek, if_neg h0, if_neg h1, h.size]
  split
  · rename_i hl
    rw [List.getElem?_eq_getElem hl, h.ram1 _ hl]; rfl
  · rename_i hl
    rw [List.getElem?_eq_none (Nat.le_of_not_lt hl)]; rfl

theorem peek_rom (s : Banks) (a : U16) (h : a.toNat < 0x2000) : s.peek a = s.rom (a.toNat % 0x2000) := by
  rw [Banks.peek, Nat.mod_eq_of_lt h]; simp only [if_pos h]

theorem peek_window (s : Banks) (a : U16) (h : 0x2000 ≤ a.toNat) (h' : a.toNat < 0x4000) :
    s.peek a = window s (a.toNat % 0x2000) := by
  have h0 : ¬ a.toNat < 0x2000 := by omega
  have e : a.toNat % 0x2000 = a.toNat - 0x2000 := by omega
  rw [Banks.peek, e, window]; simp only [if_neg h0, if_pos h']; rfl

/-- The three cases of the number of the bank. -/
theorem bank_cases (a : U16) : (a.toNat < 0x2000 ∧ bank a = 0) ∨ (0x2000 ≤ a.toNat ∧ a.toNat < 0x4000 ∧ bank a = 1) ∨
    (0x4000 ≤ a.toNat ∧ ∃ n, bank a = n + 2) := by
  unfold bank
  rcases Nat.lt_or_ge a.toNat 0x2000 with h | h
  · exact .inl ⟨h, by omega⟩
  · rcases Nat.lt_or_ge a.toNat 0x4000 with h' | h'
    · exact .inr (.inl ⟨h, h', by omega⟩)
    · exact .inr (.inr ⟨h', a.toNat / 0x2000 - 2, by omega⟩)

theorem Maps.readDebug {m : Memory} {s : Banks} (h : Maps m s) (a : U16) : m.readDebug a = some (s.peek a) := by
  unfold Memory.readDebug
  rcases bank_cases a with ⟨ha, e⟩ | ⟨ha, ha', e⟩ | ⟨ha, n, e⟩ <;> rw [e]
  · simp only [h.readRom, peek_rom s a ha]
  · simp only [h.readBank1, peek_window s a ha ha']
  · simp only [h.readRam1 a ha]

theorem succ_toNat (a : U16) (h : a ≠ 0xFFFF#16) : (a + 1).toNat = a.toNat + 1 := by
  have := a.isLt
  have : a.toNat ≠ 0xFFFF := fun e => h (BitVec.eq_of_toNat_eq e)
  rw [BitVec.toNat_add]; simp only [BitVec.reduceToNat, BitVec.ofNat_eq_ofNat]; omega

theorem ofNat13 (n : Nat) (h : n < 0x2000) : (BitVec.ofNat 13 n).toNat = n := by
  rw [BitVec.toNat_ofNat]; exact Nat.mod_eq_of_lt h

theorem Maps.readMem16 {m : Memory} {s : Banks} (h : Maps m s) (a : U16) :
    m.readMem16 a = some (s.peek (a + 1) ++ s.peek a) := by
  unfold Memory.readMem16
  rcases bank_cases a with ⟨ha, e⟩ | ⟨ha, ha', e⟩ | ⟨ha, n, e⟩ <;> rw [e] <;> simp only
  · have e1 : (a + 1).toNat = a.toNat + 1 := succ_toNat a (by rintro rfl; simp at ha)
    split
    · rename_i hn
      have : a.toNat ≠ 0x1FFF := fun e => hn (BitVec.eq_of_toNat_eq e)
      have hl : a.toNat + 1 < 0x2000 := by omega
      rw [peek_rom s a ha, peek_rom s (a + 1) (by omega), e1, Memory.unaligned16, if_pos hl, Nat.mod_eq_of_lt ha,
        Nat.mod_eq_of_lt hl, ← h.rom, ← h.rom, ofNat13 _ hl, ofNat13 _ ha]
    · rename_i hn
      have : a = 0x1FFF#16 := by simpa using hn
      subst this
      rw [h.readBank1, h.readRom, peek_rom s _ ha, peek_window s _ (by decide) (by decide)]
      rfl
  · have e1 : (a + 1).toNat = a.toNat + 1 := succ_toNat a (by rintro rfl; simp at ha')
    split
    · rename_i hn
      have : a.toNat ≠ 0x3FFF := fun e => hn (BitVec.eq_of_toNat_eq e)
      rw [peek_window s a ha ha', peek_window s (a + 1) (by omega) (by omega), e1]
      have hl : a.toNat % 0x2000 + 1 < 0x2000 := by omega
      have em : (a.toNat + 1) % 0x2000 = a.toNat % 0x2000 + 1 := by omega
      rcases h.pointer with ⟨e, hw⟩ | ⟨p, b, e, hd, hw⟩
      · rw [e, hw, hw]; rfl
      · rw [e]
        simp only [hd]
        rw [Memory.unaligned16, offset_toNat, if_pos hl, em, ← hw, ← hw, ofNat13 _ hl, ofNat13 _ (by omega)]
    · rename_i hn
      have : a = 0x3FFF#16 := by simpa using hn
      subst this
      rw [h.readBank1, h.readRam1 _ (by decide), peek_window s _ ha ha']
      rfl
  · have h0 : ¬ a.toNat < 0x2000 := by omega
    have h1 : ¬ a.toNat < 0x4000 := by omega
    have hr := h.readRam1 a ha
    split
    · rename_i hl
      have hm := h.max
      have hne : a ≠ 0xFFFF#16 := by rintro rfl; simp only [BitVec.reduceToNat] at hl; omega
      have e1 := succ_toNat a hne
      have hr' := h.readRam1 (a + 1) (by omega)
      have s0 : (a - 0x4000#16).toNat = a.toNat - 0x4000 := by
        rw [BitVec.toNat_sub]; have := a.isLt; simp only [BitVec.reduceToNat]; omega
      have s1 : (a + 1 - 0x4000#16).toNat = a.toNat - 0x4000 + 1 := by
        rw [BitVec.toNat_sub, e1]; have := a.isLt; simp only [BitVec.reduceToNat]; omega
      rw [← hr, ← hr', Memory.readRam1, Memory.readRam1, s0, s1, Memory.unalignedSlice16,
        List.getElem?_eq_getElem hl, List.getElem?_eq_getElem (Nat.lt_of_succ_lt hl)]
      rfl
    · rename_i hl
      rw [hr]
      congr 2
      split
      · rename_i he
        subst he
        exact (h.readRom 0#16).trans (peek_rom s 0#16 (by decide)).symm
      · rename_i hne
        have e1 := succ_toNat a hne
        have h0 : ¬ (a + 1).toNat < 0x2000 := by omega
        have h1 : ¬ (a + 1).toNat < 0x4000 := by omega
        have h2 : ¬ (a + 1).toNat - 0x4000 < m.ram1.length := by omega
        simp only [Banks.peek, if_neg h0, if_neg h1, h.size, if_neg h2]

theorem Maps.toExrom {m : Memory} {s : Banks} (h : Maps m s) : Maps m.exromToBank1 { s with low := false } where
  rom := h.rom
  ram0 := h.ram0
  size := h.size
  max := h.max
  ram1 := h.ram1
  sel := h.sel
  low := rfl
  exroms := h.exroms
  nodup := h.nodup
  slots := h.slots
  bank1 := rfl

theorem Maps.same {m : Memory} {s : Banks} {b : Bool} (h : Maps m s) (hb : m.bank1IsRam = b) :
    Maps m { s with low := b } := by
  have e : ({ s with low := b } : Banks) = s := by rw [← hb, ← h.low]
  rw [e]; exact h

theorem Maps.fetch {m : Memory} {s : Banks} (h : Maps m s) (pc : U16) :
    ∃ m', m.readOpcode pc = some (({ s with low := decide (pc.toNat < 0x2000) } : Banks).peek pc, m') ∧
      Maps m' { s with low := decide (pc.toNat < 0x2000) } ∧ m'.held = m.held := by
  unfold Memory.readOpcode
  have high (hpc : 0x2000 ≤ pc.toNat) : ∀ m', (if m.bank1IsRam then m.exromToBank1 else m) = m' →
      Maps m' { s with low := decide (pc.toNat < 0x2000) } ∧ m'.held = m.held := by
    rintro _ rfl
    rw [decide_eq_false (Nat.not_lt.2 hpc)]
    cases hl : m.bank1IsRam with
    | true => exact ⟨h.toExrom, rfl⟩
    | false => exact ⟨h.same hl, rfl⟩
  rcases bank_cases pc with ⟨ha, e⟩ | ⟨ha, ha', e⟩ | ⟨ha, n, e⟩
  · simp only [e, if_true, decide_eq_true ha]
    have hm : ∀ m', (if m.bank1IsRam then m else { m with bank1IsRam := true, bank1 := some .ram0 }) = m' →
        Maps m' { s with low := true } ∧ m'.held = m.held := by
      rintro _ rfl
      cases hl : m.bank1IsRam with
      | true => exact ⟨h.same hl, rfl⟩
      | false =>
        exact ⟨{ rom := h.rom, ram0 := h.ram0, size := h.size, max := h.max, ram1 := h.ram1, sel := h.sel, low := rfl,
                 exroms := h.exroms, nodup := h.nodup, slots := h.slots, bank1 := rfl }, rfl⟩
    obtain ⟨hm, hh⟩ := hm _ rfl
    exact ⟨_, by rw [hm.readRom pc, peek_rom _ pc ha], hm, hh⟩
  · simp only [e, if_true, Nat.one_ne_zero, if_false]
    obtain ⟨hm, hh⟩ := high ha _ rfl
    exact ⟨_, by rw [hm.readBank1, peek_window _ pc ha ha']; rfl, hm, hh⟩
  · have e0 : n + 2 ≠ 0 := by omega
    have e1 : n + 2 ≠ 1 := by omega
    obtain ⟨hm, hh⟩ := high (by omega) _ rfl
    simp only [e, e0, e1, if_false]
    exact ⟨_, by rw [hm.readRam1 pc ha], hm, hh⟩

theorem Maps.write {m : Memory} {s : Banks} (h : Maps m s) (a : U16) (v : U8) :
    ∃ s', s.step (.write a v) = some (.none, s') ∧ Maps (m.writeMem a v) s' ∧ (m.writeMem a v).held = m.held := by
  unfold Memory.writeMem
  refine ⟨_, rfl, ?_⟩
  rcases bank_cases a with ⟨ha, e⟩ | ⟨ha, ha', e⟩ | ⟨ha, n, e⟩ <;> rw [e] <;> simp only
  · simp only [if_pos ha]; exact ⟨h, trivial⟩
  · have h0 : ¬ a.toNat < 0x2000 := by omega
    simp only [if_neg h0, if_pos ha', h.low]
    by_cases hl : m.bank1IsRam = true
    · simp only [if_pos hl]
      refine ⟨{ rom := h.rom, ram0 := fun i => ?_, size := h.size, max := h.max, ram1 := h.ram1, sel := h.sel,
                low := rfl, exroms := h.exroms, nodup := h.nodup, slots := h.slots, bank1 := h.bank1 }, rfl⟩
      have ei : (i = offset a) ↔ i.toNat = a.toNat - 0x2000 := by
        rw [← BitVec.toNat_inj, offset_toNat]; omega
      simp only [ei, h.ram0]
    · simp only [if_neg hl]; exact ⟨h, trivial⟩
  · have h0 : ¬ a.toNat < 0x2000 := by omega
    have h1 : ¬ a.toNat < 0x4000 := by omega
    simp only [if_neg h0, if_neg h1]
    refine ⟨{ rom := h.rom, ram0 := h.ram0, size := by simpa using h.size, max := by simpa using h.max,
              ram1 := fun i hi => ?_, sel := h.sel,
              low := h.low, exroms := h.exroms, nodup := h.nodup, slots := h.slots, bank1 := h.bank1 }, rfl⟩
    simp only [List.length_set] at hi
    simp only [List.getElem_set, eq_comm (a := i), h.ram1 i hi]

theorem Maps.control {m : Memory} {s : Banks} (h : Maps m s) (n : U8) :
    Maps (m.writeCtrl n) { s with sel := n } ∧ (m.writeCtrl n).held = m.held := by
  unfold Memory.writeCtrl
  split
  · simp only
    split
    · rename_i hl
      exact ⟨{ rom := h.rom, ram0 := h.ram0, size := h.size, max := h.max, ram1 := h.ram1, sel := rfl, low := h.low,
               exroms := h.exroms, nodup := h.nodup, slots := h.slots,
               bank1 := by have := h.bank1; simp only [hl, if_true] at this ⊢; exact this }, rfl⟩
    · rename_i hl
      exact ⟨{ rom := h.rom, ram0 := h.ram0, size := h.size, max := h.max, ram1 := h.ram1, sel := rfl,
               low := by simpa [hl, Memory.exromToBank1] using h.low,
               exroms := h.exroms, nodup := h.nodup, slots := h.slots, bank1 := rfl }, rfl⟩
  · rename_i hn
    have hn : m.exromSelect = n := by simpa using hn
    have e : ({ s with sel := n } : Banks) = s := by rw [← hn, ← h.sel]
    rw [e]; exact ⟨h, rfl⟩

theorem Maps.attach {m : Memory} {s : Banks} (h : Maps m s) (b : Nat) (d : Block) (hb : b ∉ m.held) :
    (m.step (.attach b d) = none ∧ s.step (.attach b d) = none) ∨
    ∃ m' s' x, m.step (.attach b d) = some (x, m') ∧ s.step (.attach b d) = some (x, s') ∧ Maps m' s' ∧
      m'.held = m.held ++ [b] := by
  have hs := h.slots
  have hlen : s.exroms.length = m.exroms.length := by rw [h.exroms, List.length_map]
  have hnd : (List.map Prod.fst (m.exroms ++ [(b, d)])).Nodup := by
    have := h.nodup
    simp only [Memory.held] at this hb
    simp only [List.map_append, List.map_cons, List.map_nil]
    exact List.nodup_append.2 ⟨this, by simp, fun x hx y hy => by
      rintro rfl; rw [List.mem_singleton] at hy; subst hy; exact hb hx⟩
  simp only [Memory.step, Memory.attachExrom, Memory.freeExromSlots, if_pos hs, Banks.step, hlen]
  rcases Nat.lt_or_ge m.exroms.length 256 with hl | hl
  · obtain ⟨k, hk⟩ : ∃ k, 256 - m.exroms.length = k + 1 := ⟨255 - m.exroms.length, by omega⟩
    simp only [hk, if_pos hl, Option.map_some]
    by_cases hr : m.bank1IsRam = true
    · simp only [if_pos hr, List.length_append, List.length_cons, List.length_nil]
      refine .inr ⟨_, _, _, rfl, rfl, ?_, by simp [Memory.held]⟩
      · exact { rom := h.rom, ram0 := h.ram0, size := h.size, max := h.max, ram1 := h.ram1, sel := h.sel,
                low := h.low, exroms := by simp [h.exroms], nodup := hnd,
                slots := by simp only [List.length_append, List.length_cons, List.length_nil]; omega,
                bank1 := by have := h.bank1; simp only [hr, if_true] at this ⊢; exact this }
    · simp only [if_neg hr, List.length_append, List.length_cons, List.length_nil, Memory.exromToBank1]
      refine .inr ⟨_, _, _, rfl, rfl, ?_, by simp [Memory.held]⟩
      · exact { rom := h.rom, ram0 := h.ram0, size := h.size, max := h.max, ram1 := h.ram1, sel := h.sel,
                low := by simpa [Memory.exromToBank1, hr] using h.low,
                exroms := by simp [h.exroms], nodup := hnd,
                slots := by simp only [List.length_append, List.length_cons, List.length_nil]; omega,
                bank1 := rfl }
  · have hz : 256 - m.exroms.length = 0 := by omega
    simp only [hz, if_neg (Nat.not_lt.2 hl)]
    exact .inl ⟨rfl, trivial⟩

theorem Maps.eject {m : Memory} {s : Banks} (h : Maps m s) :
    Maps m.ejectExroms.2 { s with exroms := [] } ∧ m.ejectExroms.2.held = [] := by
  refine ⟨{ rom := h.rom, ram0 := h.ram0, size := h.size, max := h.max, ram1 := h.ram1, sel := h.sel, low := h.low,
            exroms := rfl, nodup := .nil, slots := Nat.zero_le _, bank1 := ?_ }, rfl⟩
  have hb := h.bank1
  cases hl : m.bank1IsRam <;> simp only [Memory.ejectExroms, hl, hb] <;> rfl

/-- It does not matter in which order the boxes inside are listed. -/
theorem owned_perm : ∀ (l : List Op) (p q : List Nat), (∀ x, x ∈ p ↔ x ∈ q) → Owned p l → Owned q l
  | [], _, _, _, _ => trivial
  | .attach b _ :: l, p, q, h, hl =>
    ⟨fun hb => hl.1 ((h b).2 hb), owned_perm l (b :: p) (b :: q) (fun x => by simp [h]) hl.2⟩
  | .eject :: _, _, _, _, hl => hl
  | .fetch _ :: l, p, q, h, hl => owned_perm l p q h hl
  | .read _ :: l, p, q, h, hl => owned_perm l p q h hl
  | .read16 _ :: l, p, q, h, hl => owned_perm l p q h hl
  | .peek _ :: l, p, q, h, hl => owned_perm l p q h hl
  | .write _ _ :: l, p, q, h, hl => owned_perm l p q h hl
  | .ctrlRead :: l, p, q, h, hl => owned_perm l p q h hl
  | .ctrlWrite _ :: l, p, q, h, hl => owned_perm l p q h hl

/-- One use of the memory: the same answer, a panic only without a slot, and the boards still make up the map. -/
theorem Maps.step {m : Memory} {s : Banks} (h : Maps m s) (o : Op) (l : List Op) (hl : Owned m.held (o :: l)) :
    (m.step o = none ∧ s.step o = none) ∨
    ∃ m' s' x, m.step o = some (x, m') ∧ s.step o = some (x, s') ∧ Maps m' s' ∧ Owned m'.held l := by
  cases o with
  | fetch pc =>
    obtain ⟨m', e, hm, hh⟩ := h.fetch pc
    exact .inr ⟨m', _, _, by simp only [Memory.step, e, Option.map_some], rfl, hm, hh ▸ hl⟩
  | read a => exact .inr ⟨m, s, _, by simp only [Memory.step, Memory.readMem, h.readDebug, Option.map_some], rfl, h, hl⟩
  | read16 a => exact .inr ⟨m, s, _, by simp only [Memory.step, h.readMem16, Option.map_some], rfl, h, hl⟩
  | peek a => exact .inr ⟨m, s, _, by simp only [Memory.step, h.readDebug, Option.map_some], rfl, h, hl⟩
  | write a v =>
    obtain ⟨s', e, hm, hh⟩ := h.write a v
    exact .inr ⟨_, s', _, rfl, e, hm, hh ▸ hl⟩
  | ctrlRead => exact .inr ⟨m, s, _, by simp only [Memory.step, Memory.readCtrl, ← h.sel], rfl, h, hl⟩
  | ctrlWrite n => exact .inr ⟨_, _, _, rfl, rfl, (h.control n).1, (h.control n).2 ▸ hl⟩
  | attach b d =>
    rcases h.attach b d hl.1 with hn | ⟨m', s', x, e, e', hm, hh⟩
    · exact .inl hn
    · exact .inr ⟨m', s', x, e, e', hm, by rw [hh]; exact owned_perm l _ _ (fun y => by simp [or_comm]) hl.2⟩
  | eject =>
    refine .inr ⟨m.ejectExroms.2, _, _, rfl, ?_, h.eject.1, by rw [h.eject.2]; exact hl⟩
    simp only [Banks.step, h.exroms, List.map_map]
    rfl

theorem Maps.steps : ∀ (l : List Op) {m : Memory} {s : Banks}, Maps m s → Owned m.held l →
    (m.steps l).map Prod.fst = (s.run l).map Prod.fst ∧
    ∀ xs m', m.steps l = some (xs, m') → ∃ s', s.run l = some (xs, s') ∧ Maps m' s'
  | [], m, s, h, _ => ⟨rfl, fun xs m' e => by
      obtain ⟨rfl, rfl⟩ := Prod.mk.inj (Option.some.inj e); exact ⟨s, rfl, h⟩⟩
  | o :: l, m, s, h, hl => by
    simp only [Memory.steps, Banks.run]
    rcases h.step o l hl with ⟨e, e'⟩ | ⟨m', s', x, e, e', hm, ho⟩
    · simp only [e, e']
      exact ⟨rfl, fun _ _ h => by cases h⟩
    · obtain ⟨h1, h2⟩ := Maps.steps l hm ho
      simp only [e, e', Option.map_map]
      constructor
      · have := congrArg (Option.map (x :: ·)) h1
        simpa [Option.map_map, Function.comp_def] using this
      · intro xs m1 hx
        cases hr : m'.steps l with
        | none => rw [hr] at hx; cases hx
        | some y =>
          obtain ⟨ys, m2⟩ := y
          rw [hr] at hx
          obtain ⟨rfl, rfl⟩ := Prod.mk.inj (Option.some.inj hx)
          obtain ⟨s2, e2, hm2⟩ := h2 ys m2 hr
          exact ⟨s2, by rw [e2]; rfl, hm2⟩

theorem maps_new (rom : List U8) (kilos : Nat) (m : Memory) (h : Memory.new rom kilos = some m) :
    Maps m (Banks.new rom kilos) ∧ m.held = [] := by
  unfold Memory.new makeRom at h
  by_cases hr : rom.length ≤ 0x2000
  · simp only [if_pos hr] at h
    split at h
    · rename_i hk
      cases h
      refine ⟨{ rom := fun _ => rfl, ram0 := fun _ => rfl, size := by simp [Banks.new], max := by simpa using hk,
                ram1 := fun i hi => by simp [Banks.new], sel := rfl, low := rfl, exroms := rfl,
                nodup := .nil, slots := Nat.zero_le _, bank1 := rfl }, rfl⟩
    · cases h
  · simp only [if_neg hr] at h; cases h

end Z80.Ral
