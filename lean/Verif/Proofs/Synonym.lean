import Verif.Proofs.SynonymTable
import Verif.Proofs.Text

/-!
# Instructions are told by mnemonics and operands
-/

set_option linter.constructorNameAsVariable false

namespace Z80.Synonym
open Spec

/-- The operand bytes, from mnemonic and operands at `a`. -/
def back (a : U16) (m : String × List Opd) : List U8 :=
  m.2.flatMap fun
    | .idx _ d => [d]
    | .byte n => if m.1 = "RST" then [] else [n]
    | .word nn =>
      if m.1 = "JR" ∨ m.1 = "DJNZ" then [(nn - a - 2#16).setWidth 8]
      else [nn.setWidth 8, (nn >>> 8).setWidth 8]
    | .mem nn => [nn.setWidth 8, (nn >>> 8).setWidth 8]
    | .port n => [n]
    | _ => []

/-- The second opcode byte. -/
def second (x : Ix) (k : I0) (r : List U8) : U8 :=
  match k with
  | .cb => if x = .hl then r.getD 0 0 else r.getD 1 0
  | .ed => r.getD 0 0
  | _ => 0

/-- What follows the opcode. -/
def rest (x : Ix) (k : I0) (b : U8) (w : List U8) : List U8 :=
  match k with
  | .cb => if x = .hl then [b] else w ++ [b]
  | .ed => b :: w
  | _ => w

theorem word_low (h l : U8) : (h ++ l : U16).setWidth 8 = l := by
  apply BitVec.eq_of_getLsbD_eq
  intro i hi
  rw [BitVec.getLsbD_setWidth, show (h ++ l : U16).getLsbD i = _ from BitVec.getLsbD_append]
  simp [hi]

theorem word_high (h l : U8) : ((h ++ l : U16) >>> 8).setWidth 8 = h := by
  apply BitVec.eq_of_getLsbD_eq
  intro i hi
  rw [BitVec.getLsbD_setWidth, BitVec.getLsbD_ushiftRight,
    show (h ++ l : U16).getLsbD (8 + i) = _ from BitVec.getLsbD_append]
  simp [hi]

theorem rel_back (a : U16) (e : U8) : (target a e - a - 2#16).setWidth 8 = e := by
  have h : ∀ e : U8, (e.signExtend 16).setWidth 8 = e := by decide +kernel
  have : target a e - a - 2#16 = e.signExtend 16 := by
    unfold target
    generalize e.signExtend 16 = s
    apply BitVec.eq_of_toNat_eq
    simp only [BitVec.toNat_sub, BitVec.toNat_add, BitVec.toNat_ofNat]
    have : (2 : U16).toNat = 2 := rfl
    have := a.isLt
    have := s.isLt
    omega
  rw [this, h]

theorem list0 {r : List U8} (h : r.length = 0) : r = [] := List.eq_nil_of_length_eq_zero h
theorem list1 {r : List U8} (h : r.length = 1) : r = [r.getD 0 0] := by
  match r, h with | [_], _ => rfl
theorem list2 {r : List U8} (h : r.length = 2) : r = [r.getD 0 0, r.getD 1 0] := by
  match r, h with | [_, _], _ => rfl
theorem list3 {r : List U8} (h : r.length = 3) : r = [r.getD 0 0, r.getD 1 0, r.getD 2 0] := by
  match r, h with | [_, _, _], _ => rfl

/-- The number of bytes after the opcode. -/
def more (x : Ix) (k : I0) (r : List U8) : Nat :=
  k.operands + (if k = .ed then (decodeEd (r.getD 0 0)).operands else 0) +
    (if x ≠ .hl ∧ k.memory = true then 1 else 0)

theorem back_cb {x : Ix} (hx : x ≠ .hl) (a : U16) (d : U8) (k : ICb) : back a (k.asm x d) = [d] := by
  rcases k with ⟨k, r⟩ | ⟨n, r⟩ | ⟨n, r⟩ | ⟨n, r⟩ <;> cases r <;>
    simp [ICb.asm, ICb.asm.into, back, memOpd, hx]

theorem back_ed (a : U16) (lo hi : U8) (k : IEd) :
    back a (k.asm (hi ++ lo)) = if k.operands = 2 then [lo, hi] else [] := by
  cases k <;> try (simp [IEd.asm, back, IEd.operands, word_low, word_high]; done)

theorem ed_operands (k : IEd) : k.operands = 2 ∨ k.operands = 0 := by cases k <;> simp [IEd.operands]

theorem rest_back {x : Ix} {a a' : U16} {k : I0} {op : U8} {r : List U8} (hp : k ≠ .dd ∧ k ≠ .fd)
    (hm : k ≠ .ldRR .m .m)
    (hx : x ≠ .hl → k.named = true) (ha : x = .hl → a = a') (hl : r.length = more x k r) :
    r = rest x k (second x k r) (back a' (k.asm x a fun i => (op :: r).getD i 0)) := by
  have hrel : ∀ k : I0, k.named = false → (x ≠ .hl → k.named = true) → a = a' := by
    intro k hk hx
    by_cases h : x = .hl
    · exact ha h
    · rw [hx h] at hk; cases hk
  cases k
  case cb =>
    by_cases h : x = .hl
    · subst h
      have := list1 (r := r) (by simpa [more, I0.operands, I0.memory] using hl)
      simpa [rest, second] using this
    · have := list2 (r := r) (by simpa [more, I0.operands, I0.memory, h] using hl)
      simp only [rest, h, if_false, I0.asm, back_cb h, second]
      exact this
  case ed =>
    have hop := ed_operands (decodeEd (r.getD 0 0))
    have hl : r.length = 1 + (decodeEd (r.getD 0 0)).operands := by
      simpa [more, I0.operands, I0.memory] using hl
    simp only [rest, second, I0.asm]
    rcases hop with h | h
    · have := list3 (r := r) (by omega)
      have hb : (op :: r).getD 1 0 = r.getD 0 0 := rfl
      rw [hb, back_ed, if_pos h]
      exact this
    · have := list1 (r := r) (by omega)
      have hb : (op :: r).getD 1 0 = r.getD 0 0 := rfl
      rw [hb, back_ed, if_neg (by omega)]
      exact this
  case dd => exact absurd rfl hp.1
  case fd => exact absurd rfl hp.2
  case djnz =>
    obtain rfl := hrel _ rfl hx
    have := list1 (r := r) (by simpa [more, I0.operands, I0.memory] using hl)
    simp [rest, back, I0.asm, rel_back]
    exact this
  case jr =>
    obtain rfl := hrel _ rfl hx
    have := list1 (r := r) (by simpa [more, I0.operands, I0.memory] using hl)
    simp [rest, back, I0.asm, rel_back]
    exact this
  case jrCc =>
    obtain rfl := hrel _ rfl hx
    have := list1 (r := r) (by simpa [more, I0.operands, I0.memory] using hl)
    simp [rest, back, I0.asm, rel_back]
    exact this
  case ldRpNn | ldNnHl | ldHlNn | ldNnA | ldANn | jp | jpCc | call | callCc =>
    have := list2 (r := r) (by simpa [more, I0.operands, I0.memory] using hl)
    simp [rest, back, I0.asm, word_low, word_high]
    exact this
  case outNA | inAN =>
    have := list1 (r := r) (by simpa [more, I0.operands, I0.memory] using hl)
    simp [rest, back, I0.asm]
    exact this
  case aluN k =>
    have := list1 (r := r) (by simpa [more, I0.operands, I0.memory] using hl)
    cases k <;> simp [rest, back, I0.asm, Alu.opds, Alu.txt] <;> exact this
  case ldRN q =>
    by_cases h : q = .m
    · subst h
      by_cases h : x = .hl
      · subst h
        have := list1 (r := r) (by simpa [more, I0.operands, I0.memory] using hl)
        simp [rest, back, I0.asm, R.opd, memOpd]
        exact this
      · have := list2 (r := r) (by simpa [more, I0.operands, I0.memory, h] using hl)
        simp [rest, back, I0.asm, R.opd, memOpd, h]
        exact this
    · have := list1 (r := r) (by simpa [more, I0.operands, I0.memory, h] using hl)
      simp [rest, back, I0.asm, R.opd, h]
      exact this
  case incR q | decR q =>
    by_cases h : q = .m
    · subst h
      by_cases h : x = .hl
      · subst h
        have := list0 (r := r) (by simpa [more, I0.operands, I0.memory] using hl)
        simp [rest, back, I0.asm, R.opd, memOpd]
        exact this
      · have := list1 (r := r) (by simpa [more, I0.operands, I0.memory, h] using hl)
        simp [rest, back, I0.asm, R.opd, memOpd, h]
        exact this
    · have := list0 (r := r) (by simpa [more, I0.operands, I0.memory, h] using hl)
      simp [rest, back, I0.asm, R.opd, h]
      exact this
  case aluR k q =>
    by_cases h : q = .m
    · subst h
      by_cases h : x = .hl
      · subst h
        have := list0 (r := r) (by simpa [more, I0.operands, I0.memory] using hl)
        cases k <;> simp [rest, back, I0.asm, R.opd, memOpd, Alu.opds] <;> exact this
      · have := list1 (r := r) (by simpa [more, I0.operands, I0.memory, h] using hl)
        cases k <;> simp [rest, back, I0.asm, R.opd, memOpd, h, Alu.opds] <;> exact this
    · have := list0 (r := r) (by simpa [more, I0.operands, I0.memory, h] using hl)
      cases k <;> simp [rest, back, I0.asm, R.opd, h, Alu.opds] <;> exact this
  case ldRR d q =>
    by_cases hd : d = .m <;> by_cases hq : q = .m
    · subst hd hq; exact absurd rfl hm
    · subst hd
      by_cases h : x = .hl
      · subst h
        have := list0 (r := r) (by simpa [more, I0.operands, I0.memory] using hl)
        simp [rest, back, I0.asm, memOpd, hq]
        exact this
      · have := list1 (r := r) (by simpa [more, I0.operands, I0.memory, h] using hl)
        simp [rest, back, I0.asm, memOpd, hq, h]
        exact this
    · subst hq
      by_cases h : x = .hl
      · subst h
        have := list0 (r := r) (by simpa [more, I0.operands, I0.memory] using hl)
        simp [rest, back, I0.asm, memOpd, hd]
        exact this
      · have := list1 (r := r) (by simpa [more, I0.operands, I0.memory, h] using hl)
        simp [rest, back, I0.asm, memOpd, hd, h]
        exact this
    · have := list0 (r := r) (by simpa [more, I0.operands, I0.memory, hd, hq] using hl)
      simp [rest, back, I0.asm, R.opd, hd, hq]
      exact this
  all_goals
    have := list0 (r := r) (by simpa [more, I0.operands, I0.memory] using hl)
    simpa [rest, back, I0.asm] using this

/-! ## Mnemonics and patterns do not depend on operands -/

theorem view_cb (x : Ix) (d : U8) (k : ICb) : view (k.asm x d) = view (k.asm x 0) := by
  rcases k with ⟨k, r⟩ | ⟨n, r⟩ | ⟨n, r⟩ | ⟨n, r⟩ <;> cases r <;> cases x <;> rfl

theorem view_ed (nn : U16) (k : IEd) : view (k.asm nn) = view (k.asm 0) := by
  cases k <;> rfl

theorem view_asm (x : Ix) (a : U16) (f : Nat → U8) {k : I0} (hc : k ≠ .cb) (he : k ≠ .ed) :
    view (k.asm x a f) = view (k.asm x 0 fun _ => 0) := by
  cases k
  case cb => exact absurd rfl hc
  case ed => exact absurd rfl he
  case ldRN r | incR r | decR r => cases r <;> cases x <;> rfl
  case aluR k r => cases k <;> cases r <;> cases x <;> rfl
  case ldRR d r => cases d <;> cases r <;> cases x <;> rfl
  case aluN k => cases k <;> rfl
  all_goals rfl

/-- The entry of an instruction. -/
def entry (x : Ix) (op : U8) (r : List U8) : Entry := ⟨x, op, second x (decode op) r⟩

theorem view_entry (x : Ix) (a : U16) (op : U8) (r : List U8) :
    view ((decode op).asm x a fun i => (op :: r).getD i 0) = view (entry x op r).asm := by
  unfold Entry.asm entry
  show _ = view (match decode op with
    | .cb => (decodeCb (second x (decode op) r)).asm x 0
    | .ed => (decodeEd (second x (decode op) r)).asm 0
    | k => k.asm x 0 fun _ => 0)
  generalize decode op = k
  by_cases hc : k = .cb
  · subst hc
    simp only [second, I0.asm]
    split
    · rfl
    · exact view_cb x _ _
  · by_cases he : k = .ed
    · subst he
      exact view_ed _ _
    · rw [view_asm x a _ hc he]
      cases k <;> first | rfl | exact absurd rfl hc | exact absurd rfl he

/-- The prefix. -/
def pre : Ix → List U8 | .hl => [] | .ix => [0xDD] | .iy => [0xFD]

/-- An instruction taken apart. -/
structure Parts (l : List U8) (x : Ix) (op : U8) (r : List U8) : Prop where
  eq : l = pre x ++ op :: r
  pfx : isPrefix op = false
  idx : x ≠ .hl → indexed op = true
  len : r.length = more x (decode op) r
  line : ∀ a, line a l = (decode op).asm x (a + if x = .hl then 0 else 1) fun i => (op :: r).getD i 0

theorem length_more (x : Ix) (op : U8) (r : List U8) :
    length (x != .hl) op (r.headD 0) = 1 + more x (decode op) r := by
  have : r.headD 0 = r.getD 0 0 := by cases r <;> rfl
  unfold length more
  rw [this]
  cases (decode op).memory <;> cases x <;> simp [Nat.add_assoc]

theorem indexed_plain : ∀ op : U8, indexed op = true → isPrefix op = false := by decide +kernel

theorem parts {l : List U8} (h : Complete l) : ∃ x op r, Parts l x op r := by
  obtain ⟨hu, hs⟩ := h
  have plain : ∀ op r, l = op :: r → isPrefix op = false → size l = length false op (r.headD 0) →
      ∃ x op r, Parts l x op r := by
    rintro op r rfl hp hz
    refine ⟨.hl, op, r, rfl, hp, fun h => absurd rfl h, ?_, fun a => ?_⟩
    · have := length_more .hl op r
      rw [hs, List.length_cons] at hz
      have e : length (Ix.hl != .hl) op (r.headD 0) = length false op (r.headD 0) := rfl
      omega
    · have hd : op ≠ 0xDD ∧ op ≠ 0xFD := by
        constructor <;> (rintro rfl; exact absurd hp (by decide))
      have h1 : (op :: r).head? ≠ some 0xDD := fun h => hd.1 (Option.some.inj h)
      have h2 : (op :: r).head? ≠ some 0xFD := fun h => hd.2 (Option.some.inj h)
      rw [Spec.line, if_neg h1, if_neg h2, if_pos rfl, show a + 0 = a from BitVec.add_zero a]
      rfl
  match l, plain with
  | [], _ => cases hs
  | [b], plain =>
    by_cases hb : isPrefix b = true
    · simp [size, hb] at hs
    · exact plain b [] rfl (by simpa using hb) (by simp [size, hb])
  | p :: b :: l, plain =>
    by_cases hp : isPrefix p = true
    · simp only [useless, hp, Bool.true_and, Bool.not_eq_false'] at hu
      simp only [size, hp, if_true, List.length_cons] at hs
      have fin : ∀ x, x ≠ .hl → l.length = more x (decode b) l := by
        intro x hx
        have := length_more x b l
        have e : (x != .hl) = true := by simpa using hx
        rw [e] at this
        omega
      have hpp : p = 0xDD ∨ p = 0xFD := by simpa [isPrefix] using hp
      rcases hpp with rfl | rfl
      · exact ⟨.ix, b, l, rfl, indexed_plain b hu, fun _ => hu, fin _ (by decide), fun a => rfl⟩
      · exact ⟨.iy, b, l, rfl, indexed_plain b hu, fun _ => hu, fin _ (by decide), fun a => rfl⟩
    · exact plain p (b :: l) rfl (by simpa using hp) (by simp [size, hp])

theorem decode_facts : ∀ op : U8, (isPrefix op = false → decode op ≠ .dd ∧ decode op ≠ .fd) ∧
    decode op ≠ .ldRR .m .m ∧ (decode op = .ed ↔ op = 0xED) ∧ (decode op = .cb ↔ op = 0xCB) := by
  decide +kernel

theorem mem_bytes8 (b : U8) : b ∈ bytes8 :=
  List.mem_map.2 ⟨b.toNat, List.mem_range.2 b.isLt, by simp⟩

theorem Parts.entry_mem {l : List U8} {x : Ix} {op : U8} {r : List U8} (h : Parts l x op r) :
    entry x op r ∈ entries := by
  unfold entries
  refine List.mem_flatMap.2 ⟨x, by cases x <;> decide, List.mem_flatMap.2 ⟨op, mem_bytes8 op, ?_⟩⟩
  have h1 : (isPrefix op || (x != .hl && !indexed op)) = false := by
    rw [h.pfx]
    by_cases hx : x = .hl
    · subst hx; rfl
    · rw [h.idx hx]; simp
  rw [h1]
  simp only [Bool.false_eq_true, if_false]
  obtain ⟨-, -, he, hc⟩ := decode_facts op
  split
  · exact List.mem_map.2 ⟨_, mem_bytes8 _, rfl⟩
  · next hn =>
    have : second x (decode op) r = 0 := by
      have h1 : decode op ≠ .cb := fun h => hn (.inl (hc.1 h))
      have h2 : decode op ≠ .ed := fun h => hn (.inr (he.1 h))
      revert h1 h2
      generalize decode op = k
      intro h1 h2
      cases k <;> first | rfl | exact absurd rfl h1 | exact absurd rfl h2
    rw [entry, this]
    exact List.mem_singleton.2 rfl

/-- An instruction from its entry and the operand bytes. -/
def build (e : Entry) (w : List U8) : List U8 := pre e.x ++ e.op :: rest e.x (decode e.op) e.b w

theorem Parts.build {l : List U8} {x : Ix} {op : U8} {r : List U8} (h : Parts l x op r) (a : U16) :
    l = build (entry x op r) (back a (Spec.line a l)) := by
  obtain ⟨hf, hm, -, -⟩ := decode_facts op
  have := rest_back (a := a + if x = .hl then 0 else 1) (a' := a) (op := op) (hf h.pfx) hm h.idx
    (fun hx => by rw [if_pos hx]; exact BitVec.add_zero a) h.len
  rw [← h.line a] at this
  rw [Synonym.build, entry, ← this]
  exact h.eq

/-! ## The documented encoding -/

theorem build_ed (b : U8) (w : List U8) : build ⟨.hl, 0xED, b⟩ w = 0xED :: b :: w := by
  have hd : decode (0xED : U8) = .ed := by decide
  rw [build, hd]
  rfl

theorem build_ld (w : List U8) : build ⟨.hl, 0x22, 0⟩ w = 0x22 :: w ∧ build ⟨.hl, 0x2A, 0⟩ w = 0x2A :: w := by
  have hd : decode (0x22 : U8) = .ldNnHl ∧ decode (0x2A : U8) = .ldHlNn := by decide
  constructor
  · rw [build, hd.1]; rfl
  · rw [build, hd.2]; rfl

theorem Parts.canon {l : List U8} {x : Ix} {op : U8} {r : List U8} (h : Parts l x op r) (a : U16) :
    Spec.canon l = Synonym.build (entry x op r).canon (back a (Spec.line a l)) := by
  obtain ⟨hf, hm, hed, hcb⟩ := decode_facts op
  have hb := h.build a
  have hl := h.len
  by_cases he : op = 0xED
  · subst he
    have hx : x = .hl := by
      by_cases hx : x = .hl
      · exact hx
      · exact absurd (h.idx hx) (by decide)
    subst hx
    generalize back a (Spec.line a l) = w at hb ⊢
    have hd : decode (0xED : U8) = .ed := by decide
    have e1 : (entry .hl 0xED r) = ⟨.hl, 0xED, r.getD 0 0⟩ := by rw [entry, hd]; rfl
    have hl : r.length = 1 + (decodeEd (r.getD 0 0)).operands := by
      rw [hd] at hl
      simpa [more, I0.operands, I0.memory] using hl
    rw [e1] at hb ⊢
    rw [build_ed] at hb
    have hr : r = r.getD 0 0 :: w := List.cons.inj (h.eq.symm.trans hb) |>.2
    generalize r.getD 0 0 = b at *
    have hlw : w.length = (decodeEd b).operands := by rw [hr] at hl; simpa [Nat.add_comm] using hl
    have hl' : l = 0xED :: b :: w := hb
    have f : ∀ b : U8, (decodeEd b).operands = 0 ∧ b ≠ 0x63 ∧ b ≠ 0x6B ∨
        (decodeEd b).operands = 2 ∧ canonEd b = b := by decide +kernel
    rcases f b with ⟨f1, f2, f3⟩ | ⟨f1, f2⟩
    · have := list0 (hlw.trans f1)
      subst this
      rw [hl']
      simp only [Entry.canon, if_neg f2, if_neg f3, if_true, build_ed]
      rfl
    · have hw := list2 (hlw.trans f1)
      rw [hl', hw]
      simp only [Entry.canon, Spec.canon, if_true, f2]
      split
      · exact (build_ld _).1.symm
      · split
        · exact (build_ld _).2.symm
        · exact (build_ed _ _).symm
  · have e1 : (entry x op r).op = op := rfl
    have e2 : (entry x op r).x = x := rfl
    unfold Entry.canon
    rw [e1, e2, if_neg he]
    have hne : decode op ≠ .ed := fun h => he (hed.1 h)
    by_cases hc : op = 0xCB ∧ x ≠ .hl
    · rw [if_pos hc]
      obtain ⟨rfl, hx⟩ := hc
      have hd : decode (0xCB : U8) = .cb := by decide
      rw [hd] at hl
      have hr := list2 (r := r) (by simpa [more, I0.operands, I0.memory, hx] using hl)
      have hlx : l = Synonym.build ⟨x, 0xCB, r.getD 1 0⟩ (back a (Spec.line a l)) := by
        have : entry x 0xCB r = ⟨x, 0xCB, r.getD 1 0⟩ := by
          unfold entry; rw [hd]; simp only [second, if_neg hx]
        rw [← this]; exact hb
      have e3 : (entry x 0xCB r).b = r.getD 1 0 := by
        unfold entry; rw [hd]; simp only [second, if_neg hx]
      rw [e3]
      generalize back a (Spec.line a l) = w at *
      have hq := h.eq
      generalize r.getD 1 0 = b at *
      generalize r.getD 0 0 = d at *
      rw [hr] at hq
      rw [Synonym.build, hd] at hlx ⊢
      simp only [rest, if_neg hx] at hlx ⊢
      have hw : w = [d] := by
        have := List.append_cancel_left (hq.symm.trans hlx)
        have := (List.cons.inj this).2
        exact (List.append_inj_left' (s₁ := [d]) (t₁ := [b]) this rfl).symm
      rw [hq, hw]
      cases x
      · exact absurd rfl hx
      · rfl
      · rfl
    · rw [if_neg hc, ← hb]
      have h2 : ∀ k : I0, k ≠ .ed → k.operands ≤ 2 ∧ (k.memory = true → k.operands ≤ 1) := by
        intro k _; cases k <;> simp [I0.operands, I0.memory]
      have hm1 := h2 (decode op) hne
      have hr2 : r.length ≤ 2 := by
        rw [hl]
        unfold more
        rw [if_neg hne]
        split
        · next h => have := hm1.2 h.2; omega
        · have := hm1.1; omega
      rw [h.eq]
      by_cases hx : x = .hl
      · subst hx
        match r, hr2 with
        | [], _ => rfl
        | [b], _ => exact if_neg he
        | [_, _], _ => rfl
      · have hcb : op ≠ 0xCB := fun h => hc ⟨h, hx⟩
        have hcb' : ¬op = 203#8 := hcb
        match r, hr2, x, hx with
        | _, _, .hl, hx => exact absurd rfl hx
        | [], _, .ix, _ => rfl
        | [], _, .iy, _ => rfl
        | [b], _, .ix, _ => rfl
        | [b], _, .iy, _ => rfl
        | [_, _], _, .ix, _ => simp [Spec.canon, pre, hcb']
        | [_, _], _, .iy, _ => simp [Spec.canon, pre, hcb']

theorem text_ok {l : List U8} (h : Complete l) (a : U16) :
    (∀ c ∈ (line a l).1.toList, c ≠ ' ') ∧ ∀ o ∈ (line a l).2, (pat o).Ok := by
  obtain ⟨x, op, r, p⟩ := parts h
  have v := view_entry x (a + if x = .hl then 0 else 1) op r
  rw [← p.line a] at v
  have h1 := Bool.and_eq_true_iff.1 (List.all_eq_true.1 names_all _ p.entry_mem)
  simp only [view, Prod.mk.injEq] at v
  refine ⟨fun c hc => ?_, fun o ho => ?_⟩
  · rw [v.1] at hc
    simpa using List.all_eq_true.1 h1.1 c hc
  · have h2 : pat o ∈ (line a l).2.map pat := List.mem_map.2 ⟨o, ho, rfl⟩
    rw [v.2.1] at h2
    obtain ⟨o', ho', e'⟩ := List.mem_map.1 h2
    rw [← e']
    exact of_decide_eq_true (List.all_eq_true.1 h1.2 o' ho')

/-- The line tells the documented encoding. -/
theorem canon_of_text (s : Style) (a : U16) {l l' : List U8} (h : Complete l) (h' : Complete l')
    (hm : (line a l).1 = (line a l').1) (ho : operands s (line a l).2 = operands s (line a l').2) :
    canon l = canon l' := by
  have ok := (text_ok h a).2
  have ok' := (text_ok h' a).2
  obtain ⟨x, op, r, p⟩ := parts h
  obtain ⟨x', op', r', p'⟩ := parts h'
  have v := view_entry x (a + if x = .hl then 0 else 1) op r
  have v' := view_entry x' (a + if x' = .hl then 0 else 1) op' r'
  rw [← p.line a] at v
  rw [← p'.line a] at v'
  have ht := operands_inj s ok ok' ho
  have hp := map_pat s ok ok' ht
  simp only [view, Prod.mk.injEq] at v v'
  have hh : (entry x op r).hash = (entry x' op' r').hash := by
    unfold Entry.hash
    rw [← v.1, ← v'.1, ← v.2.1, ← v'.2.1, hm, hp]
  have hk := check_kinds 7 check_all p.entry_mem p'.entry_mem hh
  rw [← v.2.2.1, ← v'.2.2.1] at hk
  have hl := map_inj s ok ok' hk ht
  have hline : line a l = line a l' := Prod.ext hm hl
  have hh2 : (entry x op r).hash2 = (entry x' op' r').hash2 := by
    unfold Entry.hash2
    rw [← v.2.2.2, ← v'.2.2.2, hh, hline]
  have hc := check_canon 7 check_all p.entry_mem p'.entry_mem hh hh2
  rw [p.canon a, p'.canon a, hc, hline]

theorem canonEd_decode : ∀ b : U8, decodeEd (canonEd b) = decodeEd b := by decide +kernel

theorem canonXCb_decode : ∀ b : U8, decodeCb (canonXCb b) = decodeCb b ∨
    ∃ n r, n < 8 ∧ decodeCb b = .bit n r ∧ decodeCb (canonXCb b) = .bit n .m := by
  have : ∀ b : U8, decodeCb (canonXCb b) = decodeCb b ∨
      (match decodeCb b with
      | .bit n _ => decide (n < 8 ∧ decodeCb (canonXCb b) = .bit n .m)
      | _ => false) = true := by decide +kernel
  intro b
  rcases this b with h | h
  · exact .inl h
  · right
    split at h
    · next n r hb =>
      have h := of_decide_eq_true h
      exact ⟨n, r, h.1, hb, h.2⟩
    · cases h

theorem asm_canonXCb {x : Ix} (hx : x ≠ .hl) (d b : U8) :
    (decodeCb (canonXCb b)).asm x d = (decodeCb b).asm x d := by
  rcases canonXCb_decode b with h | ⟨n, r, -, h, h'⟩
  · rw [h]
  · rw [h, h']; simp only [ICb.asm, if_neg hx]

theorem line_plain (a : U16) {op : U8} (r : List U8) (hp : isPrefix op = false) :
    line a (op :: r) = (decode op).asm .hl a fun i => (op :: r).getD i 0 := by
  have h1 : (op :: r).head? ≠ some 0xDD := by
    intro h; rw [Option.some.inj h] at hp; exact absurd hp (by decide)
  have h2 : (op :: r).head? ≠ some 0xFD := by
    intro h; rw [Option.some.inj h] at hp; exact absurd hp (by decide)
  rw [Spec.line, if_neg h1, if_neg h2]
  rfl

theorem line_ed (a : U16) (r : List U8) :
    line a (0xED :: r) = (decodeEd (r.getD 0 0)).asm (r.getD 2 0 ++ r.getD 1 0) := by
  have hd : decode (0xED : U8) = .ed := by decide
  rw [line_plain a r (by decide), hd]
  rfl

theorem line_ld (a : U16) (x y : U8) : line a [0x22, x, y] = ("LD", [.mem (y ++ x), .name "HL"]) ∧
    line a [0x2A, x, y] = ("LD", [.name "HL", .mem (y ++ x)]) := by
  have hd : decode (0x22 : U8) = .ldNnHl ∧ decode (0x2A : U8) = .ldHlNn := by decide
  constructor
  · rw [line_plain a _ (by decide), hd.1]; rfl
  · rw [line_plain a _ (by decide), hd.2]; rfl

theorem line_xcb (a : U16) (d b : U8) :
    line a [0xDD, 0xCB, d, b] = (decodeCb b).asm .ix d ∧
      line a [0xFD, 0xCB, d, b] = (decodeCb b).asm .iy d := by
  have hd : decode (0xCB : U8) = .cb := by decide
  constructor
  · rw [Spec.line, List.head?_cons, if_pos rfl, asm]
    show (decode 0xCB).asm .ix _ _ = _
    rw [hd]; rfl
  · rw [Spec.line, List.head?_cons, if_neg (by simp), if_pos rfl, asm]
    show (decode 0xCB).asm .iy _ _ = _
    rw [hd]; rfl

/-- The documented encoding is written alike. -/
theorem line_canon (a : U16) {l : List U8} (h : Complete l) : line a (canon l) = line a l := by
  unfold canon
  split
  · next p b =>
    split
    · next hp =>
      subst hp
      rw [line_ed, line_ed]
      show (decodeEd (canonEd b)).asm _ = (decodeEd b).asm _
      rw [canonEd_decode]
      rfl
    · rfl
  · next p b x y =>
    split
    · next hp =>
      subst hp
      split
      · next hb =>
        subst hb
        have hd : decodeEd (0x63 : U8) = .ldNnRp .hl := by decide
        rw [line_ed, (line_ld a x y).1]
        show _ = (decodeEd 0x63).asm _
        rw [hd]; rfl
      · split
        · next hb =>
          subst hb
          have hd : decodeEd (0x6B : U8) = .ldRpNn .hl := by decide
          rw [line_ed, (line_ld a x y).2]
          show _ = (decodeEd 0x6B).asm _
          rw [hd]; rfl
        · rfl
    · split
      · next hp hb =>
        subst hb
        have hx : p = 0xDD ∨ p = 0xFD := by
          have hs := h.2
          by_cases hx : isPrefix p = true
          · simpa [isPrefix] using hx
          · simp only [size, hx] at hs
            have : ∀ p : U8, p = 0xED ∨ length false p 0xCB ≤ 3 := by decide +kernel
            rcases this p with h | h
            · exact absurd h hp
            · have hs : length false p 0xCB = 4 := hs
              omega
        rcases hx with rfl | rfl
        · rw [(line_xcb a _ _).1, (line_xcb a _ _).1]
          exact asm_canonXCb (x := .ix) (by decide) x y
        · rw [(line_xcb a _ _).2, (line_xcb a _ _).2]
          exact asm_canonXCb (x := .iy) (by decide) x y
      · rfl
  · rfl

theorem canon_complete {l : List U8} (h : Complete l) :
    Complete (canon l) ∧ canon (canon l) = canon l := by
  have hd : decode (0x22 : U8) = .ldNnHl ∧ decode (0x2A : U8) = .ldHlNn := by decide
  unfold canon
  split
  · next p b =>
    split
    · next hp =>
      subst hp
      have f : ∀ b : U8, Complete [0xED, b] → Complete [0xED, canonEd b] ∧ canonEd (canonEd b) = canonEd b := by
        decide +kernel
      obtain ⟨h1, h2⟩ := f b h
      exact ⟨h1, by dsimp only; rw [if_pos rfl, h2]⟩
    · next hp => exact ⟨h, if_neg hp⟩
  · next p b x y =>
    split
    · next hp =>
      subst hp
      split
      · refine ⟨⟨rfl, ?_⟩, rfl⟩
        show length false 0x22 x = 3
        unfold length; rw [hd.1]; rfl
      · next hb =>
        split
        · refine ⟨⟨rfl, ?_⟩, rfl⟩
          show length false 0x2A x = 3
          unfold length; rw [hd.2]; rfl
        · next hb' => exact ⟨h, by dsimp only; rw [if_pos rfl, if_neg hb, if_neg hb']⟩
    · next hp =>
      split
      · next hb =>
        subst hb
        have f : ∀ y : U8, canonXCb (canonXCb y) = canonXCb y := by decide +kernel
        refine ⟨h, ?_⟩
        dsimp only
        rw [if_neg hp, if_pos rfl, f]
      · next hb => exact ⟨h, by dsimp only; rw [if_neg hp, if_neg hb]⟩
  · next h1 h2 =>
    refine ⟨h, ?_⟩
    split
    · next p b => exact absurd rfl (h1 p b)
    · next p b x y => exact absurd rfl (h2 p b x y)
    · rfl

/-! ## Columns -/

/-- Text filled with spaces, without a space at its end, is told. -/
theorem fill_inj {t t' : List Char} {n m : Nat} (h : t.getLast? ≠ some ' ') (h' : t'.getLast? ≠ some ' ')
    (e : t ++ List.replicate n ' ' = t' ++ List.replicate m ' ') : t = t' := by
  replace e := congrArg List.reverse e
  simp only [List.reverse_append, List.reverse_replicate] at e
  rw [← List.head?_reverse] at h h'
  suffices t.reverse = t'.reverse from List.reverse_inj.1 this
  generalize t.reverse = u at *
  generalize t'.reverse = u' at *
  induction n generalizing m with
  | zero =>
    cases m with
    | zero => exact e
    | succ m =>
      refine absurd ?_ h
      rw [show u = _ from e, List.replicate_succ]; rfl
  | succ n ih =>
    cases m with
    | zero =>
      refine absurd ?_ h'
      rw [show u' = _ from e.symm, List.replicate_succ]; rfl
    | succ m =>
      rw [List.replicate_succ, List.replicate_succ] at e
      exact ih (List.cons.inj e).2

theorem last_flat {l : List (List Char)} (h : ∀ t ∈ l, t ≠ [] ∧ ∀ c ∈ t, c ≠ ' ') :
    (flat l).getLast? ≠ some ' ' := by
  induction l with
  | nil => simp [flat]
  | cons t l ih =>
    have ht := h t (.head _)
    cases l with
    | nil =>
      intro e
      exact ht.2 ' ' (List.mem_of_getLast? e) rfl
    | cons u l =>
      have := ih fun t h' => h t (.tail _ h')
      have hne : flat (u :: l) ≠ [] := by
        have hu := (h u (.tail _ (.head _))).1
        cases l with
        | nil => exact hu
        | cons _ _ => simp [flat]
      rw [flat]
      · obtain ⟨c, r, e⟩ := List.exists_cons_of_ne_nil hne
        rw [e] at this ⊢
        simp only [List.getLast?_append, List.getLast?_cons_cons]
        cases hg : (c :: r).getLast? with
        | none => simp at hg
        | some d => rw [hg] at this; simpa using this
      · intro h; cases h

theorem operands_last (s : Style) {l : List Opd} (h : ∀ o ∈ l, (pat o).Ok) :
    (operands s l).toList.getLast? ≠ some ' ' := by
  rw [operands, intercalate_flat]
  refine last_flat fun t ht => ?_
  rw [List.map_map, List.mem_map] at ht
  obtain ⟨o, ho, rfl⟩ := ht
  refine ⟨text_ne s (h o ho), ?_⟩
  rintro c hc rfl
  exact absurd (text_comma s (h o ho) ' ' hc) (by decide)

theorem mnemonic_last {t : List Char} (h : ∀ c ∈ t, c ≠ ' ') : t.getLast? ≠ some ' ' :=
  fun e => h ' ' (List.mem_of_getLast? e) rfl

/-- The columns tell mnemonic and operands. -/
theorem columns_told (s : Style) (a : U16) {l l' : List U8} (h : Complete l) (h' : Complete l')
    (e : columns s a (line a l) = columns s a (line a l')) :
    (line a l).1 = (line a l').1 ∧ operands s (line a l).2 = operands s (line a l').2 := by
  have ok := text_ok h a
  have ok' := text_ok h' a
  have hm := (Text.fits_line a l).1
  have hm' := (Text.fits_line a l').1
  have e := congrArg String.toList e
  simp only [columns, spaces, String.toList_append, String.toList_ofList] at e
  have e := List.append_cancel_right e
  have hlen : ∀ m : String, m.length ≤ 4 → (m.toList ++ List.replicate (4 - m.length) ' ').length = 4 := by
    intro m hm
    rw [List.length_append, List.length_replicate, String.length_toList]
    omega
  have hq := (hlen _ hm).trans (hlen _ hm').symm
  obtain ⟨e1, e2⟩ := List.append_inj e (by
    rw [List.length_append, List.length_append, List.length_append (as := _ ++ _),
      List.length_append (as := _ ++ _), hq])
  have e1 := List.append_cancel_left (List.append_cancel_right e1)
  exact ⟨String.toList_inj.1 (fill_inj (mnemonic_last ok.1) (mnemonic_last ok'.1) e1),
    String.toList_inj.1 (fill_inj (operands_last s ok.2) (operands_last s ok'.2) e2)⟩

end Z80.Synonym
