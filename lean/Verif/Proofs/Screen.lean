import Verif.Model.RalScreen
import Verif.Spec.Screen
import Verif.Props.Text
import Verif.Props.State
import Verif.Proofs.Sim

/-!
# The lines of the debugger: lemmas
-/

namespace Z80.Ral.Screen
open Text Spec

theorem under {header line title text : String} (o : Nat)
    (h : title ≠ "" ∧ Occurs header title o ∧ ∀ o' < header.toList.length, Occurs header title o' → o' = o)
    (ht : Occurs line text o) : Under header line title text := by
  refine ⟨h.1, o, h.2.1, fun o' ho => ?_, ht⟩
  by_cases hl : o' < header.toList.length
  · exact h.2.2 o' hl ho
  · exfalso
    unfold Occurs at ho
    rw [List.drop_eq_nil_of_le (Nat.le_of_not_lt hl), List.take_nil] at ho
    exact h.1 (String.toList_inj.mp ho.symm)

/-- One title has one text below. -/
theorem under_inj {header line title t t' : String} (h : Under header line title t)
    (h' : Under header line title t') (hl : t.length = t'.length) : t = t' := by
  obtain ⟨-, o, -, hu, ho⟩ := h
  obtain ⟨-, o', ho', -, hx⟩ := h'
  obtain rfl := hu o' ho'
  unfold Occurs at ho hx
  rw [hl] at ho
  exact String.toList_inj.mp (ho.symm.trans hx)

theorem occurs_inj {line t t' : String} {o : Nat} (h : Occurs line t o) (h' : Occurs line t' o)
    (hl : t.length = t'.length) : t = t' := by
  unfold Occurs at h h'
  rw [hl] at h
  exact String.toList_inj.mp (h.symm.trans h')

theorem occurs_skip {line p s t : String} {n k : Nat} (hl : line = p ++ s) (hp : p.length = n)
    (h : Occurs s t k) : Occurs line t (n + k) := by
  subst hl hp
  unfold Occurs at h ⊢
  rw [String.toList_append, ← List.drop_drop, ← String.length_toList (s := p), List.drop_left, h]

theorem occurs_zero {line p s : String} (hl : line = p ++ s) : Occurs line p 0 := by
  subst hl
  unfold Occurs
  rw [String.toList_append, List.drop_zero, ← String.length_toList, List.take_left]

theorem bin_bits (b : U8) : bin b = bits b :=
  of_decide_eq_true (all8_spec (p := fun b => decide (bin b = bits b)) (by decide +kernel) b)

theorem word4_pair (x y : U8) : word4 (word x y) = hex8 true x ++ hex8 true y := by
  have hx := x.isLt
  have hy := y.isLt
  unfold word4
  rw [Text.hex_four]
  unfold hex16 hex8
  rw [← String.ofList_append]
  have e : (word x y).toNat = x.toNat * 256 + y.toNat := by
    unfold word
    rw [BitVec.toNat_append, Nat.shiftLeft_eq, Nat.mul_comm, ← Nat.two_pow_add_eq_or_of_lt hy, Nat.mul_comm]
  rw [e, show (x.toNat * 256 + y.toNat) / 4096 = x.toNat / 16 by omega,
    show (x.toNat * 256 + y.toNat) / 256 % 16 = x.toNat % 16 by omega,
    show (x.toNat * 256 + y.toNat) / 16 % 16 = y.toNat / 16 by omega,
    show (x.toNat * 256 + y.toNat) % 16 = y.toNat % 16 by omega]
  rfl

theorem word4_eq (w : U16) : word4 w = hex16 true w := Text.hex_four true w

theorem spaces_length (n : Nat) : (spaces n).length = n := by simp [spaces]

theorem spaces_add (m n : Nat) : spaces (m + n) = spaces m ++ spaces n := by
  unfold spaces
  rw [← String.ofList_append, List.replicate_append_replicate]

theorem foldl_append (l : List String) (t : String) : l.foldl (· ++ ·) t = t ++ l.foldl (· ++ ·) "" := by
  induction l generalizing t with
  | nil => simp
  | cons a l ih =>
    rw [List.foldl_cons, ih, List.foldl_cons, ih ("" ++ a), String.empty_append, String.append_assoc]

theorem again_eq (n k : Nat) : again n (spaces k) = spaces (n * k) := by
  unfold again
  induction n with
  | zero => simp [spaces]
  | succ n ih =>
    rw [List.replicate_succ, List.foldl_cons, foldl_append, ih, String.empty_append, ← spaces_add]
    congr 1
    rw [Nat.succ_mul, Nat.add_comm]

/-- The bytes of the instruction. -/
theorem formatCode_eq (k : Nat) (l : List U8) : formatCode (spaces k) l = dump (spaces k) l := by
  unfold formatCode dump
  have h2 : "  " ++ spaces k = spaces (2 + k) := by rw [spaces_add]; rfl
  rw [spaces_length, h2, again_eq]
  congr 1
  unfold String.join
  rw [List.foldl_map]
  simp only [Text.hex_two]

theorem dump_length (k : Nat) {l : List U8} (h : l.length ≤ 4) :
    (dump (spaces k) l).length = 4 * (2 + k) := by
  unfold dump
  rw [String.length_append, spaces_length, spaces_length]
  have : ∀ l : List U8, (String.join (l.map fun b => hex8 true b ++ spaces k)).length = l.length * (2 + k) := by
    intro l
    unfold String.join
    induction l with
    | nil => simp
    | cons a l ih =>
      rw [List.map_cons, List.foldl_cons, foldl_append, String.length_append, ih]
      rw [String.empty_append, String.length_append, spaces_length]
      have : (hex8 true a).length = 2 := by simp [hex8]
      rw [this, List.length_cons, Nat.succ_mul, Nat.add_comm]
  rw [this, ← Nat.add_mul]
  congr 1
  omega

theorem told_length {sep : String} (hs : sep.length = 1) (a : U16) (l : List U8) :
    (told sep a l).length = 25 := by
  have hf := Text.fits_line a l
  have hm := hf.1
  have ho : (Spec.operands (.hex true false) (Spec.line a l).2).length ≤ 14 :=
    Text.operands_fit (.hex true false) _ hf
  have hx : (hex16 true a).length = 4 := by simp [hex16]
  have h1 : (" " : String).length = 1 := rfl
  unfold told
  simp only [String.length_append, spaces_length, hx, h1, hs]
  omega

theorem formatInstr_eq {d : CpuDebug} (h : Faithful d) (sep : String) :
    formatInstr sep d = some (told sep d.pc d.code) := by
  unfold formatInstr
  have hm : (Spec.line d.pc d.code).1 = d.mnemonic := congrArg Prod.fst h.text.symm
  rw [(C48_args h 14).2 true false, Option.map_some, ← hm]
  refine congrArg some ?_
  unfold told pad
  rw [word4_eq]
  rfl

theorem short {d : CpuDebug} (h : Faithful d) : d.code.length ≤ 4 :=
  h.whole ▸ Disasm.size_le h.useful

theorem bit_eq (b : Bool) : bit b = bool01 b := by cases b <;> rfl

end Z80.Ral.Screen
