import Verif.Model.Fmt
import Verif.Spec.Text
import Verif.Proofs.Rep
import Verif.Proofs.Decode

/-!
# The text of debug records
-/

set_option linter.unusedSimpArgs false
set_option linter.constructorNameAsVariable false

namespace Z80.Text
open Spec

theorem digit_nibble (up : Bool) (n : Nat) (h : n < 16) :
    (if up then (Nat.digitChar n).toUpper else Nat.digitChar n) = nibble up n := by
  have : ∀ n : Fin 16, ∀ up : Bool,
      (if up then (Nat.digitChar n).toUpper else Nat.digitChar n) = nibble up n := by decide +kernel
  exact this ⟨n, h⟩ up

/-- `w` digits of `n`. -/
def digits (up : Bool) : Nat → Nat → List Char
  | 0, _ => []
  | w + 1, n => digits up w (n / 16) ++ [nibble up (n % 16)]

theorem digits_zero (up : Bool) (w : Nat) : digits up w 0 = List.replicate w '0' := by
  induction w with
  | zero => rfl
  | succ w ih =>
    rw [digits, Nat.zero_div, ih, List.replicate_succ']
    have : nibble up (0 % 16) = '0' := by cases up <;> decide
    rw [this]

theorem hex_digits (up : Bool) (w n : Nat) (hw : 0 < w) (h : n < 16 ^ w) :
    hex up w n = String.ofList (digits up w n) := by
  unfold hex
  refine congrArg String.ofList ?_
  show List.replicate (w - (Nat.toDigits 16 n).length) '0' ++ _ = _
  induction w generalizing n with
  | zero => cases hw
  | succ w ih =>
    by_cases hn : n < 16
    · rw [Nat.toDigits_of_lt_base hn, digits, Nat.div_eq_of_lt hn, digits_zero, Nat.mod_eq_of_lt hn,
        ← digit_nibble up n hn]
      cases up <;> rfl
    · have hn := Nat.le_of_not_lt hn
      have hw0 : 0 < w := by
        cases w with
        | zero => omega
        | succ w => exact Nat.succ_pos _
      have := ih (n / 16) hw0 (Nat.div_lt_of_lt_mul (by rw [Nat.pow_succ] at h; omega))
      rw [Nat.toDigits_of_base_le (by omega) hn, digits, ← this, List.length_append,
        List.length_singleton, Nat.add_sub_add_right, ← digit_nibble up (n % 16) (Nat.mod_lt _ (by omega))]
      cases up <;> simp

theorem hex_two (up : Bool) (b : U8) : hex up 2 b.toNat = hex8 up b := by
  rw [hex_digits up 2 _ (by omega) b.isLt, hex8]
  have := b.isLt
  simp only [digits, List.nil_append, List.cons_append]
  rw [Nat.mod_eq_of_lt (a := b.toNat / 16) (by omega)]

theorem hex_four (up : Bool) (w : U16) : hex up 4 w.toNat = hex16 up w := by
  rw [hex_digits up 4 _ (by omega) w.isLt, hex16]
  have := w.isLt
  simp only [digits, List.nil_append, List.cons_append, Nat.div_div_eq_div_mul]
  rw [Nat.mod_eq_of_lt (a := w.toNat / _) (by omega)]

theorem msb_lt (d : U8) : d.msb = decide (128 ≤ d.toNat) := by
  rw [BitVec.msb_eq_decide]

theorem neg_toNat (d : U8) : 0#8 - d = BitVec.ofNat 8 (256 - d.toNat) := by
  apply BitVec.eq_of_toNat_eq
  simp [BitVec.toNat_sub]

theorem addrDisplay_text (a : DbgAddr) : addrDisplay a = a.opd.text .dec := by
  cases a with
  | immAddr nn => rfl
  | regAddr r => cases r <;> rfl
  | indexAddr p d =>
    cases d with
    | none => cases p <;> rfl
    | some d =>
      have h : signed d = Style.dec.disp d := by
        unfold signed Style.disp
        rw [msb_lt]
        have hd := d.isLt
        by_cases h : d.toNat < 128
        · rw [if_neg (by simp; omega), if_pos h]; rfl
        · rw [if_pos (by simp; omega), if_neg h]
          show _ = "-" ++ toString (BitVec.ofNat 8 (256 - d.toNat)).toNat
          rw [BitVec.toNat_ofNat, Nat.mod_eq_of_lt (by omega)]
          rfl
      cases p <;> simp only [addrDisplay, DbgAddr.opd, Opd.text, ofPrefix, h]

theorem ox : "(0x" = "(" ++ "0x" := rfl
theorem px : "+0x" = "+" ++ "0x" := rfl
theorem hx : "h)" = "h" ++ ")" := rfl
theorem mx : "-0x" = "-" ++ "0x" := rfl

theorem addrHex_text (up alt : Bool) (a : DbgAddr) : addrHex up alt a = a.opd.text (.hex up alt) := by
  cases a with
  | immAddr nn =>
    simp only [addrHex, DbgAddr.opd, Opd.text, Style.num16, marked, hex_four]
    cases alt <;> simp [-String.reduceAppend, ox, px, mx, hx, String.append_assoc]
  | regAddr r => cases r <;> rfl
  | indexAddr p d =>
    cases d with
    | none => cases p <;> rfl
    | some d =>
      have e : (DbgAddr.indexAddr p (some d)).opd = .idx (ofPrefix p) d := by cases p <;> rfl
      rw [e]
      simp only [addrHex, Opd.text, Style.disp, Style.num8, marked, hex_two, msb_lt, neg_toNat]
      by_cases h : d.toNat < 128
      · rw [if_neg (by simp; omega), if_pos h]
        cases alt <;> simp [-String.reduceAppend, ox, px, mx, hx, String.append_assoc]
      · rw [if_pos (by simp; omega), if_neg h]
        cases alt <;> simp [-String.reduceAppend, ox, px, mx, hx, String.append_assoc]

theorem argDisplay_text (a : DbgArg) : argDisplay a = a.opd.text .dec := by
  cases a with
  | reg8 p r => cases r <;> rcases p with _ | _ | _ <;> rfl
  | reg16 p r => cases r <;> rcases p with _ | _ | _ <;> rfl
  | stk16 r => cases r <;> rfl
  | addr a => exact addrDisplay_text a
  | port p => cases p <;> rfl
  | cond c => cases c <;> rfl
  | intMode m => cases m <;> rfl
  | _ => rfl

theorem argHex_text (up alt : Bool) (a : DbgArg) : argHex up alt a = a.opd.text (.hex up alt) := by
  cases a with
  | reg8 p r => cases r <;> rcases p with _ | _ | _ <;> rfl
  | reg16 p r => cases r <;> rcases p with _ | _ | _ <;> rfl
  | stk16 r => cases r <;> rfl
  | addr a => exact addrHex_text up alt a
  | port p =>
    cases p with
    | immPort n =>
      simp only [argHex, portHex, DbgArg.opd, Opd.text, Style.num8, marked, hex_two]
      cases alt <;> simp [-String.reduceAppend, ox, px, mx, hx, String.append_assoc]
    | regPort => rfl
  | cond c => cases c <;> rfl
  | intMode m => cases m <;> rfl
  | imm8 n => simp only [argHex, DbgArg.opd, Opd.text, Style.num8, marked, hex_two]
  | imm16 n => simp only [argHex, DbgArg.opd, Opd.text, Style.num16, marked, hex_four]
  | _ => rfl

theorem operands_two (s : Style) (a b : Opd) : operands s [a, b] = a.text s ++ ", " ++ b.text s := by
  simp [operands]
theorem operands_three (s : Style) (a b c : Opd) :
    operands s [a, b, c] = a.text s ++ ", " ++ b.text s ++ ", " ++ c.text s := by
  simp [operands, String.append_assoc]

/-- Arguments as text in a style. -/
def argsText : Style → DbgArgs → String
  | .dec => argsDisplay
  | .hex up alt => argsHex up alt

theorem argsText_text (s : Style) (a : DbgArgs) : argsText s a = operands s a.opds := by
  have h1 : ∀ a : DbgArg, (match s with | .dec => argDisplay a | .hex up alt => argHex up alt a) = a.opd.text s := by
    intro a
    cases s with
    | dec => exact argDisplay_text a
    | hex => exact argHex_text _ _ a
  have hr : ∀ r : Reg8, ofReg8 r = ((DbgArg.reg8 none r).opd).text s := by
    intro r; cases r <;> rfl
  cases a with
  | none => cases s <;> rfl
  | single a =>
    have : (DbgArgs.single a).opds = [a.opd] := rfl
    rw [this, show operands s [a.opd] = a.opd.text s from by simp [operands], ← h1]
    cases s <;> rfl
  | double a b =>
    by_cases h : a = .stk16 .AF ∧ b = .stk16 .AF
    · obtain ⟨rfl, rfl⟩ := h
      cases s <;> rfl
    · have h2 : (DbgArgs.double a b).opds = [a.opd, b.opd] := by
        unfold DbgArgs.opds
        split <;> simp_all
      rw [h2, operands_two, ← h1, ← h1]
      cases s <;> (unfold argsText; simp only [argsDisplay, argsHex]; split <;> simp_all)
  | bitOpExt b a r =>
    have h2 : (DbgArgs.bitOpExt b a r).opds = [.num b, a.opd, (DbgArg.reg8 none r).opd] := by
      cases r <;> rfl
    rw [h2, operands_three, ← h1, ← hr]
    cases s <;> rfl

/-! ### Widths -/

/-- An upper bound for the length of an operand: `b` for a byte, `w` for a word. -/
def room (b w : Nat) : Opd → Nat
  | .name t => t.length
  | .num n => if n < 10 then 1 else 100
  | .byte _ => b
  | .word _ => w
  | .mem _ => w + 2
  | .ind t => t.length + 2
  | .idx t _ => t.length + b + 3
  | .port _ => b + 2

/-- An upper bound for the length of operands, and for that of the mnemonic. -/
def rooms (b w : Nat) : List Opd → Nat
  | [] => 0
  | [o] => room b w o
  | o :: p :: l => room b w o + 2 + rooms b w (p :: l)

/-- The bytes of a style. -/
def Style.b : Style → Nat | .hex _ true => 4 | _ => 3
def Style.w : Style → Nat | .hex _ true => 6 | _ => 5
def Style.cap : Style → Nat | .hex _ true => 15 | _ => 14

theorem dec_length (n k : Nat) (hk : 0 < k) (h : n < 10 ^ k) : (toString n).length ≤ k := by
  show n.repr.length ≤ k
  rw [Nat.repr_eq_ofList_toDigits, String.length_ofList]
  exact (Nat.length_toDigits_le_iff (by omega) hk).2 h

theorem num8_length (s : Style) (b : U8) : (s.num8 b).length ≤ Style.b s := by
  have := b.isLt
  rcases s with _ | ⟨up, _ | _⟩
  · exact dec_length _ 3 (by omega) (by omega)
  · simp [Style.num8, marked, hex8, Style.b, String.length_append] <;> decide
  · simp [Style.num8, marked, hex8, Style.b, String.length_append] <;> decide

theorem num16_length (s : Style) (b : U16) : (s.num16 b).length ≤ Style.w s := by
  have := b.isLt
  rcases s with _ | ⟨up, _ | _⟩
  · exact dec_length _ 5 (by omega) (by omega)
  · simp [Style.num16, marked, hex16, Style.w, String.length_append] <;> decide
  · simp [Style.num16, marked, hex16, Style.w, String.length_append] <;> decide

theorem room_spec (s : Style) (o : Opd) (h : room (Style.b s) (Style.w s) o < 100) :
    (o.text s).length ≤ room (Style.b s) (Style.w s) o := by
  have l1 : ("(" : String).length = 1 := rfl
  have l2 : (")" : String).length = 1 := rfl
  cases o with
  | name t => exact Nat.le_refl _
  | num n =>
    simp only [room] at h ⊢
    split at h
    · next hn =>
      rw [if_pos hn]
      exact dec_length n 1 (by omega) hn
    · omega
  | byte n => exact num8_length s n
  | word n => exact num16_length s n
  | mem n =>
    have := num16_length s n
    simp only [Opd.text, room, String.length_append, l1, l2]
    omega
  | ind t => simp only [Opd.text, room, String.length_append, l1, l2]; omega
  | port n =>
    have := num8_length s n
    simp only [Opd.text, room, String.length_append, l1, l2]
    omega
  | idx t d =>
    have h : (s.disp d).length ≤ Style.b s + 1 := by
      have l3 : ("+" : String).length = 1 := rfl
      have l4 : ("-" : String).length = 1 := rfl
      unfold Style.disp
      split
      · have := num8_length s d
        rw [String.length_append, l3]
        omega
      · have := num8_length s (BitVec.ofNat 8 (256 - d.toNat))
        rw [String.length_append, l4]
        omega
    simp only [Opd.text, room, String.length_append, l1, l2]
    omega

theorem rooms_spec (s : Style) (l : List Opd) (h : rooms (Style.b s) (Style.w s) l < 100) :
    (operands s l).length ≤ rooms (Style.b s) (Style.w s) l := by
  induction l with
  | nil => exact Nat.zero_le _
  | cons o l ih =>
    cases l with
    | nil =>
      have : operands s [o] = o.text s := by simp [operands]
      rw [this]
      exact room_spec s o h
    | cons p l =>
      have : operands s (o :: p :: l) = o.text s ++ ", " ++ operands s (p :: l) := by
        simp [operands]
      have l1 : (", " : String).length = 2 := rfl
      rw [this, String.length_append, String.length_append, l1]
      rw [rooms] at h ⊢
      have h1 := room_spec s o (by omega)
      have h2 := ih (by omega)
      omega

/-- The mnemonic has at most four characters, and the operands fit whatever numbers they contain. -/
def fitsIn (m : String × List Opd) : Prop :=
  m.1.length ≤ 4 ∧ rooms 3 5 m.2 ≤ 14 ∧ rooms 4 6 m.2 ≤ 15

instance (m) : Decidable (fitsIn m) := inferInstanceAs (Decidable (_ ∧ _))

/-- Lengths that do not depend on numbers. -/
local macro "lengths" : tactic =>
  `(tactic| (
    simp only [fitsIn, ICb.asm, ICb.asm.into, IEd.asm, I0.asm, R.opd, memOpd, rooms, room, R.txt, RP.txt,
      SP.txt, Cc.txt, Ix.txt, Alu.txt, Alu.opds, Sh.txt, Sh.accTxt, Blk.txt, reduceCtorEq, if_true, if_false, or_true, true_or, or_self, ite_true, ite_false, List.nil_append, List.cons_append]
    decide))

/-- The bit number. -/
def bitOk : ICb → Bool | .bit n _ | .res n _ | .set n _ => n < 8 | _ => true

theorem fits_cb (x : Ix) (d : U8) (k : ICb) (hk : bitOk k = true) : fitsIn (k.asm x d) := by
  cases k with
  | rot k r => cases x <;> cases r <;> cases k <;> lengths
  | bit n r =>
    have hn : n < 10 := by simp [bitOk] at hk; omega
    cases x <;> cases r <;>
      simp [ICb.asm, R.opd, memOpd, fitsIn, rooms, room, hn] <;> decide
  | res n r =>
    have hn : n < 10 := by simp [bitOk] at hk; omega
    cases x <;> cases r <;>
      simp [ICb.asm, R.opd, memOpd, fitsIn, rooms, room, hn, ICb.asm.into] <;> decide
  | set n r =>
    have hn : n < 10 := by simp [bitOk] at hk; omega
    cases x <;> cases r <;>
      simp [ICb.asm, R.opd, memOpd, fitsIn, rooms, room, hn, ICb.asm.into] <;> decide

theorem fits_ed (nn : U16) (k : IEd) (hk : ∀ n, k = .im n → n < 3) : fitsIn (k.asm nn) := by
  cases k with
  | im n =>
    have := hk n rfl
    match n, this with
    | 0, _ => lengths
    | 1, _ => lengths
    | 2, _ => lengths
  | inC r => cases r <;> lengths
  | outC r => cases r <;> lengths
  | sbcHl p => cases p <;> lengths
  | adcHl p => cases p <;> lengths
  | ldNnRp p => cases p <;> lengths
  | ldRpNn p => cases p <;> lengths
  | blk k d r => cases k <;> cases d <;> cases r <;> lengths
  | _ => lengths

theorem bitOk_all (c : U8) : bitOk (decodeCb c) = true :=
  all8_spec (p := fun c => bitOk (decodeCb c)) (by decide +kernel) c

theorem im_all (c : U8) (n : Nat) (h : decodeEd c = .im n) : n < 3 := by
  have := all8_spec (p := fun c => match decodeEd c with | .im n => n < 3 | _ => true)
    (by decide +kernel) c
  simp only [h] at this
  exact of_decide_eq_true this

theorem fits_asm (x : Ix) (a : U16) (byte : Nat → U8) (k : I0) (hk : k ≠ .ldRR .m .m) :
    fitsIn (k.asm x a byte) := by
  cases k with
  | cb =>
    cases x
    · exact fits_cb _ _ _ (bitOk_all _)
    · exact fits_cb _ _ _ (bitOk_all _)
    · exact fits_cb _ _ _ (bitOk_all _)
  | ed => exact fits_ed _ _ (im_all _)
  | jrCc c => cases c <;> lengths
  | ldRpNn p => cases x <;> cases p <;> lengths
  | addHl p => cases x <;> cases p <;> lengths
  | ldRpA p => cases x <;> cases p <;> lengths
  | ldARp p => cases x <;> cases p <;> lengths
  | ldNnHl => cases x <;> lengths
  | ldHlNn => cases x <;> lengths
  | incRp p => cases x <;> cases p <;> lengths
  | decRp p => cases x <;> cases p <;> lengths
  | incR r => cases x <;> cases r <;> lengths
  | decR r => cases x <;> cases r <;> lengths
  | ldRN r => cases x <;> cases r <;> lengths
  | accRot k => cases k <;> lengths
  | ldRR d s => cases x <;> cases d <;> cases s <;> first | exact absurd rfl hk | lengths
  | aluR k s => cases k <;> cases x <;> cases s <;> lengths
  | aluN k => cases k <;> lengths
  | retCc c => cases c <;> lengths
  | pop p => cases x <;> cases p <;> lengths
  | push p => cases x <;> cases p <;> lengths
  | jpHl => cases x <;> lengths
  | ldSpHl => cases x <;> lengths
  | jpCc c => cases c <;> lengths
  | callCc c => cases c <;> lengths
  | exSpHl => cases x <;> lengths
  | _ => lengths

theorem not_mm (c : U8) : decode c ≠ .ldRR .m .m :=
  of_decide_eq_true (all8_spec (p := fun c => decode c ≠ .ldRR .m .m) (by decide +kernel) c)

theorem fits_line (a : U16) (l : List U8) : fitsIn (line a l) := by
  unfold line asm
  split
  · exact fits_asm _ _ _ _ (not_mm _)
  · split <;> exact fits_asm _ _ _ _ (not_mm _)

theorem operands_fit (s : Style) (m : String × List Opd) (h : fitsIn m) :
    (operands s m.2).length ≤ Style.cap s := by
  rcases s with _ | ⟨up, _ | _⟩
  · exact Nat.le_trans (rooms_spec _ _ (Nat.lt_of_le_of_lt h.2.1 (by omega))) h.2.1
  · exact Nat.le_trans (rooms_spec _ _ (Nat.lt_of_le_of_lt h.2.1 (by omega))) h.2.1
  · exact Nat.le_trans (rooms_spec _ _ (Nat.lt_of_le_of_lt h.2.2 (by omega))) h.2.2

end Z80.Text
