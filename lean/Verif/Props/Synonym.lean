import Verif.Props.Text
import Verif.Proofs.Synonym

/-!
# C80: lines of a listing tell instructions apart
-/

namespace Z80
open Spec (Style Complete canon line)

/-- C80: two complete instructions at the same address are written alike, in any of the five styles, if
and only if they are the same instruction, encoded in one of the ways listed by `Spec.canon`. -/
theorem C80_columns (s : Style) (a : U16) {l l' : List U8} (h : Complete l) (h' : Complete l') :
    Spec.columns s a (line a l) = Spec.columns s a (line a l') ↔ canon l = canon l' := by
  constructor
  · intro e
    obtain ⟨h1, h2⟩ := Synonym.columns_told s a h h' e
    exact Synonym.canon_of_text s a h h' h1 h2
  · intro e
    rw [← Synonym.line_canon a h, ← Synonym.line_canon a h', e]

theorem Faithful.complete {d : CpuDebug} (h : Faithful d) : Complete d.code := ⟨h.useful, h.whole⟩

/-- The arguments in one of the five formats with a width. -/
def formattedArgs : Style → Nat → CpuDebug → Option String
  | .dec, w, d => Text.fmtArgs (some w) d.args
  | .hex up alt, w, d => Text.fmtArgsHex up alt (some w) d.args

/-- C80: of two records for the same address, mnemonic and formatted arguments tell whether the
instructions are the same. -/
theorem C80_records {d d' : CpuDebug} (h : Faithful d) (h' : Faithful d') (hp : d.pc = d'.pc) (s : Style)
    (w : Nat) :
    d.mnemonic = d'.mnemonic ∧ formattedArgs s w d = formattedArgs s w d' ↔
      canon d.code = canon d'.code := by
  have hm : d.mnemonic = (line d.pc d.code).1 := congrArg Prod.fst h.text
  have hm' : d'.mnemonic = (line d.pc d'.code).1 := by rw [hp]; exact congrArg Prod.fst h'.text
  have args : ∀ {d : CpuDebug}, Faithful d →
      formattedArgs s w d = some (Text.pad w (Spec.operands s (line d.pc d.code).2)) := by
    intro d h
    cases s with
    | dec => exact (C48_args h w).1
    | hex up alt => exact (C48_args h w).2 up alt
  rw [hm, hm', args h, args h', ← hp]
  constructor
  · rintro ⟨e1, e2⟩
    refine Synonym.canon_of_text s d.pc h.complete h'.complete e1 ?_
    have e2 := congrArg String.toList (Option.some.inj e2)
    simp only [Text.pad, String.toList_append, String.toList_ofList] at e2
    exact String.toList_inj.1 (Synonym.fill_inj (Synonym.operands_last s (Synonym.text_ok h.complete _).2)
      (Synonym.operands_last s (Synonym.text_ok h'.complete _).2) e2)
  · intro e
    rw [← Synonym.line_canon d.pc h.complete, ← Synonym.line_canon d.pc h'.complete, e]
    exact ⟨rfl, rfl⟩

/-- C80: so do the records of any two executions. -/
theorem C80_executed {σ τ : Sig} {Q Q' : Type} [Flavour Q] [Flavour Q'] {deb deb' : Bool} {c : Cpu Q}
    {c' : Cpu Q'} {t : List (Ev σ)} {t' : List (Ev τ)} {r : Res σ × Cpu Q} {r' : Res τ × Cpu Q'}
    (h : (executeNext deb c).Runs t r) (h' : (executeNext deb' c').Runs t' r') (s : Style) (w : Nat) :
    ∀ d ∈ records t, ∀ d' ∈ records t', d.pc = d'.pc →
      (d.mnemonic = d'.mnemonic ∧ formattedArgs s w d = formattedArgs s w d' ↔
        canon d.code = canon d'.code) :=
  fun d hd d' hd' hp => C80_records (C47_execute_next h d hd) (C47_execute_next h' d' hd') hp s w

/-- C80: the documented encoding is complete, and not changed again. -/
theorem C80_canon {l : List U8} (h : Complete l) : Complete (canon l) ∧ canon (canon l) = canon l :=
  Synonym.canon_complete h

section
open Spec
variable {w : Nat} {O R I : Type}

/-- C80: encodings of the same instruction do the same: after ED, -/
theorem C80_ed (b : U8) : decodeEd (canonEd b) = decodeEd b := Synonym.canonEd_decode b

/-- after DD CB and FD CB, -/
theorem C80_xcb (b : U8) (a : U16) (s : Mach w I) :
    execXCb (decodeCb (canonXCb b)) a s = execXCb (decodeCb b) a s := by
  rcases Synonym.canonXCb_decode b with h | ⟨n, r, -, h, h'⟩
  · rw [h]
  · rw [h, h']; rfl

/-- and loads of HL from memory and to memory. -/
theorem C80_ld (o : Opt) (v : Env w O R I) (s : Mach w I) :
    execEd o v (.ldNnRp .hl) s = exec0 o v .hl .ldNnHl s ∧
      execEd o v (.ldRpNn .hl) s = exec0 o v .hl .ldHlNn s := ⟨rfl, rfl⟩

end

/-- Encodings of the same instructions. -/
example : canon [0xED, 0x7C] = canon [0xED, 0x44] ∧ canon [0xED, 0x63, 0x34, 0x12] = [0x22, 0x34, 0x12] ∧
    canon [0xDD, 0xCB, 0x05, 0x47] = canon [0xDD, 0xCB, 0x05, 0x46] ∧
    canon [0xDD, 0xCB, 0x05, 0x87] ≠ canon [0xDD, 0xCB, 0x05, 0x86] ∧ canon [0x00] ≠ canon [0xED, 0x00] ∧
    Complete [0xED, 0x7C] ∧ Complete [0xDD, 0xCB, 0x05, 0x47] ∧ Complete [0xED, 0x63, 0x34, 0x12] := by
  decide +kernel

/-- A line that two encodings share. -/
example : Spec.columns (.hex false false) 0x8000#16 (line 0x8000#16 [0xED, 0x63, 0x34, 0x12]) =
      "8000h LD   (1234h), HL    " ∧
    Spec.columns (.hex false false) 0x8000#16 (line 0x8000#16 [0x22, 0x34, 0x12]) =
      "8000h LD   (1234h), HL    " := by
  decide +kernel

end Z80
