import Verif.Props.Asm
import Verif.Proofs.Text

/-!
# C48: debug records as text
-/

namespace Z80
open Spec (Style row)

variable {σ : Sig} {Q : Type}

/-- A record in one of the five formats: `{}`, `{:x}`, `{:X}`, `{:#x}` and `{:#X}`. -/
def formatted : Style → CpuDebug → Option String
  | .dec => Text.fmtDebug
  | .hex up alt => Text.fmtDebugHex up alt

theorem arrayString_fits {cap : Nat} {s : String} (h : s.length ≤ cap) :
    Text.arrayString cap s = some s := if_pos h

/-- A record that is right about itself can be formatted in each style. The text is that of the
instruction, as a function of address and bytes. -/
theorem Faithful.formatted {d : CpuDebug} (h : Faithful d) (s : Style) :
    formatted s d = some (row s d.pc d.code) := by
  have hm : (Spec.line d.pc d.code).1 = d.mnemonic := congrArg Prod.fst h.text.symm
  have ho : (Spec.line d.pc d.code).2 = d.args.opds := congrArg Prod.snd h.text.symm
  have hfit := Text.operands_fit s _ (Text.fits_line d.pc d.code)
  rw [ho, ← Text.argsText_text] at hfit
  unfold row Spec.columns
  rw [hm, ho, ← Text.argsText_text]
  rcases s with _ | ⟨up, _ | _⟩
  · unfold Z80.formatted Text.fmtDebug Text.fmtArgs
    have hfit : (Text.argsDisplay d.args).length ≤ 14 := hfit
    simp only [arrayString_fits hfit, Option.map_some, if_true]
    rfl
  · have hfit : (Text.argsHex up false d.args).length ≤ 14 := hfit
    unfold Z80.formatted Text.fmtDebugHex Text.fmtArgsHex
    simp only [arrayString_fits (Nat.le_trans hfit (Nat.le_succ 14)), Option.map_some,
      Bool.false_eq_true, if_false, Text.hex_four, Text.hex_two, Style.num16, Spec.marked, reduceCtorEq]
    have hh : "h " = "h" ++ " " := rfl
    rw [hh, ← String.append_assoc (s₁ := Spec.hex16 up d.pc)]
    rfl
  · have hfit : (Text.argsHex up true d.args).length ≤ 15 := hfit
    unfold Z80.formatted Text.fmtDebugHex Text.fmtArgsHex
    simp only [arrayString_fits hfit, Option.map_some, if_true, Text.hex_four, Text.hex_two,
      Style.num16, Spec.marked, reduceCtorEq, if_false]
    rfl

/-- C48: in all five formats, every record given to the debugger is formatted without an error, which
would make `to_string()` panic, and the text is that of the instruction, as a function of the address and
the bytes in the record: in `execute_next`, whatever the host does, -/
theorem C48_execute_next [Flavour Q] {deb : Bool} {c : Cpu Q} {t : List (Ev σ)} {r : Res σ × Cpu Q}
    (h : (executeNext deb c).Runs t r) :
    ∀ d ∈ records t, ∀ s, formatted s d = some (row s d.pc d.code) :=
  fun d hd => (C47_execute_next h d hd).formatted

/-- in `execute_instruction`, -/
theorem C48_execute_instruction [Flavour Q] {deb : Bool} {code : U8} {c : Cpu Q} {t : List (Ev σ)}
    {r : Res σ × Cpu Q} (h : (executeInstruction deb code c).Runs t r) :
    ∀ d ∈ records t, ∀ s, formatted s d = some (row s d.pc d.code) :=
  fun d hd => (C47_execute_instruction h d hd).formatted

/-- and in `irq`. -/
theorem C48_irq [Flavour Q] {deb : Bool} {c : Cpu Q} {t : List (Ev σ)} {r : Option (Res σ) × Cpu Q}
    (h : (irq deb c).Runs t r) : ∀ d ∈ records t, ∀ s, formatted s d = some (row s d.pc d.code) :=
  fun d hd => (C47_irq h d hd).formatted

/-- C48: the columns are aligned: the bytes of every instruction at every address are in the same
column. -/
theorem C48_columns (s : Style) (a : U16) (l : List U8) :
    ∃ t : String, t.length = s.indent ∧ row s a l = t ++ Spec.bytes s l := by
  refine ⟨_, ?_, rfl⟩
  have hf := Text.fits_line a l
  have ho := Text.operands_fit s _ hf
  have hm := hf.1
  have h1 : (" " : String).length = 1 := rfl
  have hx : (Spec.spaces (4 - (Spec.line a l).1.length)).length = 4 - (Spec.line a l).1.length := by
    simp [Spec.spaces]
  have hn := Text.num16_length s a
  unfold Spec.columns
  simp only [String.length_append, h1, hx]
  have hs : ∀ n, (Spec.spaces n).length = n := by intro n; simp [Spec.spaces]
  rcases s with _ | ⟨up, _ | _⟩
  · have ho : (Spec.operands .dec (Spec.line a l).2).length ≤ 14 := ho
    have hn : (Style.dec.num16 a).length ≤ 5 := hn
    simp only [if_true, String.length_append, hs, Style.indent]
    omega
  · have ho : (Spec.operands (.hex up false) (Spec.line a l).2).length ≤ 14 := ho
    have hn : ((Style.hex up false).num16 a).length = 5 := by
      simp [Style.num16, Spec.marked, Spec.hex16, String.length_append]
      decide
    simp only [reduceCtorEq, if_false, hs, hn, Style.indent]
    omega
  · have ho : (Spec.operands (.hex up true) (Spec.line a l).2).length ≤ 15 := ho
    have hn : ((Style.hex up true).num16 a).length = 6 := by
      simp [Style.num16, Spec.marked, Spec.hex16, String.length_append]
      decide
    simp only [reduceCtorEq, if_false, hs, hn, Style.indent]
    omega

/-- C48: the arguments alone are formatted with any width. -/
theorem C48_args {d : CpuDebug} (h : Faithful d) (w : Nat) :
    Text.fmtArgs (some w) d.args = some (Text.pad w (Spec.operands .dec (Spec.line d.pc d.code).2)) ∧
    ∀ up alt, Text.fmtArgsHex up alt (some w) d.args =
      some (Text.pad w (Spec.operands (.hex up alt) (Spec.line d.pc d.code).2)) := by
  have ho : (Spec.line d.pc d.code).2 = d.args.opds := congrArg Prod.snd h.text.symm
  have hfit := fun s => Text.operands_fit s _ (Text.fits_line d.pc d.code)
  simp only [ho, ← Text.argsText_text] at hfit ⊢
  constructor
  · exact congrArg (Option.map _) (arrayString_fits (hfit .dec))
  · intro up alt
    refine congrArg (Option.map _) (arrayString_fits (Nat.le_trans (hfit (.hex up alt)) ?_))
    cases alt <;> decide +revert

/-- What a record built by the user may contain need not fit. -/
theorem C48_arbitrary : ∃ d : CpuDebug, formatted (.hex false true) d = none ∧ formatted .dec d = none :=
  ⟨{ mnemonic := "LD", pc := 0, code := [], pfx := none,
     args := .double (.imm16 0xFFFF) (.addr (.indexAddr .xdd (some 0x80))) },
    by decide +kernel, by decide +kernel⟩

/-- Text written line by line up to the first error. -/
def writeAll {E S : Type} (w : String → S → Option E × S) : List String → S → Option E × S
  | [], s => (none, s)
  | t :: l, s =>
    match w t s with
    | (none, s) => writeAll w l s
    | (some e, s) => (some e, s)

namespace Disasm

theorem feed_writeLine {S : Type} (w : String → S → Option Unit × S) (ds : List CpuDebug)
    (h : ∀ d ∈ ds, Faithful d) (s : S) :
    feed (writeLine w) ds s =
      writeAll w ((ds.map shown).map fun x => row (.hex false false) x.1 x.2 ++ "\n") s := by
  induction ds generalizing s with
  | nil => rfl
  | cons d ds ih =>
    have hd : Text.fmtDebugHex false false d = some (row (.hex false false) d.pc d.code) :=
      (h d (.head _)).formatted (.hex false false)
    have hw : writeLine w d s = w (row (.hex false false) d.pc d.code ++ "\n") s := by
      rw [writeLine, hd]
    rw [feed, hw, List.map_cons, List.map_cons, writeAll]
    have e : (row (.hex false false) (shown d).1 (shown d).2 ++ "\n") =
      row (.hex false false) d.pc d.code ++ "\n" := rfl
    rw [e]
    generalize w (row (.hex false false) d.pc d.code ++ "\n") s = o
    rcases o with ⟨_ | e, s'⟩
    · exact ih (fun d hd => h d (.tail _ hd)) s'
    · rfl

/-- C48: `disasm_memory_write_text` writes one line for each instruction of the listing, in order, and
fails only if the writer does. -/
theorem C48_write_text (Q : Type) [Flavour Q] (pc : U16) (mem : List U8) :
    ∃ l, Spec.Listing pc mem l ∧
      ∀ n, 2 * mem.length < n → ∀ (S : Type) (w : String → S → Option Unit × S) (s : S),
        disasmMemoryWriteText (Cpu Q) n pc mem w s =
          some (writeAll w (l.map fun x => row (.hex false false) x.1 x.2 ++ "\n") s) := by
  obtain ⟨ds, h1, hf, h2⟩ := C47_disasm_memory Q pc mem
  refine ⟨_, h1, fun n hn S w s => ?_⟩
  rw [disasmMemoryWriteText, h2 n hn, feed_writeLine w ds hf]

/-- C48: `disasm_memory_print_text` prints the same lines and does not panic. -/
theorem C48_print_text (Q : Type) [Flavour Q] (pc : U16) (mem : List U8) :
    ∃ l, Spec.Listing pc mem l ∧ ∀ n, 2 * mem.length < n →
      disasmMemoryPrintText (Cpu Q) n pc mem =
        some (some (l.foldl (fun o x => o ++ row (.hex false false) x.1 x.2 ++ "\n") "")) := by
  obtain ⟨ds, h1, hf, h2⟩ := C47_disasm_memory Q pc mem
  refine ⟨_, h1, fun n hn => ?_⟩
  rw [disasmMemoryPrintText, h2 n hn, Option.map_some, List.foldl_map]
  refine congrArg some ?_
  clear h1 h2 hn
  generalize "" = o
  induction ds generalizing o with
  | nil => rfl
  | cons d ds ih =>
    have hd : Text.fmtDebugHex false false d = some (row (.hex false false) d.pc d.code) :=
      (hf d (.head _)).formatted (.hex false false)
    rw [feed, Option.bind_some, hd]
    exact ih (fun d hd => hf d (.tail _ hd)) _

/-- The listing of a small program. -/
example : disasmMemoryPrintText (Cpu NMOS) 30 0x8000#16
      [0x3E, 0x42, 0xDD, 0x36, 0xFD, 0x10, 0xDD, 0xCB, 0x05, 0xC6, 0xED, 0xB0, 0x18, 0xFE] =
    some (some ("8000h LD   A, 42h         [3e, 42]\n" ++
      "8002h LD   (IX-03h), 10h  [dd, 36, fd, 10]\n" ++
      "8006h SET  0, (IX+05h)    [dd, cb, 05, c6]\n" ++
      "800ah LDIR                [ed, b0]\n" ++
      "800ch JR   800ch          [18, fe]\n")) := by decide +kernel

end Disasm

/-- Lines in the other styles. -/
example : row .dec 100#16 [0xDD, 0x36, 0xFD, 0x10] = "  100 LD   (IX-3), 16     [221, 54, 253, 16]" ∧
    row (.hex true true) 0x1abc#16 [0xDD, 0x36, 0xFD, 0x1c] =
      "0x1ABC LD   (IX-0x03), 0x1C [DD, 36, FD, 1C]" := by
  constructor <;> decide +kernel

end Z80
