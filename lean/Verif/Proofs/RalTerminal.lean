import Verif.Model.RalTerminal
import Verif.Spec.RalTerminal

/-!
# The terminal of the example computer: lemmas
-/

namespace Z80.Ral.Terminal
open Spec.Terminal
open Runner (Msg)
variable {W : Type}

/-- What an operation does to a window. -/
def perform (o : Win W) (w : W) : Op → W
  | .beep => o.beep w
  | .clear => o.erase w
  | .start => o.mv w (o.curY w) (o.begX w)
  | .up => o.mv w (max (-2147483648) (o.curY w - 1)) (o.curX w)
  | .left => o.mv w (o.curY w) (max (-2147483648) (o.curX w - 1))
  | .down => o.mv w (o.curY w + 1) (o.curX w)
  | .right => o.mv w (o.curY w) (o.curX w + 1)
  | .goto y x => o.mv w y.toNat x.toNat
  | .cursor n => o.cursSet w n.toNat
  | .print c => o.addch w c

/-- The positions of the cursor of a window are of the type `i32` and below its maximum. -/
def Finite (o : Win W) : Prop := ∀ w,
  (-2147483648 ≤ o.curY w ∧ o.curY w < 2147483647) ∧ -2147483648 ≤ o.curX w ∧ o.curX w < 2147483647

/-- The state with a window after the beginning of a sequence. -/
inductive Waits (w : W) : List U8 → State W → Prop
  | nothing (r) : Waits w [] ⟨w, r, none, []⟩
  | goto (r) : Waits w [16] ⟨w, r, some 16, []⟩
  | row (r y) : Waits w [16, y] ⟨w, r, some 16, [y]⟩
  | cursor (r) : Waits w [21] ⟨w, r, some 21, []⟩

/-- Bytes one after another. -/
def receiveAll (o : Win W) : State W → List U8 → Option (State W)
  | s, [] => some s
  | s, b :: l => (receive o s b).bind fun s => receiveAll o s l

theorem succ32_ok {x : Int} (h : x < 2147483647) : succ32 x = some (x + 1) := if_neg (by omega)

theorem pred32_ok {x : Int} (h : -2147483648 ≤ x) : pred32 x = max (-2147483648) (x - 1) := by
  unfold pred32
  split <;> omega

/-- One byte. -/
theorem receive_one {o : Win W} (hf : Finite o) {w : W} {p : List U8} {s : State W} (h : Waits w p s) (b : U8) :
    ∃ s', receive o s b = some s' ∧ s'.refresh = true ∧
      ((Begun (p ++ [b]) ∧ Waits w (p ++ [b]) s') ∨ ∃ x, Code x (p ++ [b]) ∧ Waits (perform o w x) [] s') := by
  cases h with
  | goto r => exact ⟨_, rfl, rfl, .inl ⟨.row b, .row true b⟩⟩
  | row r y => exact ⟨_, rfl, rfl, .inr ⟨.goto y b, .goto y b, .nothing true⟩⟩
  | cursor r => exact ⟨_, rfl, rfl, .inr ⟨.cursor b, .cursor b, .nothing true⟩⟩
  | nothing r =>
    show ∃ s', single o ⟨w, true, none, []⟩ b = some s' ∧ _
    unfold single
    by_cases h1 : b = 0x07
    · subst h1; exact ⟨_, rfl, rfl, .inr ⟨.beep, .beep, .nothing true⟩⟩
    rw [if_neg h1]
    by_cases h2 : b = 0x0C
    · subst h2; exact ⟨_, rfl, rfl, .inr ⟨.clear, .clear, .nothing true⟩⟩
    rw [if_neg h2]
    by_cases h3 : b = 0x0D
    · subst h3; exact ⟨_, rfl, rfl, .inr ⟨.start, .start, .nothing true⟩⟩
    rw [if_neg h3]
    by_cases h4 : b = 0x10 ∨ b = 0x15
    · rw [if_pos h4]
      rcases h4 with h4 | h4
      · subst h4; exact ⟨_, rfl, rfl, .inl ⟨.goto, .goto true⟩⟩
      · subst h4; exact ⟨_, rfl, rfl, .inl ⟨.cursor, .cursor true⟩⟩
    rw [if_neg h4]
    by_cases h5 : b = 0x11
    · subst h5
      rw [if_pos rfl, pred32_ok (hf w).1.1]
      exact ⟨_, rfl, rfl, .inr ⟨.up, .up, .nothing true⟩⟩
    rw [if_neg h5]
    by_cases h6 : b = 0x12
    · subst h6
      rw [if_pos rfl, pred32_ok (hf w).2.1]
      exact ⟨_, rfl, rfl, .inr ⟨.left, .left, .nothing true⟩⟩
    rw [if_neg h6]
    by_cases h7 : b = 0x0A ∨ b = 0x13
    · rw [if_pos h7, succ32_ok (hf w).1.2]
      refine ⟨_, rfl, rfl, .inr ⟨.down, ?_, .nothing true⟩⟩
      rcases h7 with h7 | h7
      · subst h7; exact .newline
      · subst h7; exact .down
    rw [if_neg h7]
    by_cases h8 : b = 0x14
    · subst h8
      rw [if_pos rfl, succ32_ok (hf w).2.2]
      exact ⟨_, rfl, rfl, .inr ⟨.right, .right, .nothing true⟩⟩
    rw [if_neg h8]
    refine ⟨_, rfl, rfl, .inr ⟨.print b, .print b ?_, .nothing true⟩⟩
    simp only [not_or] at h4 h7
    simp only [List.mem_cons, List.not_mem_nil, or_false, not_or]
    exact ⟨h1, h7.1, h2, h3, h4.1, h5, h6, h7.2, h8, h4.2⟩

/-- Bytes after the beginning of a sequence. -/
theorem receive_from {o : Win W} (hf : Finite o) : ∀ (l p : List U8) (w : W) (s : State W), Waits w p s → Begun p →
    ∃ ops q s', Says (p ++ l) ops q ∧ receiveAll o s l = some s' ∧ Waits (ops.foldl (perform o) w) q s'
  | [], p, w, s, h, hb => ⟨[], p, s, by rw [List.append_nil]; exact .rest hb, rfl, h⟩
  | b :: l, p, w, s, h, hb => by
    obtain ⟨s1, e1, _, h1⟩ := receive_one hf h b
    have e : p ++ b :: l = (p ++ [b]) ++ l := by rw [List.append_assoc]; rfl
    rcases h1 with ⟨h1, h2⟩ | ⟨x, h1, h2⟩
    · obtain ⟨ops, q, s', a1, a2, a3⟩ := receive_from hf l _ w s1 h2 h1
      exact ⟨ops, q, s', by rw [e]; exact a1, by rw [receiveAll, e1]; exact a2, a3⟩
    · obtain ⟨ops, q, s', a1, a2, a3⟩ := receive_from hf l [] _ s1 h2 .nothing
      exact ⟨x :: ops, q, s', by rw [e]; exact .op h1 a1, by rw [receiveAll, e1]; exact a2, a3⟩

end Z80.Ral.Terminal
