import Verif.Proofs.RalChain
import Verif.Proofs.RalTimer

/-!
# Interrupt vectors written by the program
-/

namespace Z80.Ral

/-- What is written to a channel of a counter/timer is a vector iff no time constant is awaited and bit 0 is 0. -/
theorem CtcChannel.writeControl_word {W : Type} {t : Triggers W} {i : Fin 4} {data : U8} {ts : Nat}
    {c c' : CtcChannel} {w w' : W} {b : Bool} (h : c.writeControl t i data ts w = some (b, c', w')) :
    b = (c.awaiting || data.getLsbD 0) := by
  unfold writeControl at h
  simp only [Option.bind_eq_bind, Option.bind_eq_some_iff] at h
  obtain ⟨⟨c1, w1⟩, h1, h⟩ := h
  have ha : c1.awaiting = c.awaiting := congrArg (·.2.2.2.1) (process_setup h1)
  dsimp only at h
  split at h
  · rename_i hc
    rw [ha] at hc
    simp only [Option.bind_eq_some_iff] at h
    obtain ⟨_, _, h⟩ := h
    cases h
    rw [hc, Bool.true_or]
  · rename_i hc
    rw [ha, Bool.not_eq_true] at hc
    split at h
    · rename_i hd
      rw [hd, Bool.or_true]
      simp only [Option.bind_eq_some_iff] at h
      obtain ⟨_, _, h⟩ := h
      split at h
      · simp only [Option.bind_eq_some_iff] at h
        obtain ⟨_, _, h⟩ := h
        cases h
        rfl
      · cases h
        rfl
    · rename_i hd
      rw [Bool.not_eq_true] at hd
      cases h
      rw [hc, hd]
      rfl

/-- Writing data to a channel of parallel ports leaves its vector. -/
theorem PioChannel.writeData_vector {P : Type} {p : PioDev P} {data : U8} {ts : Nat} {c c' : PioChannel P}
    (h : c.writeData p data ts = some c') : c'.vector = c.vector := by
  simp only [writeData] at h
  split at h
  · simp only [Option.map_eq_some_iff] at h
    obtain ⟨_, _, h⟩ := h
    subst h
    split
    · split <;> rfl
    · rfl
  · cases h
    rfl

/-- A control word of a channel of parallel ports. -/
theorem PioChannel.writeControl_vector {P : Type} {p : PioDev P} {data : U8} {ts : Nat} {c c' : PioChannel P}
    (h : c.writeControl p data ts = some c') :
    c'.vector = if data.getLsbD 0 = false then data else c.vector := by
  unfold writeControl at h
  split at h
  · rename_i hd
    cases h
    rw [if_pos hd]
  · rename_i hd
    rw [if_neg hd]
    (repeat' split at h) <;> cases h <;> rfl

end Z80.Ral
