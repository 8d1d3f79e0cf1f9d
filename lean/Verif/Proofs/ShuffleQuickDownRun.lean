import Verif.Proofs.ShuffleQuickRun

/-!
# The quick sort routine for descending order: loops

`/repo/tests/shuffle/shuffle.bin` 486-572 on the specified machine. DE and HL change their roles.
-/

set_option linter.unusedVariables false

namespace Z80.Routine.Down
open Spec Spec.Shuffle
variable {w : Nat} {O R I : Type} {o : Opt} {v : Env w O R I}

/-- Only A, C, the flags, PC and time may have changed. -/
structure Same (c d : Core) : Prop where
  mem : d.mem = c.mem
  sp : d.sp = c.sp
  pivot : d.b = c.b
  de : d.de = c.de
  hl : d.hl = c.hl

/-- Comparison of DE with HL, 0x211 to 0x217. -/
theorem qaCmp {c : Core} (hm : Loaded c.mem) (hp : c.pc = 0x211) : ∃ d : Core, Run o v c d ∧ d.pc = 0x217 ∧ Same c d ∧
    d.f.c = decide (c.de.toNat < c.hl.toNat) ∧ d.f.z = decide (c.de = c.hl) := by
  obtain ⟨a, f, b, c, d, e, h, l, a', f', b', c', d', e', h', l', sp, pc, m, t⟩ := c
  simp only at hm hp ⊢
  subst hp
  by_cases hd : d = h
  · subst hd
    refine ⟨?_, ?_, ?_⟩
    rotate_left
    · exec ldAD hm
      exec cpH hm
      exec jrNzNot hm if (by simp only [cp8_z]; decide)
      exec ldAE hm
      exec cpL hm
      exact .refl _
    · refine ⟨rfl, ⟨rfl, rfl, rfl, rfl, rfl⟩, ?_, ?_⟩
      · simp only [cp8_c]; exact decide_eq_decide.2 less_low.1
      · simp only [cp8_z]; exact decide_eq_decide.2 less_low.2
  · refine ⟨?_, ?_, ?_⟩
    rotate_left
    · exec ldAD hm
      exec cpH hm
      exec jrNz hm goto 0x217 rel 2 if (by simp only [cp8_z, hd]; decide)
      exact .refl _
    · refine ⟨rfl, ⟨rfl, rfl, rfl, rfl, rfl⟩, ?_, ?_⟩
      · simp only [cp8_c]; exact decide_eq_decide.2 (less_bytes hd).1
      · simp only [cp8_z]; exact decide_eq_decide.2 ⟨fun h => absurd h hd, fun h => absurd h (less_bytes hd).2⟩

/-- Comparison of HL with DE, 0x228 to 0x22E. -/
theorem qaCmp2 {c : Core} (hm : Loaded c.mem) (hp : c.pc = 0x228) : ∃ d : Core, Run o v c d ∧ d.pc = 0x22E ∧ Same c d ∧
    d.f.c = decide (c.hl.toNat < c.de.toNat) := by
  obtain ⟨a, f, b, c, d, e, h, l, a', f', b', c', d', e', h', l', sp, pc, m, t⟩ := c
  simp only at hm hp ⊢
  subst hp
  by_cases hd : h = d
  · subst hd
    refine ⟨?_, ?_, ?_⟩
    rotate_left
    · exec ldAH hm
      exec cpD hm
      exec jrNzNot hm if (by simp only [cp8_z]; decide)
      exec ldAL hm
      exec cpE hm
      exact .refl _
    · refine ⟨rfl, ⟨rfl, rfl, rfl, rfl, rfl⟩, ?_⟩
      simp only [cp8_c]; exact decide_eq_decide.2 less_low.1
  · refine ⟨?_, ?_, ?_⟩
    rotate_left
    · exec ldAH hm
      exec cpD hm
      exec jrNz hm goto 0x22E rel 2 if (by simp only [cp8_z, hd]; decide)
      exact .refl _
    · refine ⟨rfl, ⟨rfl, rfl, rfl, rfl, rfl⟩, ?_⟩
      simp only [cp8_c]; exact decide_eq_decide.2 (less_bytes hd).1

/-- Comparison of HL with DE, 0x233 to 0x239. -/
theorem qaCmp3 {c : Core} (hm : Loaded c.mem) (hp : c.pc = 0x233) : ∃ d : Core, Run o v c d ∧ d.pc = 0x239 ∧ Same c d ∧
    d.f.c = decide (c.hl.toNat < c.de.toNat) := by
  obtain ⟨a, f, b, c, d, e, h, l, a', f', b', c', d', e', h', l', sp, pc, m, t⟩ := c
  simp only at hm hp ⊢
  subst hp
  by_cases hd : h = d
  · subst hd
    refine ⟨?_, ?_, ?_⟩
    rotate_left
    · exec ldAH hm
      exec cpD hm
      exec jrNzNot hm if (by simp only [cp8_z]; decide)
      exec ldAL hm
      exec cpE hm
      exact .refl _
    · refine ⟨rfl, ⟨rfl, rfl, rfl, rfl, rfl⟩, ?_⟩
      simp only [cp8_c]; exact decide_eq_decide.2 less_low.1
  · refine ⟨?_, ?_, ?_⟩
    rotate_left
    · exec ldAH hm
      exec cpD hm
      exec jrNz hm goto 0x239 rel 2 if (by simp only [cp8_z, hd]; decide)
      exact .refl _
    · refine ⟨rfl, ⟨rfl, rfl, rfl, rfl, rfl⟩, ?_⟩
      simp only [cp8_c]; exact decide_eq_decide.2 (less_bytes hd).1

/-- The beginning: 0x1E6 to 0x1F4. -/
theorem qaStart {c : Core} (hm : Loaded c.mem) (hp : c.pc = 0x1E6) : ∃ d : Core, Run o v c d ∧ d.pc = 0x1F4 ∧
    d.mem = c.mem ∧ d.sp = c.sp ∧ d.hl = 0x2CC ∧ d.de = 0x3CB := by
  obtain ⟨a, f, b, c, d, e, h, l, a', f', b', c', d', e', h', l', sp, pc, m, t⟩ := c
  simp only at hm hp ⊢
  subst hp
  have e1 : (cp8 (hi8 971) (hi8 716)).z = false := by decide
  have e2 : (cp8 (hi8 971) (hi8 716)).c = false := by decide
  refine ⟨?_, ?_, ?_⟩
  rotate_left
  · exec ldHlNN hm arg16 0x2CC
    exec ldDeNN hm arg16 0x3CB
    exec ldAD hm
    exec cpH hm
    exec jrNz hm goto 0x1F2 rel 2 if (by simp only [e1]; decide)
    exec retCNot hm if (by simp only [e2]; decide)
    exec retZNot hm if (by simp only [e1]; decide)
    exact .refl _
  · exact ⟨rfl, rfl, rfl, word_hi8_lo8 _, word_hi8_lo8 _⟩

/-- The next element from above: 0x20C to 0x20C or 0x211. -/
theorem qaUp1 {c : Core} (hm : Loaded c.mem) (hp : c.pc = 0x20C) : ∃ d : Core, Run o v c d ∧
    d.pc = (if (c.mem (c.de - 1)).toNat < c.b.toNat then 0x20C else 0x211) ∧ d.mem = c.mem ∧ d.sp = c.sp ∧
    d.b = c.b ∧ d.de = c.de - 1 ∧ d.hl = c.hl := by
  obtain ⟨a, f, b, c, d, e, h, l, a', f', b', c', d', e', h', l', sp, pc, m, t⟩ := c
  simp only at hm hp ⊢
  subst hp
  by_cases hc : (m (word d e - 1)).toNat < b.toNat
  · rw [if_pos hc]
    refine ⟨?_, ?_, ?_⟩
    rotate_left
    · exec decDe hm
      exec ldADe hm
      exec cpB hm
      exec jrC hm goto 0x20C rel 0xFB if (by simp only [cp8_c, hc]; decide)
      exact .refl _
    · exact ⟨rfl, rfl, rfl, rfl, word_hi8_lo8 _, rfl⟩
  · rw [if_neg hc]
    refine ⟨?_, ?_, ?_⟩
    rotate_left
    · exec decDe hm
      exec ldADe hm
      exec cpB hm
      exec jrCNot hm if (by simp only [cp8_c, hc]; decide)
      exact .refl _
    · exact ⟨rfl, rfl, rfl, rfl, word_hi8_lo8 _, rfl⟩

/-- The first element from above: 0x208 to 0x20C or 0x211. -/
theorem qaUp0 {c : Core} (hm : Loaded c.mem) (hp : c.pc = 0x208) : ∃ d : Core, Run o v c d ∧
    d.pc = (if (c.mem c.de).toNat < c.b.toNat then 0x20C else 0x211) ∧ Same c d := by
  obtain ⟨a, f, b, c, d, e, h, l, a', f', b', c', d', e', h', l', sp, pc, m, t⟩ := c
  simp only at hm hp ⊢
  subst hp
  by_cases hc : (m (word d e)).toNat < b.toNat
  · rw [if_pos hc]
    refine ⟨?_, ?_, ?_⟩
    rotate_left
    · exec ldADe hm
      exec cpB hm
      exec jrNcNot hm if (by simp only [cp8_c, hc]; decide)
      exact .refl _
    · exact ⟨rfl, rfl, rfl, rfl, rfl, rfl⟩
  · rw [if_neg hc]
    refine ⟨?_, ?_, ?_⟩
    rotate_left
    · exec ldADe hm
      exec cpB hm
      exec jrNc hm goto 0x211 rel 5 if (by simp only [cp8_c, hc]; decide)
      exact .refl _
    · exact ⟨rfl, rfl, rfl, rfl, rfl, rfl⟩

/-- The next element from below: 0x204 to 0x204 or 0x208; A holds the pivot. -/
theorem qaDown1 {c : Core} (hm : Loaded c.mem) (hp : c.pc = 0x204) (ha : c.a = c.b) : ∃ d : Core, Run o v c d ∧
    d.pc = (if c.b.toNat < (c.mem (c.hl + 1)).toNat then 0x204 else 0x208) ∧ d.mem = c.mem ∧ d.sp = c.sp ∧
    d.b = c.b ∧ d.de = c.de ∧ d.hl = c.hl + 1 ∧ d.a = d.b := by
  obtain ⟨a, f, b, c, d, e, h, l, a', f', b', c', d', e', h', l', sp, pc, m, t⟩ := c
  simp only at hm hp ha ⊢
  subst hp ha
  by_cases hc : a.toNat < (m (word h l + 1)).toNat
  · rw [if_pos hc]
    refine ⟨?_, ?_, ?_⟩
    rotate_left
    · exec incHl hm
      exec cpM hm
      exec jrC hm goto 0x204 rel 0xFC if (by simp only [cp8_c, hc]; decide)
      exact .refl _
    · exact ⟨rfl, rfl, rfl, rfl, rfl, word_hi8_lo8 _, rfl⟩
  · rw [if_neg hc]
    refine ⟨?_, ?_, ?_⟩
    rotate_left
    · exec incHl hm
      exec cpM hm
      exec jrCNot hm if (by simp only [cp8_c, hc]; decide)
      exact .refl _
    · exact ⟨rfl, rfl, rfl, rfl, rfl, word_hi8_lo8 _, rfl⟩

/-- The first element from below: 0x200 to 0x204 or 0x208. -/
theorem qaDown0 {c : Core} (hm : Loaded c.mem) (hp : c.pc = 0x200) : ∃ d : Core, Run o v c d ∧
    d.pc = (if c.b.toNat < (c.mem c.hl).toNat then 0x204 else 0x208) ∧ Same c d ∧ d.a = d.b := by
  obtain ⟨a, f, b, c, d, e, h, l, a', f', b', c', d', e', h', l', sp, pc, m, t⟩ := c
  simp only at hm hp ⊢
  subst hp
  by_cases hc : b.toNat < (m (word h l)).toNat
  · rw [if_pos hc]
    refine ⟨?_, ?_, ?_⟩
    rotate_left
    · exec ldAB hm
      exec cpM hm
      exec jrNcNot hm if (by simp only [cp8_c, hc]; decide)
      exact .refl _
    · exact ⟨rfl, ⟨rfl, rfl, rfl, rfl, rfl⟩, rfl⟩
  · rw [if_neg hc]
    refine ⟨?_, ?_, ?_⟩
    rotate_left
    · exec ldAB hm
      exec cpM hm
      exec jrNc hm goto 0x208 rel 4 if (by simp only [cp8_c, hc]; decide)
      exact .refl _
    · exact ⟨rfl, ⟨rfl, rfl, rfl, rfl, rfl⟩, rfl⟩

/-- After the comparison: 0x217 to 0x227 or 0x200. -/
theorem qaMeet {c : Core} (hm : Loaded c.mem) (hp : c.pc = 0x217) (hc : c.f.c = decide (c.de.toNat < c.hl.toNat))
    (hz : c.f.z = decide (c.de = c.hl)) (h1 : 712 ≤ c.hl.toNat) (h2 : 712 ≤ c.de.toNat) : ∃ d : Core, Run o v c d ∧
    d.sp = c.sp ∧ d.b = c.b ∧
    (c.de.toNat < c.hl.toNat ∧ d.pc = 0x227 ∧ d.mem = c.mem ∧ d.de = c.de ∧ d.hl = c.hl ∨
     c.de = c.hl ∧ d.pc = 0x227 ∧ d.mem = c.mem ∧ d.de = c.de - 1 ∧ d.hl = c.hl + 1 ∨
     c.hl.toNat < c.de.toNat ∧ d.pc = 0x200 ∧ d.mem = put (put c.mem c.hl (c.mem c.de)) c.de (c.mem c.hl) ∧
      d.de = c.de - 1 ∧ d.hl = c.hl + 1) := by
  obtain ⟨a, f, b, c, d, e, h, l, a', f', b', c', d', e', h', l', sp, pc, m, t⟩ := c
  simp only at hm hp hc hz h1 h2 ⊢
  subst hp
  by_cases hl : (word d e).toNat < (word h l).toNat
  · refine ⟨?_, ?_, ?_⟩
    rotate_left
    · exec jrC hm goto 0x227 rel 0x0E if (by rw [hc]; exact decide_eq_true hl)
      exact .refl _
    · exact ⟨rfl, rfl, .inl ⟨hl, rfl, rfl, rfl, rfl⟩⟩
  · by_cases he : word d e = word h l
    · refine ⟨?_, ?_, ?_⟩
      rotate_left
      · exec jrCNot hm if (by rw [hc, decide_eq_false hl]; decide)
        exec jrZ hm goto 0x225 rel 0x0A if (by rw [hz]; exact decide_eq_true he)
        exec incHl hm
        exec decDe hm
        exact .refl _
      · exact ⟨rfl, rfl, .inr (.inl ⟨he, rfl, rfl, word_hi8_lo8 _, word_hi8_lo8 _⟩)⟩
    · have hg : (word h l).toNat < (word d e).toNat := by
        have : (word d e).toNat ≠ (word h l).toNat := fun h => he (BitVec.eq_of_toNat_eq h)
        omega
      refine ⟨?_, ?_, ?_⟩
      rotate_left
      · exec jrCNot hm if (by rw [hc, decide_eq_false hl]; decide)
        exec jrZNot hm if (by rw [hz, decide_eq_false he]; decide)
        exec ldCM hm
        exec ldADe hm
        exec ldMA hm
        have hm1 := loaded_put hm (m (word d e)) h1
        exec ldAC hm1
        exec ldDeA hm1
        have hm2 := loaded_put hm1 (m (word h l)) h2
        exec incHl hm2
        exec decDe hm2
        exec jp hm2 arg16 0x200
        exact .refl _
      · exact ⟨rfl, rfl, .inr (.inr ⟨hg, rfl, rfl, word_hi8_lo8 _, word_hi8_lo8 _⟩)⟩

/-- Before the scan: 0x1F4 to 0x200. -/
theorem qaEnter {c : Core} (hm : Loaded c.mem) (hp : c.pc = 0x1F4) (hs : 718 ≤ c.sp.toNat)
    (hx : c.de.toNat + c.hl.toNat < 65536) : ∃ d : Core, Run o v c d ∧ d.pc = 0x200 ∧ d.sp = c.sp - 2 - 2 ∧
    d.mem = push (push c.mem c.sp c.de) (c.sp - 2) c.hl ∧ d.de = c.de ∧ d.hl = c.hl ∧
    d.b = d.mem (BitVec.ofNat 16 ((c.de.toNat + c.hl.toNat) / 2)) := by
  obtain ⟨a, f, b, c, d, e, h, l, a', f', b', c', d', e', h', l', sp, pc, m, t⟩ := c
  simp only at hm hp hs hx ⊢
  subst hp
  refine ⟨?_, ?_, ?_⟩
  rotate_left
  · exec pushDe hm
    have hm1 := loaded_push hm (word d e) (by omega : 714 ≤ sp.toNat)
    exec pushHl hm1
    have hm2 := loaded_push hm1 (word h l) (by bv_omega : 714 ≤ (sp - 2).toNat)
    exec ldCL hm2
    exec ldAH hm2
    exec addHlDe hm2
    exec rrH hm2 two
    exec rrL hm2 two
    exec ldBM hm2
    exec ldHA hm2
    exec ldLC hm2
    exact .refl _
  · exact ⟨rfl, rfl, rfl, rfl, rfl, by dsimp only; rw [half (word d e) (word h l) f hx]⟩

/-- After the partition: 0x227 to 0x228. -/
theorem qaExch {c : Core} (hm : Loaded c.mem) (hp : c.pc = 0x227) (hs : 712 ≤ c.sp.toNat) (hs2 : c.sp.toNat < 65535) :
    ∃ d : Core, Run o v c d ∧ d.pc = 0x228 ∧ d.sp = c.sp ∧ d.de = c.de ∧
    d.hl = word (c.mem (c.sp + 1)) (c.mem c.sp) ∧ d.mem = put (put c.mem (c.sp + 1) (hi8 c.hl)) c.sp (lo8 c.hl) := by
  rw [hi8_word, lo8_word]
  obtain ⟨a, f, b, c, d, e, h, l, a', f', b', c', d', e', h', l', sp, pc, m, t⟩ := c
  simp only at hm hp hs hs2 ⊢
  subst hp
  refine ⟨?_, ?_, ?_⟩
  rotate_left
  · exec exSpHl hm
    exact .refl _
  · exact ⟨rfl, rfl, rfl, rfl, rfl⟩

/-- The call for the lower part: 0x22E to 0x1F4 or 0x231. -/
theorem qaCall {c : Core} (hm : Loaded c.mem) (hp : c.pc = 0x22E) : ∃ d : Core, Run o v c d ∧ d.de = c.de ∧ d.hl = c.hl ∧
    (c.f.c = true ∧ d.pc = 0x1F4 ∧ d.sp = c.sp - 2 ∧ d.mem = push c.mem c.sp 0x231 ∨
     c.f.c = false ∧ d.pc = 0x231 ∧ d.sp = c.sp ∧ d.mem = c.mem) := by
  obtain ⟨a, f, b, c, d, e, h, l, a', f', b', c', d', e', h', l', sp, pc, m, t⟩ := c
  simp only at hm hp ⊢
  subst hp
  cases hf : f.c with
  | true =>
    refine ⟨?_, ?_, ?_⟩
    rotate_left
    · exec callC hm arg16 0x1F4 if hf
      exact .refl _
    · exact ⟨rfl, rfl, .inl ⟨rfl, rfl, rfl, rfl⟩⟩
  | false =>
    refine ⟨?_, ?_, ?_⟩
    rotate_left
    · exec callCNot hm if (by rw [hf]; decide)
      exact .refl _
    · exact ⟨rfl, rfl, .inr ⟨rfl, rfl, rfl, rfl⟩⟩

/-- Back from the lower part: 0x231 to 0x233. -/
theorem qaPop {c : Core} (hm : Loaded c.mem) (hp : c.pc = 0x231) : ∃ d : Core, Run o v c d ∧ d.pc = 0x233 ∧
    d.mem = c.mem ∧ d.sp = c.sp + 2 + 2 ∧ d.hl = word (c.mem (c.sp + 1)) (c.mem c.sp) ∧
    d.de = word (c.mem (c.sp + 2 + 1)) (c.mem (c.sp + 2)) := by
  obtain ⟨a, f, b, c, d, e, h, l, a', f', b', c', d', e', h', l', sp, pc, m, t⟩ := c
  simp only at hm hp ⊢
  subst hp
  refine ⟨?_, ?_, ?_⟩
  rotate_left
  · exec popHl hm
    exec popDe hm
    exact .refl _
  · exact ⟨rfl, rfl, rfl, rfl, rfl⟩

/-- The jump for the upper part or the return: 0x239. -/
theorem qaTail {c : Core} (hm : Loaded c.mem) (hp : c.pc = 0x239) : ∃ d : Core, Run o v c d ∧ d.mem = c.mem ∧
    (c.f.c = true ∧ d.pc = 0x1F4 ∧ d.sp = c.sp ∧ d.de = c.de ∧ d.hl = c.hl ∨
     c.f.c = false ∧ d.pc = word (c.mem (c.sp + 1)) (c.mem c.sp) ∧ d.sp = c.sp + 2) := by
  obtain ⟨a, f, b, c, d, e, h, l, a', f', b', c', d', e', h', l', sp, pc, m, t⟩ := c
  simp only at hm hp ⊢
  subst hp
  cases hf : f.c with
  | true =>
    refine ⟨?_, ?_, ?_⟩
    rotate_left
    · exec jpC hm arg16 0x1F4 if hf
      exact .refl _
    · exact ⟨rfl, .inl ⟨rfl, rfl, rfl, rfl, rfl⟩⟩
  | false =>
    refine ⟨?_, ?_, ?_⟩
    rotate_left
    · exec jpCNot hm if (by rw [hf]; decide)
      exec ret hm
      exact .refl _
    · exact ⟨rfl, .inr ⟨rfl, rfl, rfl⟩⟩

end Z80.Routine.Down
