import Verif.Proofs.RalMemory

/-!
# C55: the banked memory of the example computer
-/

namespace Z80.Ral
open Spec.Ral (Op Ans Banks Owned)

/-- **C55.** Every sequence of opcode fetches, reads, word reads, writes, and of selecting, attaching and ejecting
EX-ROMs answers what the memory map says. It panics only when there is no slot for an EX-ROM, and the raw pointer is
never read after what it points to is gone. -/
theorem C55_map (rom : List U8) (kilos : Nat) (ops : List Op) (h : Owned [] ops) (m : Memory)
    (hm : Memory.new rom kilos = some m) :
    (m.steps ops).map Prod.fst = ((Banks.new rom kilos).run ops).map Prod.fst := by
  obtain ⟨hs, hh⟩ := maps_new rom kilos m hm
  exact (hs.steps ops (hh ▸ h)).1

/-- A memory is made of any ROM of up to 8 kilobytes and up to 48 kilobytes of RAM. -/
theorem C55_new (rom : List U8) (kilos : Nat) :
    (∃ m, Memory.new rom kilos = some m) ↔ rom.length ≤ 0x2000 ∧ kilos ≤ 48 := by
  unfold Memory.new makeRom
  constructor
  · rintro ⟨m, h⟩
    split at h
    · cases h
    · rename_i b hb
      split at h
      · rename_i hk
        split at hb
        · rename_i hr; exact ⟨hr, by omega⟩
        · cases hb
      · cases h
  · rintro ⟨hr, hk⟩
    simp only [if_pos hr]
    rw [if_pos (by omega)]
    exact ⟨_, rfl⟩

/-- **C55.** A word is read as the two bytes at the address and the next one, across the ends of banks, of the RAM and
of the address space. -/
theorem C55_word (rom : List U8) (kilos : Nat) (ops : List Op) (h : Owned [] ops) (m m' : Memory) (xs : List Ans)
    (hm : Memory.new rom kilos = some m) (hs : m.steps ops = some (xs, m')) (a : U16) :
    ∃ lo hi, m'.readMem a = some lo ∧ m'.readMem (a + 1) = some hi ∧ m'.readMem16 a = some (hi ++ lo) := by
  obtain ⟨h0, hh⟩ := maps_new rom kilos m hm
  obtain ⟨s, -, h'⟩ := (h0.steps ops (hh ▸ h)).2 xs m' hs
  exact ⟨_, _, h'.readDebug a, h'.readDebug (a + 1), h'.readMem16 a⟩

theorem rom_step (m m' : Memory) (o : Op) (x : Ans) (h : m.step o = some (x, m')) : m'.rom = m.rom := by
  cases o with
  | fetch pc =>
    simp only [Memory.step, Memory.readOpcode] at h
    split at h
    · cases h; split <;> rfl
    · split at h
      · simp only [Option.map_map, Option.map_eq_some_iff] at h
        obtain ⟨v, -, h⟩ := h
        cases h; split <;> rfl
      · cases h; split <;> rfl
  | read a =>
    simp only [Memory.step, Option.map_eq_some_iff] at h
    obtain ⟨v, -, h⟩ := h; cases h; rfl
  | read16 a =>
    simp only [Memory.step, Option.map_eq_some_iff] at h
    obtain ⟨v, -, h⟩ := h; cases h; rfl
  | peek a =>
    simp only [Memory.step, Option.map_eq_some_iff] at h
    obtain ⟨v, -, h⟩ := h; cases h; rfl
  | write a v =>
    cases h
    unfold Memory.writeMem
    split
    · rfl
    · split <;> rfl
    · rfl
  | ctrlRead => cases h; rfl
  | ctrlWrite n => cases h; unfold Memory.writeCtrl Memory.exromToBank1; dsimp only; (repeat' split) <;> rfl
  | attach b d =>
    simp only [Memory.step, Memory.attachExrom, Option.map_eq_some_iff] at h
    obtain ⟨y, hy, h⟩ := h
    split at hy
    · cases hy
    · cases hy
    · cases hy; cases h; split <;> rfl
  | eject => cases h; rfl

/-- **C55.** Nothing changes the first 8 kilobytes. -/
theorem C55_rom : ∀ (ops : List Op) (m m' : Memory) (xs : List Ans), m.steps ops = some (xs, m') →
    ∀ a : U16, a.toNat < 0x2000 → m'.readMem a = m.readMem a
  | [], m, m', xs, h, a, _ => by cases h; rfl
  | o :: l, m, m', xs, h, a, ha => by
    simp only [Memory.steps] at h
    split at h
    · cases h
    · rename_i x m1 hx
      simp only [Option.map_eq_some_iff] at h
      obtain ⟨y, hy, h⟩ := h
      cases h
      rw [C55_rom l m1 _ _ hy a ha]
      have e : bank a = 0 := by unfold bank; omega
      simp only [Memory.readMem, Memory.readDebug, e, Memory.readRom, rom_step m m1 o x hx]

theorem attach_go : ∀ (l : List (Nat × Block)) (m : Memory), m.exroms.length + l.length ≤ 256 →
    Memory.attachExroms.go l m = (m.steps (l.map fun x => .attach x.1 x.2)).map Prod.snd ∧
    ((m.steps (l.map fun x => .attach x.1 x.2)).isSome)
  | [], m, _ => ⟨rfl, rfl⟩
  | x :: l, m, h => by
    simp only [List.length_cons] at h
    obtain ⟨k, hk⟩ : ∃ k, 256 - m.exroms.length = k + 1 := ⟨255 - m.exroms.length, by omega⟩
    have hs : m.exroms.length ≤ 256 := by omega
    obtain ⟨m', n, e, hl⟩ : ∃ m' n, m.attachExrom x = some (n, m') ∧ m'.exroms.length = m.exroms.length + 1 := by
      simp only [Memory.attachExrom, Memory.freeExromSlots, if_pos hs, hk]
      exact ⟨_, _, rfl, by split <;> simp [Memory.exromToBank1]⟩
    obtain ⟨h1, h2⟩ := attach_go l m' (by omega)
    simp only [Memory.attachExroms.go, e, List.map_cons, Memory.steps, Memory.step, Option.map_some, h1]
    exact ⟨by rw [Option.map_map]; rfl, by simpa using h2⟩

/-- **C55.** Attaching a collection attaches as many as there are free slots, one after another, and never panics. -/
theorem C55_attach_all (m : Memory) (l : List (Nat × Block)) (h : m.exroms.length ≤ 256) :
    ∃ xs m', m.steps ((l.take (256 - m.exroms.length)).map fun x => .attach x.1 x.2) = some (xs, m') ∧
      m.attachExroms l = some (min l.length (256 - m.exroms.length), m') := by
  have ht : l.take (min l.length (256 - m.exroms.length)) = l.take (256 - m.exroms.length) := by
    rw [Nat.min_comm, ← List.take_take, List.take_length]
  obtain ⟨h1, h2⟩ := attach_go (l.take (256 - m.exroms.length)) m (by simp only [List.length_take]; omega)
  obtain ⟨⟨xs, m'⟩, e⟩ := Option.isSome_iff_exists.1 h2
  refine ⟨xs, m', e, ?_⟩
  simp only [Memory.attachExroms, Memory.freeExromSlots, if_pos h, ht, h1, e, Option.map_some]

/-- Two EX-ROMs, the second one selected: the program in RAM sees it, the one in ROM sees RAM in its place, and after
ejecting there is nothing. -/
example :
    let ops : List Op := [.attach 7 (fun _ => 0x11), .attach 8 (fun i => if i = 0 then 0x22 else 0x33), .ctrlWrite 1,
      .read 0x2000, .read16 0x1FFF, .fetch 0x0000, .write 0x2000 0x44, .read 0x2000, .fetch 0x4000, .read16 0x2000,
      .eject, .read 0x2000, .read16 0xFFFF]
    Owned [] ops ∧ ((Memory.new [0x5A] 48).bind fun m => (m.steps ops).map Prod.fst) =
      some [.count 1, .count 2, .none, .byte 0x22, .word 0x22FF, .byte 0x5A, .none, .byte 0x44, .byte 0x00,
        .word 0x3322, .boxes [7, 8], .byte 0xFF, .word 0x5A00] := by
  refine ⟨by simp [Owned], ?_⟩
  obtain ⟨m, hm⟩ := (C55_new [0x5A] 48).2 ⟨by decide, by decide⟩
  rw [hm, Option.bind_some, C55_map _ _ _ (by simp [Owned]) m hm]
  decide +kernel

end Z80.Ral
