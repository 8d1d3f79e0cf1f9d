import Verif.Proofs.Disasm

/-!
# C39: the disassembler
-/

namespace Z80.Disasm
open Spec (Listing)

variable {Q E S : Type}

/-- The records handed to the callback one after the other, up to the first error. -/
def feed (f : CpuDebug → S → Option E × S) : List CpuDebug → S → Option E × S
  | [], s => (none, s)
  | d :: ds, s =>
    match f d s with
    | (some e, s) => (some e, s)
    | (none, s) => feed f ds s

/-- Address and bytes of a record. -/
def shown (d : CpuDebug) : U16 × List U8 := (d.pc, d.code)

theorem length_indep {e : Bool} {b x y : U8} (h : Spec.decode b ≠ .ed) :
    Spec.length e b x = Spec.length e b y := by
  unfold Spec.length
  rw [if_neg h, if_neg h]

theorem length_ed {e : Bool} {b x : U8} (h : Spec.decode b = .ed) : 2 ≤ Spec.length e b x := by
  unfold Spec.length
  rw [h]
  have : Spec.I0.operands .ed = 1 := rfl
  omega

theorem length_pos {e : Bool} {b x : U8} : 1 ≤ Spec.length e b x := by
  unfold Spec.length
  omega

theorem length_le4 {e : Bool} {b x : U8} : Spec.length e b x ≤ 5 := by
  have h := (Spec.length_le b x).1
  unfold Spec.length at *
  simp only [Bool.false_and, Bool.false_eq_true, if_false] at h
  split <;> split <;> split at h <;> omega

/-- The bytes read from the slice. -/
theorem holds_take {base : U16} {bs l : List U8} {k : Nat} (hk : k + l.length ≤ 65536)
    (h : Holds (byteAt base bs) (base + BitVec.ofNat 16 k) l) :
    (k + l.length ≤ bs.length → l = (bs.drop k).take l.length) ∧
      ∀ i, k + i < bs.length → i < l.length → l[i]? = bs[k + i]? := by
  have key : ∀ i, i < l.length → l[i]? = some ((bs[k + i]?).getD 0xFF) := by
    induction l generalizing k with
    | nil => exact fun i hi => absurd hi (Nat.not_lt_zero _)
    | cons b l ih =>
      intro i hi
      rw [List.length_cons] at hk hi
      cases i with
      | zero =>
        rw [List.getElem?_cons_zero, h.1]
        unfold byteAt
        rw [BitVec.add_comm, BitVec.add_sub_cancel, BitVec.toNat_ofNat, Nat.mod_eq_of_lt (by omega)]
        rfl
      | succ i =>
        rw [List.getElem?_cons_succ, ih (k := k + 1) (by omega) ?_ i (by omega)]
        · rw [show k + 1 + i = k + (i + 1) from by omega]
        · have := h.2
          rwa [BitVec.add_assoc, show 1#16 = BitVec.ofNat 16 1 from rfl, ← BitVec.ofNat_add] at this
  refine ⟨fun hle => ?_, fun i h1 h2 => ?_⟩
  · refine List.ext_getElem? fun i => ?_
    by_cases hi : i < l.length
    · rw [key i hi, List.getElem?_take_of_lt hi, List.getElem?_drop,
        List.getElem?_eq_getElem (show k + i < bs.length by omega)]
      rfl
    · rw [List.getElem?_eq_none (by omega), List.getElem?_eq_none (by rw [List.length_take]; omega)]
  · rw [key i h2, List.getElem?_eq_getElem h1]
    rfl

/-- The instruction recorded is the one found in the slice. -/
theorem fits {a : U16} {e : Bool} {b : U8} {rest l : List U8}
    (hl : (b :: l).length = Spec.length e b ((b :: l).getD 1 0))
    (hm : Holds (byteAt a (b :: rest)) a (b :: l)) :
    ((b :: l).length ≤ (b :: rest).length → b :: l = (b :: rest).take (b :: l).length ∧
      (b :: l).length = Spec.length e b (rest.headD 0)) ∧
    ((b :: rest).length < (b :: l).length → (b :: rest).length < Spec.length e b (rest.headD 0)) := by
  have h5 : (b :: l).length ≤ 5 := hl ▸ length_le4
  have ht := holds_take (k := 0) (bs := b :: rest) (l := b :: l) (base := a) (by omega)
    (by rwa [show BitVec.ofNat 16 0 = 0#16 from rfl, BitVec.add_zero])
  have hx : l.headD 0 = (b :: l).getD 1 0 := by cases l <;> rfl
  rw [← hx] at hl
  by_cases hd : Spec.decode b = .ed
  · have h2 : 2 ≤ (b :: l).length := hl ▸ length_ed hd
    cases l with
    | nil => exact absurd h2 (by simp)
    | cons x l =>
      cases rest with
      | nil => exact ⟨fun h => absurd h (by simp), fun _ => length_ed hd⟩
      | cons y rest =>
        have hxy : x = y := by
          have := ht.2 1 (by simp) (by simp)
          simpa using this
        subst hxy
        refine ⟨fun h => ⟨?_, hl⟩, fun h => lt_of_lt_of_eq h hl⟩
        exact ht.1 (by rw [Nat.zero_add]; exact h)
  · have he : (b :: l).length = Spec.length e b (rest.headD 0) := hl.trans (length_indep hd)
    exact ⟨fun h => ⟨ht.1 (by rw [Nat.zero_add]; exact h), he⟩, fun h => lt_of_lt_of_eq h he⟩

theorem indexed_prefix {b : U8} (h : Spec.isPrefix b = true) : Spec.indexed b = false := by
  have := all8_spec (p := fun b => !Spec.isPrefix b || !Spec.indexed b) (by decide +kernel) b
  rw [h] at this
  simpa using this

theorem prefix_code (q : Prefix) : Spec.isPrefix q.toCode = true := by cases q <;> rfl

theorem size_pos (bs : List U8) : 1 ≤ Spec.size bs := by
  unfold Spec.size
  split
  · exact Nat.le_refl _
  · split
    · decide
    · exact length_pos
  · split
    · omega
    · exact length_pos

theorem size_le {bs : List U8} (h : Spec.useless bs = false) : Spec.size bs ≤ 4 := by
  unfold Spec.size
  split
  · decide
  · split
    · decide
    · exact (Spec.length_le _ _).1
  · next p b l =>
    split
    · next hp =>
      have hi : Spec.indexed b = true := by
        have h : (Spec.isPrefix p && !Spec.indexed b) = false := h
        rw [hp] at h
        simpa using h
      have := (Spec.length_le b (l.headD 0)).2 hi
      omega
    · exact (Spec.length_le _ _).1

/-- More iterations change nothing. -/
theorem loop_more {C : Type} [Machine C] (pc : U16) (mem : List U8) (f : CpuDebug → S → Option E × S)
    (n m : Nat) (hm : n ≤ m) (c : C) (cur : Nat) (t : BitVec 32) (s : S) {x : Option E × S}
    (h : loop pc mem f n c cur t s = some x) : loop pc mem f m c cur t s = some x := by
  induction n generalizing m c cur t s with
  | zero => cases h
  | succ n ih =>
    obtain ⟨m, rfl⟩ : ∃ k, m = k + 1 := ⟨m - 1, by omega⟩
    have hm : n ≤ m := by omega
    rw [loop] at h ⊢
    split at h
    · next hlt =>
      rw [if_pos hlt]
      simp only at h ⊢
      split at h
      · next h1 => rw [if_pos h1]; exact h
      · next h1 =>
        rw [if_neg h1]
        split at h
        · next d hd =>
          split at h
          · exact h
          · exact ih _ hm _ _ _ _ h
        · next hd =>
          split at h
          · next hf => rw [if_pos hf]; exact ih _ hm _ _ _ _ h
          · next hf => rw [if_neg hf]; exact ih _ hm _ _ _ _ h
    · next hlt =>
      rw [if_neg hlt]
      exact h

theorem run_back (H : Handler sig S) (p : Prog sig (Res sig × Cpu NMOS)) (h : S) :
    (Any.back .nmos p).run H h = (((p.run H h).1.1, Any.nmos (p.run H h).1.2), (p.run H h).2) := by
  unfold Any.back Prog.map
  rw [Prog.run_bind]
  rfl

theorem loop_any (n : Nat) (pc : U16) (mem : List U8) (f : CpuDebug → S → Option E × S)
    (c : Cpu NMOS) (cur : Nat) (t : BitVec 32) (s : S) :
    loop pc mem f n (Any.nmos c) cur t s = loop pc mem f n c cur t s := by
  induction n generalizing c cur t s with
  | zero => rfl
  | succ n ih =>
    rw [loop, loop]
    split
    · have e : Any.executeNext (σ := sig) true ((Any.nmos c).setPc (pc + BitVec.ofNat 16 cur)) =
          Any.back .nmos (executeNext true (c.setPc (pc + BitVec.ofNat 16 cur))) := rfl
      simp only [Machine.executeNext, Machine.setPc, e, run_back, Machine.isAfterPrefix, Machine.reset,
        Any.isAfterPrefix, Any.reset, ih]
    · rfl

section
variable [Flavour Q]

/-- The loop from any state it can be in. -/
theorem loop_listing (pc : U16) (mem : List U8) (n : Nat) (c : Cpu Q) (cur : Nat) (t : BitVec 32)
    (hc : cur ≤ mem.length) (hi : c.halt = true → c.pfx = none)
    (hn : 2 * (mem.length - cur) + (if c.halt then 1 else 0) < n) :
    ∃ ds, Listing (pc + BitVec.ofNat 16 cur - BitVec.ofNat 16 (pfxBytes c.pfx).length)
        (pfxBytes c.pfx ++ mem.drop cur) (ds.map shown) ∧ (∀ d ∈ ds, ∃ op l, Genuine d op l) ∧
      ∀ (E S : Type) (f : CpuDebug → S → Option E × S) (s : S),
        loop pc mem f n c cur t s = some (feed f ds s) := by
  induction n generalizing c cur t with
  | zero => exact absurd hn (Nat.not_lt_zero _)
  | succ n ih =>
    by_cases hlt : cur < mem.length
    case neg =>
      have hd : mem.drop cur = [] := List.drop_eq_nil_of_le (by omega)
      refine ⟨[], ?_, fun _ hd => absurd hd List.not_mem_nil, fun E S f s => ?_⟩
      · rw [hd, List.append_nil]
        refine .done ?_ ?_
        · rcases c.pfx with _ | q <;> rfl
        · rcases c.pfx with _ | q
          · exact Nat.one_pos
          · show 1 < Spec.size [q.toCode]
            rw [Spec.size, prefix_code]
            exact Nat.one_lt_two
      · unfold loop
        rw [if_neg hlt]
        rfl
    obtain ⟨b, rest, hbs⟩ : ∃ b rest, mem.drop cur = b :: rest := by
      cases h : mem.drop cur with
      | nil => exact absurd (List.drop_eq_nil_iff.1 h) (by omega)
      | cons b rest => exact ⟨b, rest, rfl⟩
    have hrest : mem.drop (cur + 1) = rest := by
      rw [← List.drop_drop, hbs]
      rfl
    have hlen : mem.length - cur = rest.length + 1 := by
      rw [← List.length_drop, hbs]
      rfl
    by_cases hh : c.halt = true
    · -- halted
      have hp := hi hh
      rw [hh, if_pos rfl] at hn
      have st := step_halted (c.setPc (pc + BitVec.ofNat 16 cur)) hh (pc + BitVec.ofNat 16 cur)
        (mem.drop cur) t cur
      simp only at st
      obtain ⟨ds, h1, hg, h2⟩ := ih (((executeNext true (c.setPc (pc + BitVec.ofNat 16 cur))).run
        (host (pc + BitVec.ofNat 16 cur) (mem.drop cur)) (t, ⟨cur, none⟩)).1.2.reset) cur
        ((executeNext true (c.setPc (pc + BitVec.ofNat 16 cur))).run
        (host (pc + BitVec.ofNat 16 cur) (mem.drop cur)) (t, ⟨cur, none⟩)).2.1 hc
        (fun h => by cases h) (by show _ + 0 < n; omega)
      refine ⟨ds, ?_, hg, fun E S f s => ?_⟩
      · rw [hp]
        exact h1
      · unfold loop
        rw [if_pos hlt]
        show (if mem.length < _ then _ else _) = _
        rw [← h2 E S f s]
        simp only [Machine.executeNext, Machine.setPc, Machine.isAfterPrefix, Machine.reset,
          Cpu.isAfterPrefix, st.1, st.2]
        rw [if_neg (by omega), show (c.setPc (pc + BitVec.ofNat 16 cur)).pfx = none from hp]
        rfl
    have hh := Bool.eq_false_iff.2 hh
    have st := step_run (c.setPc (pc + BitVec.ofNat 16 cur)) hh b rest t cur
    rw [← hbs] at st
    have hrun : (executeNext true (c.setPc (pc + BitVec.ofNat 16 cur))).run
      (host (c.setPc (pc + BitVec.ofNat 16 cur)).pc (mem.drop cur)) (t, ⟨cur, none⟩) =
        (executeNext true (c.setPc (pc + BitVec.ofNat 16 cur))).run
      (host (pc + BitVec.ofNat 16 cur) (mem.drop cur)) (t, ⟨cur, none⟩) := rfl
    simp only [hrun] at st
    have hloop : ∀ (E S : Type) (f : CpuDebug → S → Option E × S) (s : S),
        loop pc mem f (n + 1) c cur t s =
        (let r := (executeNext true (c.setPc (pc + BitVec.ofNat 16 cur))).run
          (host (pc + BitVec.ofNat 16 cur) (mem.drop cur)) (t, ⟨cur, none⟩)
        if mem.length < r.2.2.cursor then some (none, s)
        else match r.2.2.dbg with
          | some d =>
            match f d s with
            | (some e, s) => some (some e, s)
            | (none, s) => loop pc mem f n r.1.2 r.2.2.cursor r.2.1 s
          | none =>
            if r.1.2.isAfterPrefix then loop pc mem f n r.1.2 (r.2.2.cursor + 1) r.2.1 s
            else loop pc mem f n r.1.2.reset r.2.2.cursor r.2.1 s) := by
      intro E S f s
      rw [loop, if_pos hlt]
      rfl
    simp only at hloop
    generalize (executeNext true (c.setPc (pc + BitVec.ofNat 16 cur))).run
      (host (pc + BitVec.ofNat 16 cur) (mem.drop cur)) (t, ⟨cur, none⟩) = r at st hloop
    obtain ⟨⟨x, c'⟩, t', v⟩ := r
    simp only at st hloop
    by_cases hpb : Spec.isPrefix b = true
    · -- a prefix
      rw [if_pos hpb] at st
      obtain ⟨rfl, hh', q, hq, rfl⟩ := st
      obtain ⟨ds, h1, hg, h2⟩ := ih c' (cur + 1) t' hlt (fun h => by rw [hh'] at h; cases h)
        (by rw [hh', if_neg Bool.false_ne_true]; omega)
      rw [hq, hrest] at h1
      refine ⟨ds, ?_, hg, fun E S f s => ?_⟩
      · have ha : pc + BitVec.ofNat 16 (cur + 1) - BitVec.ofNat 16 (pfxBytes (some q)).length =
            pc + BitVec.ofNat 16 cur := by
          rw [BitVec.ofNat_add, ← BitVec.add_assoc]
          exact BitVec.add_sub_cancel _ _
        rw [ha] at h1
        rw [hbs]
        cases hp : c.pfx with
        | none => exact (BitVec.sub_zero (pc + BitVec.ofNat 16 cur)).symm ▸ h1
        | some p =>
          refine .skip ?_ ?_
          · show (Spec.isPrefix p.toCode && !Spec.indexed q.toCode) = true
            rw [prefix_code, indexed_prefix hpb]
            rfl
          · exact (BitVec.sub_add_cancel (pc + BitVec.ofNat 16 cur) 1#16).symm ▸ h1
      · rw [hloop E S f s, ← h2 E S f s]
        rw [if_neg (by show ¬ mem.length < cur; omega)]
        simp only [Cpu.isAfterPrefix, hq, Option.isSome_some, if_true]
    · -- an instruction
      rw [if_neg hpb] at st
      have hpb := Bool.eq_false_iff.2 hpb
      obtain ⟨hp', d, l, rfl, hd, hm⟩ := st
      have hpc : (c.setPc (pc + BitVec.ofNat 16 cur)).pc = pc + BitVec.ofNat 16 cur := rfl
      have hpf : (c.setPc (pc + BitVec.ofNat 16 cur)).pfx = c.pfx := rfl
      rw [hpc, hpf] at hd
      rw [hpc, hbs] at hm
      have hcur : (onDebug d ⟨cur, none⟩).cursor = cur + (b :: l).length := by
        unfold onDebug
        simp only [hd.code, hd.pfx, List.length_append]
        cases effective c.pfx b with
        | none => exact congrArg (cur + ·) (Nat.zero_add _)
        | some q =>
          show cur + (1 + (b :: l).length) - 1 = _
          omega
      have hdbg : (onDebug d ⟨cur, none⟩).dbg = some d := rfl
      rw [hcur, hdbg] at hloop
      simp only at hloop
      have hft := fits hd.ok.1.1 hm
      have hle : (b :: rest).length = mem.length - cur := hlen.symm
      -- the bytes with the prefix that matters
      have hlist : ∀ l', Listing (pc + BitVec.ofNat 16 cur -
            BitVec.ofNat 16 (pfxBytes (effective c.pfx b)).length)
            (pfxBytes (effective c.pfx b) ++ b :: rest) l' →
          Listing (pc + BitVec.ofNat 16 cur - BitVec.ofNat 16 (pfxBytes c.pfx).length)
            (pfxBytes c.pfx ++ mem.drop cur) l' := by
        intro l' h
        rw [hbs]
        unfold effective at h
        cases hi : Spec.indexed b with
        | true =>
          rw [hi] at h
          exact h
        | false =>
          rw [hi] at h
          cases hp : c.pfx with
          | none => exact h
          | some p =>
            refine .skip ?_ ?_
            · show (Spec.isPrefix p.toCode && !Spec.indexed b) = true
              rw [prefix_code, hi]
              rfl
            · have e1 : pc + BitVec.ofNat 16 cur - BitVec.ofNat 16 (pfxBytes none).length =
                  pc + BitVec.ofNat 16 cur - BitVec.ofNat 16 (pfxBytes (some p)).length + 1 :=
                (BitVec.sub_zero _).trans (BitVec.sub_add_cancel (pc + BitVec.ofNat 16 cur) 1#16).symm
              exact e1 ▸ h
      have huse : Spec.useless (pfxBytes (effective c.pfx b) ++ b :: rest) = false := by
        unfold effective
        cases hi : Spec.indexed b with
        | true =>
          cases c.pfx with
          | none => cases rest with
            | nil => rfl
            | cons y rest =>
              show (Spec.isPrefix b && _) = false
              rw [hpb]
              rfl
          | some p =>
            show (Spec.isPrefix p.toCode && !Spec.indexed b) = false
            rw [hi, Bool.not_true, Bool.and_false]
        | false => cases rest with
          | nil => rfl
          | cons y rest =>
            show (Spec.isPrefix b && _) = false
            rw [hpb]
            rfl
      have hsize : Spec.size (pfxBytes (effective c.pfx b) ++ b :: rest) =
          (pfxBytes (effective c.pfx b)).length +
            Spec.length (effective c.pfx b).isSome b (rest.headD 0) := by
        cases effective c.pfx b with
        | none =>
          refine Eq.trans ?_ (Nat.zero_add _).symm
          cases rest with
          | nil =>
            show (if Spec.isPrefix b then 2 else _) = _
            rw [hpb]
            rfl
          | cons y rest =>
            show (if Spec.isPrefix b then _ else _) = _
            rw [hpb]
            rfl
        | some p =>
          show (if Spec.isPrefix p.toCode then 1 + _ else _) = _
          rw [prefix_code]
          rfl
      by_cases hfit : (b :: l).length ≤ (b :: rest).length
      · obtain ⟨htake, hsz⟩ := hft.1 hfit
        have hpos : 1 ≤ (b :: l).length := by simp
        obtain ⟨ds, h1, hg, h2⟩ := ih c' (cur + (b :: l).length) t' (by omega) (fun _ => hp')
          (by have : (if c'.halt = true then 1 else 0) ≤ 1 := by split <;> omega
              omega)
        rw [hp'] at h1
        have hg' : ∀ d' ∈ d :: ds, ∃ op l, Genuine d' op l := by
          intro d' hd'
          cases hd' with
          | head => exact ⟨b, l, genuine_of hd hpb⟩
          | tail _ hd' => exact hg d' hd'
        refine ⟨d :: ds, hlist _ ?_, hg', fun E S f s => ?_⟩
        · have hbytes : d.code = (pfxBytes (effective c.pfx b) ++ b :: rest).take
              (Spec.size (pfxBytes (effective c.pfx b) ++ b :: rest)) := by
            rw [hsize, ← hsz, List.take_length_add_append, ← htake, hd.code]
          have hda : pc + BitVec.ofNat 16 cur - BitVec.ofNat 16 (pfxBytes (effective c.pfx b)).length =
              d.pc := hd.pc.symm
          rw [List.map_cons, shown, hbytes, ← hda]
          refine .instr huse ?_ ?_
          · rw [hsize, ← hsz, List.length_append]
            omega
          · rw [hsize, ← hsz, BitVec.ofNat_add, ← BitVec.add_assoc, BitVec.sub_add_cancel,
              List.drop_length_add_append]
            have h3 : (b :: rest).drop (b :: l).length = mem.drop (cur + (b :: l).length) := by
              rw [← hbs, List.drop_drop]
            rw [h3, BitVec.add_assoc, ← BitVec.ofNat_add]
            have e1 := BitVec.sub_zero (pc + BitVec.ofNat 16 (cur + (b :: l).length))
            exact e1 ▸ h1
        · rw [hloop E S f s, if_neg (by omega), feed]
          cases hfd : f d s with
          | mk o s' =>
            cases o with
            | none => exact h2 E S f s'
            | some e => rfl
      · refine ⟨[], hlist _ (.done huse ?_), fun _ hd => absurd hd List.not_mem_nil, fun E S f s => ?_⟩
        · rw [hsize, List.length_append]
          have := hft.2 (by omega)
          omega
        · rw [hloop E S f s, if_pos (by omega)]
          rfl

/-- The records of the disassembler. -/
theorem listing_records (Q : Type) [Flavour Q] (pc : U16) (mem : List U8) :
    ∃ ds, Listing pc mem (ds.map shown) ∧ (∀ d ∈ ds, ∃ op l, Genuine d op l) ∧
      ∀ n, 2 * mem.length < n → ∀ (E S : Type) (f : CpuDebug → S → Option E × S) (s : S),
        disasmMemory (Cpu Q) n pc mem f s = some (feed f ds s) := by
  have h : ∀ n, 2 * mem.length < n → _ := fun n hn =>
    loop_listing pc mem n (Cpu.default : Cpu Q) 0 0 (Nat.zero_le _) (fun h => by cases h)
      (by show 2 * (mem.length - 0) + 0 < n; omega)
  -- the records do not depend on the bound
  obtain ⟨ds, h1, hg, h2⟩ := h (2 * mem.length + 1) (Nat.lt_succ_self _)
  refine ⟨ds, ?_, hg, fun n hn E S f s => ?_⟩
  · have e : pc + BitVec.ofNat 16 0 - BitVec.ofNat 16 (pfxBytes none).length = pc :=
      (BitVec.sub_zero _).trans (BitVec.add_zero pc)
    exact e ▸ h1
  · have := loop_more (C := Cpu Q) pc mem f (2 * mem.length + 1) n hn (Cpu.default : Cpu Q) 0 0 s
      (h2 E S f s)
    exact this

/-- C39: `disasm_memory` returns for every slice and start address. There is a list of records, which
are those of the listing of the slice, such that whatever the callback does, it is given these records
in order up to the first error, and that error is returned. -/
theorem C39_disasm_memory (Q : Type) [Flavour Q] (pc : U16) (mem : List U8) :
    ∃ ds, Listing pc mem (ds.map shown) ∧
      ∀ n, 2 * mem.length < n → ∀ (E S : Type) (f : CpuDebug → S → Option E × S) (s : S),
        disasmMemory (Cpu Q) n pc mem f s = some (feed f ds s) := by
  obtain ⟨ds, h1, -, h2⟩ := listing_records Q pc mem
  exact ⟨ds, h1, h2⟩

/-- C39: the disassembler with the dynamic wrapper, whose default is an NMOS CPU, behaves in the same
way. -/
theorem C39_any (n : Nat) (pc : U16) (mem : List U8) {E S : Type} (f : CpuDebug → S → Option E × S)
    (s : S) : disasmMemory Any n pc mem f s = disasmMemory (Cpu NMOS) n pc mem f s :=
  loop_any n pc mem f Cpu.default 0 0 s

/-- C39: `disasm_memory_once` returns the first record of the listing. -/
theorem C39_once (Q : Type) [Flavour Q] (pc : U16) (mem : List U8) :
    ∃ ds : List CpuDebug, Listing pc mem (ds.map shown) ∧ ∀ n, 2 * mem.length < n →
      disasmMemoryOnce (Cpu Q) n pc mem = some ds.head? := by
  obtain ⟨ds, h1, h2⟩ := C39_disasm_memory Q pc mem
  refine ⟨ds, h1, fun n hn => ?_⟩
  rw [disasmMemoryOnce, h2 n hn]
  cases ds <;> rfl

end

/-- C39: the instructions of a listing are made of the bytes of the slice, one to four of them, at their
place. -/
theorem C39_inside {a : U16} {bs : List U8} {l : List (U16 × List U8)} (h : Listing a bs l) :
    ∀ i ∈ l, ∃ k, i.1 = a + BitVec.ofNat 16 k ∧ i.2 = (bs.drop k).take i.2.length ∧
      k + i.2.length ≤ bs.length ∧ 1 ≤ i.2.length ∧ i.2.length ≤ 4 := by
  induction h with
  | done => exact fun _ h => absurd h List.not_mem_nil
  | skip hu h ih =>
    intro i hi
    obtain ⟨k, h1, h2, h3, h4⟩ := ih i hi
    refine ⟨k + 1, ?_, h2, ?_, h4⟩
    · rw [h1, BitVec.add_assoc, Nat.add_comm, BitVec.ofNat_add]
      rfl
    · rw [List.length_cons]
      omega
  | @instr a bs l hu hs h ih =>
    intro i hi
    cases hi with
    | head =>
      have hl : (bs.take (Spec.size bs)).length = Spec.size bs := by
        rw [List.length_take]
        omega
      refine ⟨0, (BitVec.add_zero a).symm, ?_, ?_, ?_, ?_⟩
      · rw [hl]
        rfl
      · rw [hl, Nat.zero_add]
        exact hs
      · rw [hl]
        exact size_pos bs
      · rw [hl]
        exact size_le hu
    | tail _ hi =>
      obtain ⟨k, h1, h2, h3, h4⟩ := ih i hi
      refine ⟨Spec.size bs + k, ?_, ?_, ?_, h4⟩
      · rw [h1, BitVec.add_assoc, ← BitVec.ofNat_add]
      · rw [← List.drop_drop]
        exact h2
      · rw [List.length_drop] at h3
        omega

/-- C39: there is one listing only. -/
theorem C39_listing_unique {a : U16} {bs : List U8} {l l' : List (U16 × List U8)} (h : Listing a bs l)
    (h' : Listing a bs l') : l = l' := by
  induction h generalizing l' with
  | done hu hs =>
    cases h' with
    | done => rfl
    | skip hu' => rw [hu] at hu'; cases hu'
    | instr hu' hs' => omega
  | skip hu h ih =>
    cases h' with
    | done hu' => rw [hu] at hu'; cases hu'
    | skip _ h' => exact ih h'
    | instr hu' => rw [hu] at hu'; cases hu'
  | instr hu hs h ih =>
    cases h' with
    | done _ hs' => omega
    | skip hu' => rw [hu] at hu'; cases hu'
    | instr _ _ h' => rw [ih h']

/-- The memory of the unit test of the crate: a HALT in the middle, useless prefixes and an instruction
that does not fit. -/
example : disasmMemory (E := Unit) (Cpu NMOS) 17 0xFFFE#16 [0x09, 0xdd, 0xfd, 0xdd, 0x09, 0x76, 0, 0xcb]
    (fun d l => (none, l ++ [shown d])) [] = some (none,
      [(0xFFFE#16, [0x09]), (0x0001#16, [0xdd, 0x09]), (0x0003#16, [0x76]), (0x0004#16, [0])]) := by
  decide +kernel

/-- A callback that fails on the first record. -/
example : disasmMemoryOnce (Cpu CMOS) 5 0#16 [0xdd, 0xcb, 0x05, 0xfe, 0x00] =
    disasmMemoryOnce (Cpu BM1) 99 0#16 [0xdd, 0xcb, 0x05, 0xfe] ∧
  (disasmMemoryOnce (Cpu CMOS) 5 0#16 [0xdd, 0xcb, 0x05, 0xfe, 0x00]).map (·.map shown) =
    some (some (0#16, [0xdd, 0xcb, 0x05, 0xfe])) := by decide +kernel

end Z80.Disasm
