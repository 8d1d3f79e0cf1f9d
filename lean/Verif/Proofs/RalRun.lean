import Verif.Proofs.RalSafe
import Verif.Props.RalFrame

/-!
# Lemmas on programs that do not make the example computer panic: the computer as a whole
-/

namespace Z80.Ral
open Spec Spec.Ral

variable {n H K G e bound : Nat} {I O : Type} {slurp : I → Option U8 × I} {flush : U8 → O → Bool × O}

local notation "dv" => board bound n slurp flush

/-- The devices are in order, and so is the memory. -/
def Sound (H K G e now : Nat) (b : Boards (Chain n I O)) : Prop := Safe H K G e now b.device ∧ ∃ s, Maps b.memory s

theorem Sound.later {now now' : Nat} {b : Boards (Chain n I O)} (h : Sound H K G e now b) (hn : now ≤ now') :
    Sound H K G e now' b := ⟨h.1.later (Nat.le_refl _) hn, h.2⟩

/-- An access to the bus does not panic. -/
theorem answer_safe (hbig : 2 ^ 32 ≤ bound) {cur : BitVec 32} {b : Boards (Chain n I O)} {r : Req ralSig} (ht : Timed H K G e cur.toNat)
    (h : Sound H K G e cur.toNat b) (hts : ∀ x, carries r = some x → x = cur) (hb : Behaves ((cur, some b), some r)) :
    ∃ x b', Boards.answer dv r b = some (x, b') ∧ Sound H K G e cur.toNat b' := by
  have hb := hb b rfl
  obtain ⟨h, s, hs⟩ := h
  cases r with
  | readIo port ts =>
    cases hts ts rfl
    simp only [Boards.answer]
    split
    · exact ⟨_, _, rfl, h, s, hs⟩
    · obtain ⟨x, d, e1, k⟩ := readIo_safe hbig port ht h hb
      rw [e1]
      exact ⟨_, _, rfl, k, s, hs⟩
  | writeIo port data ts =>
    cases hts ts rfl
    simp only [Boards.answer]
    split
    · exact ⟨_, _, rfl, h, _, (hs.control data).1⟩
    · rename_i hp
      rcases hb with hb | hb
      · exact absurd hb hp
      · obtain ⟨x, d, e1, k⟩ := writeIo_safe hbig port data ht h hb
        rw [e1]
        exact ⟨_, _, rfl, k, s, hs⟩
  | isIrq ts =>
    cases hts ts rfl
    simp only [Boards.answer]
    obtain ⟨x, d, e1, k⟩ := isIrq_safe hbig ht h hb
    rw [e1]
    exact ⟨_, _, rfl, k, s, hs⟩
  | irqData pc ts =>
    cases hts ts rfl
    simp only [Boards.answer]
    obtain ⟨x, d, e1, k⟩ := irqData_safe pc h
    rw [e1]
    exact ⟨_, _, rfl, k, s, hs⟩
  | reti pc ts =>
    cases hts ts rfl
    simp only [Boards.answer]
    obtain ⟨d, e1, k⟩ := reti_safe pc h
    rw [e1]
    exact ⟨_, _, rfl, k, s, hs⟩
  | readOpcode pc ir ts =>
    cases hts ts rfl
    simp only [Boards.answer]
    obtain ⟨d, e1, k⟩ := m1_safe hbig ht h hb
    obtain ⟨m, e2, k2, _⟩ := hs.fetch pc
    rw [e1, e2]
    exact ⟨_, _, rfl, k.look_e ht.since, _, k2⟩
  | readMem a ts =>
    simp only [Boards.answer, Memory.readMem, hs.readDebug a]
    exact ⟨_, _, rfl, h, s, hs⟩
  | readMem16 a ts =>
    simp only [Boards.answer, hs.readMem16 a]
    exact ⟨_, _, rfl, h, s, hs⟩
  | writeMem a v ts =>
    obtain ⟨s', _, k, _⟩ := hs.write a v
    exact ⟨_, _, rfl, h, s', k⟩
  | readDebug a =>
    simp only [Boards.answer, hs.readDebug a]
    exact ⟨_, _, rfl, h, s, hs⟩
  | _ => exact ⟨_, _, rfl, h, s, hs⟩

theorem host_safe (hbig : 2 ^ 32 ≤ bound) {cur : BitVec 32} {b : Boards (Chain n I O)} {r : Req ralSig} (ht : Timed H K G e cur.toNat)
    (h : Sound H K G e cur.toNat b) (hts : ∀ x, carries r = some x → x = cur) (hb : Behaves ((cur, some b), some r)) :
    ∃ x b', Boards.host dv r (some b) = (x, some b') ∧ Sound H K G e cur.toNat b' := by
  obtain ⟨x, b', e1, k⟩ := answer_safe (bound := bound) (slurp := slurp) (flush := flush) hbig ht h hts hb
  refine ⟨x, b', ?_, k⟩
  unfold Boards.host
  rw [Option.bind_some, e1]

/-- A call of the processor does not panic; the clock moves on. -/
theorem call_safe (hbig : 2 ^ 32 ≤ bound) {cur : BitVec 32} {b : Boards (Chain n I O)} {r : Req ralSig} (ht : Timed H K G e cur.toNat)
    (h : Sound H K G e cur.toNat b) (hts : ∀ x, carries r = some x → x = cur) (hb : Behaves ((cur, some b), some r))
    (hp : cur.toNat + passes r < 2 ^ 32) (o : Option (BitVec 32)) (ho : ∀ x, o = some x → x = cur) :
    ∃ x cur' b', tClock (Boards.host dv) r (cur, some b) = (x, cur', some b') ∧ cur'.toNat = cur.toNat + passes r ∧
      Sound H K G e cur'.toNat b' ∧ ∀ y, given (σ := ralSig) o ⟨r, x⟩ = some y → y = cur' := by
  have hadd : ∀ k, cur.toNat + k < 2 ^ 32 → (cur + BitVec.ofNat 32 k).toNat = cur.toNat + k := fun k hk => by
    rw [BitVec.toNat_add, BitVec.toNat_ofNat, Nat.add_mod_mod, Nat.mod_eq_of_lt hk]
  have hset : ∀ {m} (k : BitVec m), cur.toNat + k.toNat < 2 ^ 32 → (cur + k.setWidth 32).toNat = cur.toNat + k.toNat :=
    fun k hk => by rw [BitVec.toNat_add, BitVec.toNat_setWidth, Nat.add_mod_mod, Nat.mod_eq_of_lt hk]
  obtain ⟨x, b', e1, k⟩ := host_safe (bound := bound) (slurp := slurp) (flush := flush) hbig ht h hts hb
  cases r with
  | isPastLimit l => exact ⟨_, _, _, rfl, rfl, h, nofun⟩
  | asTimestamp => exact ⟨_, _, _, rfl, rfl, h, fun y hy => by cases hy; rfl⟩
  | addIrq a =>
    have := hadd 6 hp
    exact ⟨_, _, _, rfl, this, h.later (by have : (cur + BitVec.ofNat 32 IRQ_ACK_CYCLE_TS).toNat = _ := this; omega),
      fun y hy => by cases hy; rfl⟩
  | addIo a =>
    have := hadd 4 hp
    exact ⟨_, _, _, rfl, this, h.later (by have : (cur + BitVec.ofNat 32 IO_CYCLE_TS).toNat = _ := this; omega),
      fun y hy => by cases hy; rfl⟩
  | addM1 a =>
    have := hadd 4 hp
    exact ⟨_, _, _, rfl, this, h.later (by have : (cur + BitVec.ofNat 32 M1_CYCLE_TS).toNat = _ := this; omega),
      fun y hy => by cases hy; rfl⟩
  | addMreq a =>
    have := hadd 3 hp
    exact ⟨_, _, _, rfl, this, h.later (by have : (cur + BitVec.ofNat 32 MEMRW_CYCLE_TS).toNat = _ := this; omega),
      fun y hy => by cases hy; rfl⟩
  | addNoMreq a m =>
    have := hset m hp
    exact ⟨_, _, _, rfl, this, h.later (by omega), nofun⟩
  | addWait a m =>
    have := hset m hp
    exact ⟨_, _, _, rfl, this, h.later (by omega), nofun⟩
  | debug d =>
    refine ⟨x, cur, b', ?_, rfl, k, ho⟩
    show ((Boards.host dv _ (some b)).1, (cur, (Boards.host dv _ (some b)).2)) = _
    rw [e1]
  | _ =>
    refine ⟨x, cur, b', ?_, rfl, k, nofun⟩
    show ((Boards.host dv _ (some b)).1, (cur, (Boards.host dv _ (some b)).2)) = _
    rw [e1]

/-- Calls of the processor do not panic. -/
theorem run_safe {α : Type} (hbig : 2 ^ 32 ≤ bound) (hlong : 65536 ≤ H) (hhalf : K ≤ H) (hfits : (H + 2 * G + 1) * 16 < 2 ^ 32)
    (hroom : e + G + 2 * K + 65536 + 3 < 2 ^ 32) (p : Prog ralSig α) (cur : BitVec 32) (b : Boards (Chain n I O))
    (o : Option (BitVec 32)) (he : e ≤ cur.toNat) (h : Sound H K G e cur.toNat b) (ho : ∀ x, o = some x → x = cur)
    (ht : Timely (σ := ralSig) o (p.trace (tClock (Boards.host dv)) (cur, some b)))
    (hp : cur.toNat + elapsed (p.trace (tClock (Boards.host dv)) (cur, some b)) ≤ e + G)
    (hb : ∀ x ∈ moments (tClock (Boards.host dv)) p (cur, some b), Behaves x) :
    ∃ b', (p.run (tClock (Boards.host dv)) (cur, some b)).2.2 = some b' ∧
      Sound H K G e (p.run (tClock (Boards.host dv)) (cur, some b)).2.1.toNat b' ∧
      e ≤ (p.run (tClock (Boards.host dv)) (cur, some b)).2.1.toNat := by
  induction p generalizing cur b o with
  | ret a => exact ⟨b, rfl, h, he⟩
  | call r k ih =>
    have hpass : elapsed ((Prog.call r k).trace (tClock (Boards.host dv)) (cur, some b)) = passes r +
      elapsed ((k (tClock (Boards.host dv) r (cur, some b)).1).trace (tClock (Boards.host dv))
        (tClock (Boards.host dv) r (cur, some b)).2) := rfl
    rw [hpass] at hp
    obtain ⟨x, cur', b', e1, e2, e3, e4⟩ := call_safe (bound := bound) (slurp := slurp) (flush := flush) hbig (r := r) (G := G)
      ⟨hlong, hhalf, he, by omega, hfits, by omega⟩ h (fun x hx => ho x (ht.1 x hx)) (hb _ (List.mem_cons_self ..))
      (by omega) o ho
    have hrun : (Prog.call r k).run (tClock (Boards.host dv)) (cur, some b) =
        (k x).run (tClock (Boards.host dv)) (cur', some b') := by
      show (k (tClock (Boards.host dv) r (cur, some b)).1).run (tClock (Boards.host dv))
        (tClock (Boards.host dv) r (cur, some b)).2 = _
      rw [e1]
    have ht' : Timely (σ := ralSig) (given o ⟨r, x⟩) ((k x).trace (tClock (Boards.host dv)) (cur', some b')) := by
      have := ht.2
      rw [e1] at this
      exact this
    have hb' : ∀ y ∈ moments (tClock (Boards.host dv)) (k x) (cur', some b'), Behaves y := by
      intro y hy
      refine hb y (List.mem_cons_of_mem _ ?_)
      rw [e1]
      exact hy
    rw [e1] at hp
    simp only at hp
    rw [hrun]
    exact ih x cur' b' _ (by omega) e3 e4 ht' (by omega) hb'

variable {Q : Type} [FlavourSpec Q]

/-- The devices of the computer have been looked at a while ago. -/
def Kept (H K G c : Nat) (m : Machine Q (Chain n I O)) : Prop :=
  ∃ e b, m.bus = some b ∧ Sound H K G e m.cur.toNat b ∧ e ≤ m.cur.toNat ∧ m.cur.toNat ≤ e + c ∧
    e + G + 2 * K + 65536 + 3 < 2 ^ 32

theorem loop_safe (hbig : 2 ^ 32 ≤ bound) (hlong : 65536 ≤ H) (hhalf : K ≤ H) (hfits : (H + 2 * G + 1) * 16 < 2 ^ 32)
    (hroom : e + G + 2 * K + 65536 + 3 < 2 ^ 32) {f : Nat} (hf : 0 < f) :
    ∀ (k : Nat) (m m' : Machine Q (Chain n I O)) (b : Boards (Chain n I O)),
    m.limit + 23 ≤ m.cur.toNat + 4 * f → m.limit + 22 ≤ e + G → m.cur.toNat ≤ e + G → e ≤ m.cur.toNat →
    m.bus = some b → Sound H K G e m.cur.toNat b → (∀ x ∈ watchLoop dv f k m, Behaves x) →
    m.frameLoop dv f k = some m' → ∃ b', m'.bus = some b' ∧ Sound H K G e m'.cur.toNat b' ∧ e ≤ m'.cur.toNat ∧
      m'.cur.toNat ≤ e + G
  | 0, m, m', b, _, _, _, _, _, _, _, h => by cases h
  | k + 1, m, m', b, h1, h2, h3, h4, h5, h6, h7, h8 => by
    have hl : (BitVec.ofNat 32 m.limit).toNat = m.limit := by
      rw [BitVec.toNat_ofNat]; exact Nat.mod_eq_of_lt (by omega)
    obtain ⟨x, c', t', b', hrun, hpast, hless, -, hel⟩ := limit_counter_elapsed (clock_tells (Boards.host dv))
      (clock_asked (C61_prompt bound n slurp flush)) f (BitVec.ofNat 32 m.limit) m.cpu m.cur m.bus hf
      (by rw [hl]; omega) (by rw [hl]; omega)
    rw [hl] at hpast hless
    have ht' : t'.toNat ≤ e + G := by
      rcases Nat.lt_or_ge m.cur.toNat m.limit with h | h
      · have := (hless (by omega)).2
        omega
      · rw [(hpast (by omega)).1]
        exact h3
    have hr := Prog.runs_run (tClock (Boards.host dv)) (executeWithLimit f (BitVec.ofNat 32 m.limit) m.cpu)
      (m.cur, m.bus)
    have hm := limit_timely (σ := ralSig) f (BitVec.ofNat 32 m.limit) m.cpu hr
    rw [h5] at hrun hel hm
    unfold Machine.frameLoop at h8
    unfold watchLoop at h7
    simp only [h5] at h7 h8
    obtain ⟨b1, k1, k2, k3⟩ := run_safe (bound := bound) (slurp := slurp) (flush := flush) hbig hlong hhalf hfits hroom
      (executeWithLimit f (BitVec.ofNat 32 m.limit) m.cpu) m.cur b none h4 h6 nofun hm (by omega)
      (fun y hy => h7 y (List.mem_append_left _ hy))
    rw [hrun] at k1 k2 k3 h7 h8
    simp only at k1 k2 k3 h7 h8
    cases k1
    cases x with
    | ok =>
      cases h8
      exact ⟨b1, rfl, k2, k3, ht'⟩
    | halt =>
      have h9 : m.limit + 23 ≤ t'.toNat + 4 * f := by
        rcases Nat.lt_or_ge m.cur.toNat m.limit with h | h
        · have := (hless (by omega)).1
          omega
        · rw [(hpast (by omega)).1]
          exact h1
      exact loop_safe hbig hlong hhalf hfits hroom hf k { m with cpu := c', cur := t', bus := some b1 } m' b1 h9 h2 ht' k3 rfl k2
        (fun y hy => h7 y (List.mem_append_right _ hy)) h8
    | writeIo o => cases h8
    | reti o => cases h8
    | ub => cases h8

theorem nmi_elapsed {D : Type} {dev : Device D} (hd : Prompt dev) (c : Cpu Q) (s : BitVec 32 × Option (Boards D)) :
    elapsed ((Z80.nmi c).trace (tClock (Boards.host dev)) s) ≤ 11 := by
  have hr := Prog.runs_run (tClock (Boards.host dev)) (Z80.nmi c) s
  have hq := no_asked (clock_asked hd) (Z80.nmi c) s
  have hw := C17_nmi hr
  rw [hq] at hw
  rw [elapsed_eq, hw]
  generalize hz : (Z80.nmi c).run (tClock (Boards.host dev)) s = z at hr
  obtain ⟨⟨b, c'⟩, t⟩ := z
  cases b with
  | true =>
    rw [C16_nmi hr]
    exact Nat.le_refl _
  | false =>
    have : (Z80.nmi c : Prog ralSig _) = .ret (false, c) := by
      unfold Z80.nmi at hz ⊢
      split
      · rename_i hi
        rw [if_pos hi] at hz
        have h1 : (Prog.bind (nmiNoCheck c) fun c => (.ret (true, c) : Prog ralSig _)).run
          (tClock (Boards.host dev)) s = _ := hz
        rw [Prog.run_bind] at h1
        cases h1
      · rfl
    rw [this]
    exact Nat.zero_le _

theorem nmi_safe (hbig : 2 ^ 32 ≤ bound) (hlong : 65536 ≤ H) (hhalf : K ≤ H) (hfits : (H + 2 * G + 1) * 16 < 2 ^ 32) {c : Nat} (hc : c + 11 ≤ G)
    {m : Machine Q (Chain n I O)} (h : Kept H K G c m) (hb : ∀ x ∈ watchAct dv f k m .nmi, Behaves x) :
    Kept H K G (c + 11) (m.nmi dv).2 := by
  obtain ⟨e, b, h1, h2, h3, h4, h5⟩ := h
  have hel := nmi_elapsed (C61_prompt bound n slurp flush) m.cpu (m.cur, some b)
  have hr := Prog.runs_run (tClock (Boards.host dv)) (Z80.nmi m.cpu) (m.cur, some b)
  unfold watchAct at hb
  simp only [h1] at hb
  obtain ⟨b1, k1, k2, k3⟩ := run_safe (bound := bound) (slurp := slurp) (flush := flush) hbig hlong hhalf hfits h5
    (Z80.nmi m.cpu) m.cur b none h3 h2 nofun (nmi_timely hr) (by omega) hb
  have hc := counts_run (clock_adds (Boards.host dv)) (Z80.nmi m.cpu) m.cur (some b)
  have hlt : m.cur.toNat + elapsed ((Z80.nmi m.cpu).trace (tClock (Boards.host dv)) (m.cur, some b)) < 2 ^ 32 := by omega
  rw [Nat.mod_eq_of_lt hlt] at hc
  refine ⟨e, b1, ?_, ?_, ?_, ?_, h5⟩
  all_goals simp only [Machine.nmi, h1]
  · exact k1
  · exact k2
  · exact k3
  · omega

theorem mreset_safe (hbig : 2 ^ 32 ≤ bound) (hlong : 65536 ≤ H) (hhalf : K ≤ H) (hfits : (H + 2 * G + 1) * 16 < 2 ^ 32) {c : Nat} (hc : c ≤ G)
    {m : Machine Q (Chain n I O)} (hroom : m.cur.toNat + G + 2 * K + 65536 + 3 < 2 ^ 32) (h : Kept H K G c m)
    (hb : ∀ x ∈ watchAct dv f k m .reset, Behaves x) : Kept H K G 0 (m.reset dv) := by
  obtain ⟨e, b, h1, ⟨h2, s, hs⟩, h3, h4, h5⟩ := h
  have hb := hb _ (List.mem_singleton.2 rfl) b h1
  obtain ⟨d, e1, k1⟩ := reset_safe (bound := bound) (slurp := slurp) (flush := flush)
    (G := G) hbig ⟨hlong, hhalf, h3, by omega, hfits, by omega⟩ h2 hb
  refine ⟨m.cur.toNat, { b with device := d }, ?_, ⟨k1, s, hs⟩, Nat.le_refl _, Nat.le_refl _, hroom⟩
  show Boards.onDevice _ m.bus = _
  rw [h1]
  simp only [Boards.onDevice, Option.bind_some, e1, Option.map_some]

theorem step_safe (hbig : 2 ^ 32 ≤ bound) (hlong : 65536 ≤ H) (hhalf : K ≤ H) (hfits : (H + 2 * G + 1) * 16 < 2 ^ 32) {c most d f k : Nat}
    {m m' : Machine Q (Chain n I O)} (h : Kept H K G (11 * c) m) (ht : OnTime c most m) (hc : c ≤ most)
    (hG : G = m.frame + 22 + 11 * most) (hhz : H + G + 1 + 11 * most ≤ m.hz)
    (hroom : 2 * m.hz + m.frame + 22 + 11 * most + G + 2 * K + 65536 + 3 < 2 ^ 32) (hf : m.frame + 23 ≤ 4 * f)
    (hm : m.step dv f k = some (d, m')) (hcur : m'.cur.toNat ≤ 2 * m.hz + m.frame + 22 + 11 * most)
    (hb : ∀ x ∈ watchAct dv f k m .step, Behaves x) : Kept H K G 0 m' := by
  obtain ⟨e, b, h1, ⟨h2, s, hs⟩, h3, h4, h5⟩ := h
  obtain ⟨t1, t2, t3, t4, t5, t6, t7⟩ := ht
  -- the second
  have hw : ∃ w e b, m.wrapSecond dv = some w ∧ w.bus = some b ∧ Sound H K G e w.cur.toNat b ∧ e ≤ w.cur.toNat ∧
      w.cur.toNat ≤ e + 11 * c ∧ w.frame = m.frame ∧ w.limit ≤ w.cur.toNat ∧ w.cur.toNat ≤ w.limit + 22 + 11 * c ∧
      e ≤ 2 * m.hz + m.frame + 22 + 11 * most := by
    unfold Machine.wrapSecond
    rw [if_pos (by omega)]
    by_cases hc : m.cur.toNat > 2 * m.hz
    · rw [if_pos hc, if_pos (by omega)]
      have hcur : (m.cur - BitVec.ofNat 32 m.hz).toNat = m.cur.toNat - m.hz := by
        simp only [BitVec.toNat_sub, BitVec.toNat_ofNat]
        have := m.cur.isLt
        omega
      obtain ⟨d', e1, k1⟩ := nextSecond_safe (bound := bound) (slurp := slurp) (flush := flush) (d := m.hz) h2
        (by omega) h3
      refine ⟨_, e - m.hz, { b with device := d' }, rfl, ?_, ⟨?_, s, hs⟩, ?_, ?_, rfl, ?_, ?_, by omega⟩
      · simp only [h1, Boards.onDevice, Option.bind_some, e1, Option.map_some]
      · simp only [hcur]
        exact k1
      all_goals simp only [hcur]
      all_goals omega
    · rw [if_neg hc]
      exact ⟨m, e, b, rfl, h1, ⟨h2, s, hs⟩, h3, h4, rfl, t1, t2, by omega⟩
  obtain ⟨w, e', b', w1, w2, w3, w4, w5, w6, w7, w8, w9⟩ := hw
  unfold watchAct at hb
  simp only [w1] at hb
  unfold Machine.step add32 at hm
  rw [w1, Option.bind_eq_bind, Option.bind_some, if_pos (by omega), Option.bind_eq_bind, Option.bind_some] at hm
  obtain ⟨v, hv, hm⟩ := Option.bind_eq_some_iff.1 hm
  cases hm
  rw [hv] at hb
  obtain ⟨b1, k1, ⟨k2, s', hs'⟩, k3, k4⟩ := loop_safe (G := G) hbig hlong hhalf hfits (by omega) (by omega) k
    { w with limit := w.limit + w.frame } v b' (by simp only; omega) (by simp only; omega) (by simp only; omega) w4 w2 w3
    (fun x hx => hb x (List.mem_append_left _ hx)) hv
  have hb := hb _ (List.mem_append_right _ (List.mem_singleton.2 rfl)) b1 k1
  obtain ⟨d2, e2, k5⟩ := frameEnd_safe (bound := bound) (slurp := slurp) (flush := flush)
    (G := G) hbig ⟨hlong, hhalf, k3, k4, hfits, by omega⟩ k2 hb
  simp only at hcur
  refine ⟨v.cur.toNat, { b1 with device := d2 }, ?_, ⟨k5, s', hs'⟩, Nat.le_refl _, Nat.le_refl _, by omega⟩
  simp only [k1, Boards.onDevice, Option.bind_some, e2, Option.map_some]

theorem sparse_le {most : Nat} : ∀ (l : List Act) {c : Nat}, Sparse most c l → c ≤ most
  | [], _, h => h
  | .step :: _, _, h => h.1
  | .nmi :: l, _, h => by have := sparse_le l (by exact h); omega
  | .reset :: l, _, h => sparse_le l h

theorem acts_safe (hbig : 2 ^ 32 ≤ bound) (hlong : 65536 ≤ H) (hhalf : K ≤ H) (hfits : (H + 2 * G + 1) * 16 < 2 ^ 32) {most f k F hz : Nat}
    (hG : G = F + 22 + 11 * most) (hhz : H + G + 1 + 11 * most ≤ hz)
    (hroom : 2 * hz + F + 22 + 11 * most + G + 2 * K + 65536 + 3 < 2 ^ 32) (hn : F + 23 ≤ 4 * f) (hk : F + 4 ≤ 4 * k) :
    ∀ (l : List Act) (c : Nat) (m : Machine Q (Chain n I O)), m.frame = F → m.hz = hz → OnTime c most m →
    Sparse most c l → Kept H K G (11 * c) m → (∀ x ∈ watch dv f k l m, Behaves x) →
    ∃ ds m', m.acts dv f k l = some (ds, m') ∧ m'.bus.isSome = true
  | [], c, m, hF, hz, h, _, ⟨_, _, hb, _⟩, _ => ⟨0, m, rfl, by rw [hb]; rfl⟩
  | .step :: l, c, m, hF, hhz', h, ⟨hs, hl⟩, hk', hb => by
    have hd := C61_prompt bound n slurp flush
    obtain ⟨d, m', j1, j2, j3, j4, j5⟩ := step_paces hd (n := f) (k := k) m h hs (by omega) (by omega)
    unfold watch at hb
    rw [j1] at hb
    have hkept := step_safe hbig hlong hhalf hfits hk' h hs (by omega) (by omega) (by omega) (by omega) j1
      (by have := j2.ahead; have := j2.bound; omega) (fun x hx => hb x (List.mem_append_left _ hx))
    obtain ⟨ds, m'', k1, k2⟩ := acts_safe hbig hlong hhalf hfits hG hhz hroom hn hk l 0 m' (by omega) (by omega) j2 hl hkept
      (fun x hx => hb x (List.mem_append_right _ hx))
    refine ⟨d + ds, m'', ?_, k2⟩
    simp only [Machine.acts, Machine.act, j1, Option.bind_eq_bind, Option.bind_some, k1]
  | .nmi :: l, c, m, hF, hhz', h, hl, hk', hb => by
    have hcm : c + 1 ≤ most := sparse_le l hl
    obtain ⟨h1, h2, h3, h4, h5, h6, h7⟩ := h
    obtain ⟨d, hd1, hd2, hd3, hd4, hd5⟩ := nmi_paces (C61_prompt bound n slurp flush) m (by omega)
    have hd0 : d ≤ 11 := by
      rcases hd1 with ⟨_, rfl⟩ | ⟨_, rfl⟩ <;> decide
    unfold watch at hb
    have hkept := nmi_safe hbig hlong hhalf hfits (by omega) hk' (fun x hx => hb x (List.mem_append_left _ hx))
    obtain ⟨ds, m'', k1, k2⟩ := acts_safe hbig hlong hhalf hfits hG hhz hroom hn hk l (c + 1) (m.nmi dv).2 (by omega) (by omega)
      ⟨by omega, by omega, by omega, by omega, by omega, by omega, by omega⟩ hl
      (by rw [Nat.mul_add]; exact hkept) (fun x hx => hb x (List.mem_append_right _ hx))
    refine ⟨(m.nmi dv).1.getD 0 + ds, m'', ?_, k2⟩
    simp only [Machine.acts, Machine.act, Option.bind_eq_bind, Option.bind_some, k1]
  | .reset :: l, c, m, hF, hhz', h, hl, hk', hb => by
    have hcm : c ≤ most := sparse_le l hl
    obtain ⟨h1, h2, h3, h4, h5, h6, h7⟩ := h
    unfold watch at hb
    have hkept := mreset_safe hbig hlong hhalf hfits (by omega) (by omega) hk'
      (fun x hx => hb x (List.mem_append_left _ hx))
    have hkept' : Kept H K G (11 * c) (m.reset dv) := by
      obtain ⟨e, b, a1, a2, a3, a4, a5⟩ := hkept
      exact ⟨e, b, a1, a2, a3, by omega, a5⟩
    obtain ⟨ds, m'', k1, k2⟩ := acts_safe hbig hlong hhalf hfits hG hhz hroom hn hk l c (m.reset dv) hF hhz'
      ⟨h1, h2, h3, h4, h5, h6, h7⟩ hl hkept' (fun x hx => hb x (List.mem_append_right _ hx))
    refine ⟨0 + ds, m'', ?_, k2⟩
    simp only [Machine.acts, Machine.act, Option.bind_eq_bind, Option.bind_some, k1]

end Z80.Ral
