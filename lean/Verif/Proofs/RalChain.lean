import Verif.Model.RalCtc
import Verif.Model.RalPio
import Verif.Spec.RalChain

/-!
# Lemmas on daisy chains
-/

namespace Z80.Ral
open Spec.Ral

theorem Node.le_refl (n : Node) : n.le n := ⟨rfl, rfl, fun _ _ h => h⟩

theorem grows_refl : ∀ l : List Node, grows l l
  | [] => trivial
  | n :: l => ⟨Node.le_refl n, grows_refl l⟩

theorem Node.le_trans {a b c : Node} (h : a.le b) (h' : b.le c) : a.le c :=
  ⟨h'.1.trans h.1, h'.2.1.trans h.2.1, fun k v e => h'.2.2 k v (h.2.2 k v e)⟩

theorem grows_trans : ∀ {a b c : List Node}, grows a b → grows b c → grows a c
  | [], [], [], _, _ => trivial
  | _ :: _, _ :: _, _ :: _, h, h' => ⟨Node.le_trans h.1 h'.1, grows_trans h.2 h'.2⟩

theorem grows_served : ∀ {a b : List Node}, grows a b → served b = served a
  | [], [], _ => rfl
  | _ :: _, _ :: _, h => by simp only [served, h.1.1, grows_served h.2]

theorem take_none : ∀ l : List (Bool × U8), Node.take l = none ↔ l.any Prod.fst = false
  | [] => by simp [Node.take]
  | (true, v) :: l => by simp [Node.take]
  | (false, v) :: l => by
    have := take_none l
    simp only [Node.take, Option.map_eq_none_iff, this, List.any_cons, Bool.false_or]

/-- Accepting pushes the position of the accepted device on the list of those served. -/
theorem accept_served : ∀ {l : List Node}, asks l = true →
    ∃ p v l', accept l = some (p, v, l') ∧ served l' = p :: served l ∧ ∀ q ∈ served l, p < q
  | [], h => by cases h
  | n :: r, h => by
    simp only [asks, Bool.and_eq_true, Bool.not_eq_true', Bool.or_eq_true] at h
    obtain ⟨hb, h⟩ := h
    cases ht : Node.take n.lines with
    | some x =>
      obtain ⟨v, l⟩ := x
      refine ⟨0, v, { busy := true, lines := l } :: r, by simp only [accept, ht], by simp [served, hb], ?_⟩
      intro q hq
      simp only [served, hb, Bool.false_eq_true, if_false, List.nil_append, List.mem_map] at hq
      obtain ⟨y, -, rfl⟩ := hq
      exact Nat.succ_pos y
    | none =>
      have hr : n.requests = false := (take_none _).1 ht
      rw [hr] at h
      obtain ⟨p, v, l', e, hs, hp⟩ := accept_served (l := r) (by simpa using h)
      refine ⟨p + 1, v, n :: l', by simp only [accept, ht, e, Option.map_some], by simp [served, hb, hs], ?_⟩
      intro q hq
      simp only [served, hb, Bool.false_eq_true, if_false, List.nil_append, List.mem_map] at hq
      obtain ⟨y, hy, rfl⟩ := hq
      exact Nat.succ_lt_succ (hp y hy)

/-- RETI takes the first position off that list. -/
theorem ends_served : ∀ l : List Node, served (ends l) = (served l).tail
  | [] => rfl
  | n :: r => by
    cases hb : n.busy with
    | true => simp [ends, served, hb]
    | false => simp [ends, served, hb, ends_served r, List.map_tail]

/-- The device does what a daisy chain does, seen as a list of nodes. -/
structure Daisy {D : Type} (dev : Device D) (view : D → List Node) : Prop where
  isIrq : ∀ ts d b d', dev.isIrq ts d = some (b, d') → b = asks (view d') ∧ grows (view d) (view d')
  irqData : ∀ pc ts d, asks (view d) = true → ∃ p v d', dev.irqData pc ts d = some ((v, none), d') ∧
    accept (view d) = some (p, v, view d')
  reti : ∀ pc ts d, ∃ d', dev.reti pc ts d = some d' ∧ view d' = ends (view d)
  m1 : ∀ ts d d', dev.m1 ts d = some d' → grows (view d) (view d')
  frameEnd : ∀ ts d d', dev.frameEnd ts d = some d' → grows (view d) (view d')
  nextSecond : ∀ ts d d', dev.nextSecond ts d = some d' → view d' = view d
  readIo : ∀ port ts d v d', dev.readIo port ts d = some (v, d') → grows (view d) (view d')
  writeIo : ∀ port data ts d v d', dev.writeIo port data ts d = some (v, d') → served (view d') = served (view d)
  reset : ∀ ts d d', dev.reset ts d = some d' → ∀ n ∈ view d', n.busy = false ∧ n.requests = false

theorem daisy_terminator : Daisy terminator fun _ => [] where
  isIrq _ _ _ _ h := by cases h; exact ⟨rfl, trivial⟩
  irqData _ _ _ h := by cases h
  reti _ _ _ := ⟨(), rfl, rfl⟩
  m1 _ _ _ _ := trivial
  frameEnd _ _ _ _ := trivial
  nextSecond _ _ _ _ := rfl
  readIo _ _ _ _ _ _ := trivial
  writeIo _ _ _ _ _ _ _ := rfl
  reset _ _ _ _ _ h := by cases h

/-! ### The parallel ports -/

/-- The two channels of a PIO, A before B. -/
def Pio.node {A B D : Type} (s : Pio A B D) : Node where
  busy := s.ieo
  lines := [(s.chA.intActive, s.chA.vector), (s.chB.intActive, s.chB.vector)]

/-- What can happen to a line. -/
def lineUp (b b' : Bool) : Prop := b = true → b' = true

theorem node_le2 {b : Bool} {x y x' y' : Bool} {v w : U8} (h : lineUp x x') (h' : lineUp y y') :
    ({ busy := b, lines := [(x, v), (y, w)] } : Node).le { busy := b, lines := [(x', v), (y', w)] } := by
  refine ⟨rfl, rfl, fun k u e => ?_⟩
  match k, e with
  | 0, e => obtain ⟨rfl, rfl⟩ := Prod.mk.inj (Option.some.inj e); simp [h rfl]
  | 1, e => obtain ⟨rfl, rfl⟩ := Prod.mk.inj (Option.some.inj e); simp [h' rfl]
  | k + 2, e => cases e

theorem checkInt_up {P : Type} (p : PioDev P) (ts : Nat) (c : PioChannel P) :
    lineUp c.intActive (c.checkInt p ts).2.intActive ∧ (c.checkInt p ts).2.vector = c.vector ∧
      (c.checkInt p ts).1 = (c.checkInt p ts).2.intActive := by
  refine ⟨fun h => ?_, ?_, rfl⟩
  all_goals
    unfold PioChannel.checkInt PioChannel.setIntActive
    (repeat' split) <;> simp_all

theorem readIo_up {P : Type} (p : PioDev P) (ts : Nat) (c c' : PioChannel P) (v : U8)
    (h : c.readIo p ts = some (v, c')) : c'.intActive = c.intActive ∧ c'.vector = c.vector := by
  unfold PioChannel.readIo at h
  (repeat' split at h)
  all_goals
    first
      | (simp only [Option.map_eq_some_iff] at h; obtain ⟨t, -, h⟩ := h; cases h; exact ⟨rfl, rfl⟩)
      | (cases h; exact ⟨rfl, rfl⟩)

theorem m1_up {P : Type} (c : PioChannel P) : c.m1.intActive = c.intActive ∧ c.m1.vector = c.vector := by
  unfold PioChannel.m1; split <;> exact ⟨rfl, rfl⟩

theorem daisy_pio {A B D : Type} (a : PioDev A) (b : PioDev B) {dev : Device D} {view : D → List Node}
    (h : Daisy dev view) : Daisy (Pio.device a b dev) fun s => s.node :: view s.chained where
  isIrq ts s r s' e := by
    simp only [Pio.device, Pio.isIrq] at e
    obtain ⟨ua, va, ra⟩ := checkInt_up a ts s.chA
    obtain ⟨ub, vb, rb⟩ := checkInt_up b ts s.chB
    split at e
    · rename_i hi
      cases e
      exact ⟨by simp [asks, Pio.node, hi], Node.le_refl _, grows_refl _⟩
    · rename_i hi
      have hi : s.ieo = false := by simpa using hi
      split at e
      · rename_i c hc
        cases e
        rw [hc] at ua va ra
        dsimp only at ua va ra
        exact ⟨by simp [asks, Pio.node, hi, Node.requests, ← ra], by
          simp only [Pio.node, ← va]; exact node_le2 ua id, grows_refl _⟩
      · rename_i c hc
        rw [hc] at ua va ra
        dsimp only at ua va ra e
        split at e
        · rename_i c' hc'
          cases e
          rw [hc'] at ub vb rb
          dsimp only at ub vb rb
          exact ⟨by simp [asks, Pio.node, hi, Node.requests, ← rb], by
            simp only [Pio.node, ← va, ← vb]; exact node_le2 ua ub, grows_refl _⟩
        · rename_i c' hc'
          rw [hc'] at ub vb rb
          dsimp only at ub vb rb
          simp only [Option.map_eq_some_iff] at e
          obtain ⟨⟨r', d⟩, hd, e⟩ := e
          cases e
          obtain ⟨hr, hg⟩ := h.isIrq ts _ _ _ hd
          exact ⟨by simp [asks, Pio.node, hi, Node.requests, ← rb, ← ra, hr], by
            simp only [Pio.node, ← va, ← vb]; exact node_le2 ua ub, hg⟩
  irqData pc ts s e := by
    simp only [asks, Pio.node, Node.requests, Bool.and_eq_true, Bool.not_eq_true'] at e
    obtain ⟨hi, e⟩ := e
    simp only [Pio.device, Pio.irqData]
    cases ha : s.chA.intActive with
    | true => exact ⟨0, _, _, rfl, by simp [accept, Pio.node, ha, Node.take]⟩
    | false =>
      cases hb : s.chB.intActive with
      | true => exact ⟨0, _, _, rfl, by simp [accept, Pio.node, ha, hb, Node.take]⟩
      | false =>
        simp only [ha, hb, List.any_cons, List.any_nil, Bool.false_or, Bool.or_false] at e
        obtain ⟨p, v, d', e1, e2⟩ := h.irqData pc ts s.chained (by simpa using e)
        exact ⟨p + 1, v, { s with chained := d' }, by simp [e1], by
          simp [accept, Pio.node, ha, hb, Node.take, e2]⟩
  reti pc ts s := by
    simp only [Pio.device, Pio.reti]
    cases hi : s.ieo with
    | true => exact ⟨_, rfl, by simp [ends, Pio.node, hi]⟩
    | false =>
      obtain ⟨d', e1, e2⟩ := h.reti pc ts s.chained
      exact ⟨{ s with chained := d' }, by simp [e1, hi], by simp [ends, Pio.node, hi, e2]⟩
  m1 ts s s' e := by
    simp only [Pio.device, Pio.m1, Option.map_eq_some_iff] at e
    obtain ⟨d, hd, e⟩ := e
    cases e
    refine ⟨?_, h.m1 ts _ _ hd⟩
    simp only [Pio.node, (m1_up _).1, (m1_up _).2]
    exact Node.le_refl _
  frameEnd ts s s' e := by
    simp only [Pio.device, Pio.frameEnd, Option.map_eq_some_iff] at e
    obtain ⟨d, hd, e⟩ := e
    cases e
    refine ⟨?_, h.frameEnd ts _ _ hd⟩
    simp only [Pio.node, (checkInt_up _ _ _).2.1]
    exact node_le2 (checkInt_up _ _ _).1 (checkInt_up _ _ _).1
  nextSecond ts s s' e := by
    simp only [Pio.device, Pio.nextSecond, Option.map_eq_some_iff] at e
    obtain ⟨d, hd, e⟩ := e
    cases e
    simp only [h.nextSecond ts _ _ hd]
    rfl
  readIo port ts s v s' e := by
    simp only [Pio.device, Pio.readIo] at e
    (repeat' split at e) <;> simp only [Option.map_eq_some_iff] at e <;> obtain ⟨⟨x, c⟩, hc, e⟩ := e <;> cases e
    · obtain ⟨h1, h2⟩ := readIo_up a ts _ _ _ hc
      exact ⟨by simp only [Pio.node, h1, h2]; exact Node.le_refl _, grows_refl _⟩
    · obtain ⟨h1, h2⟩ := readIo_up b ts _ _ _ hc
      exact ⟨by simp only [Pio.node, h1, h2]; exact Node.le_refl _, grows_refl _⟩
    · exact ⟨Node.le_refl _, h.readIo _ _ _ _ _ hc⟩
  writeIo port data ts s v s' e := by
    simp only [Pio.device, Pio.writeIo] at e
    split at e
    · (repeat' split at e) <;> simp only [Option.map_eq_some_iff] at e <;> obtain ⟨c, hc, e⟩ := e <;> cases e <;> rfl
    · simp only [Option.map_eq_some_iff] at e
      obtain ⟨⟨x, d⟩, hd, e⟩ := e
      cases e
      simp only [served, h.writeIo _ _ _ _ _ _ hd]
      rfl
  reset ts s s' e := by
    simp only [Pio.device, Pio.reset, Option.map_eq_some_iff] at e
    obtain ⟨d, hd, e⟩ := e
    cases e
    intro n hn
    rcases List.mem_cons.1 hn with rfl | hn
    · exact ⟨rfl, rfl⟩
    · exact h.reset ts _ _ hd n hn

/-! ### The counter/timer -/

/-- The four channels of a CTC, 0 first. -/
def Ctc.node {W D : Type} (s : Ctc W D) : Node where
  busy := s.ieo
  lines := [(s.ch0.intActive, s.vector ||| 0#8), (s.ch1.intActive, s.vector ||| 2#8),
    (s.ch2.intActive, s.vector ||| 4#8), (s.ch3.intActive, s.vector ||| 6#8)]

theorem node_le4 {b : Bool} {x y z u x' y' z' u' : Bool} {v0 v1 v2 v3 : U8} (h0 : lineUp x x') (h1 : lineUp y y')
    (h2 : lineUp z z') (h3 : lineUp u u') :
    ({ busy := b, lines := [(x, v0), (y, v1), (z, v2), (u, v3)] } : Node).le
      { busy := b, lines := [(x', v0), (y', v1), (z', v2), (u', v3)] } := by
  refine ⟨rfl, rfl, fun k w e => ?_⟩
  match k, e with
  | 0, e => obtain ⟨rfl, rfl⟩ := Prod.mk.inj (Option.some.inj e); simp [h0 rfl]
  | 1, e => obtain ⟨rfl, rfl⟩ := Prod.mk.inj (Option.some.inj e); simp [h1 rfl]
  | 2, e => obtain ⟨rfl, rfl⟩ := Prod.mk.inj (Option.some.inj e); simp [h2 rfl]
  | 3, e => obtain ⟨rfl, rfl⟩ := Prod.mk.inj (Option.some.inj e); simp [h3 rfl]
  | k + 4, e => cases e

namespace CtcChannel
variable {W : Type} (t : Triggers W) (i : Fin 4)

theorem setIntActive_up (c : CtcChannel) : lineUp c.intActive c.setIntActive.intActive :=
  fun h => by simp [setIntActive, h]

theorem startTimer_int {ts : Nat} {c c' : CtcChannel} (h : c.startTimer ts = some c') :
    c'.intActive = c.intActive := by
  simp only [startTimer, Option.map_eq_some_iff] at h
  obtain ⟨_, -, rfl⟩ := h
  rfl

theorem downcount_up {r : U8} {ts : Nat} {c c' : CtcChannel} {w w' : W} {b : Bool}
    (h : downcount t i r ts c w = some (b, c', w')) : lineUp c.intActive c'.intActive := by
  simp only [downcount] at h
  split at h
  · simp only [Option.map_eq_some_iff] at h
    obtain ⟨_, -, h⟩ := h
    cases h
    exact setIntActive_up (c := { c with current := r })
  · cases h; exact id

theorem countLoop_up {r : U8} {ts : Nat} : ∀ {n : Nat} {c c' : CtcChannel} {w w' : W},
    countLoop t i r ts n c w = some (c', w') → lineUp c.intActive c'.intActive
  | 0, _, _, _, _, h => by cases h
  | n + 1, c, c', w, w', h => by
    simp only [countLoop] at h
    split at h
    · cases h
    · split at h
      · cases h
      · rename_i hd
        cases h
        exact downcount_up t i hd
      · rename_i hd
        exact fun hc => countLoop_up h (downcount_up t i hd hc)
    · cases h; exact id

theorem timerLoop_up {r f : Nat} : ∀ {n d k p : Nat} {c : CtcChannel} {w : W} {d' k' p' : Nat} {c' : CtcChannel}
    {w' : W}, timerLoop t i r f n d k p c w = some (d', k', p', c', w') → lineUp c.intActive c'.intActive
  | 0, _, _, _, _, _, _, _, _, _, _, h => by cases h
  | n + 1, d, k, p, c, w, d', k', p', c', w', h => by
    simp only [timerLoop] at h
    split at h
    · split at h
      · cases h
      · split at h
        · cases h
        · exact fun hc => timerLoop_up h (setIntActive_up c hc)
    · cases h; exact id

theorem runTimer_up {r : U8} {last ts : Nat} {c c' : CtcChannel} {w w' : W}
    (h : runTimer t i r last ts c w = some (c', w')) : lineUp c.intActive c'.intActive := by
  simp only [runTimer] at h
  split at h
  · cases h
  · split at h
    · split at h
      · split at h
        · cases h
        · rename_i hl
          split at h
          · cases h
          · cases h
            intro hc
            have := timerLoop_up t i hl hc
            split <;> exact this
      · cases h
    · simp only [Option.map_eq_some_iff] at h
      obtain ⟨_, -, h⟩ := h
      cases h; exact id

theorem triggerLoop_up {trig ts : Nat} : ∀ {n : Nat} {c c' : CtcChannel} {w w' : W},
    triggerLoop t i trig ts n c w = some (c', w') → lineUp c.intActive c'.intActive
  | 0, _, _, _, _, h => by cases h
  | n + 1, c, c', w, w', h => by
    simp only [triggerLoop] at h
    split at h
    · cases h
    · split at h
      · simp only [Option.map_eq_some_iff] at h
        obtain ⟨_, hs, h⟩ := h
        cases h
        rw [startTimer_int hs]; exact id
      · exact triggerLoop_up h
    · cases h; exact id

/-- Time can only raise requests. -/
theorem process_up {ts : Nat} {c c' : CtcChannel} {w w' : W} (h : process t i ts c w = some (c', w')) :
    lineUp c.intActive c'.intActive := by
  simp only [process] at h
  have idle : ∀ {c' w'}, (t.purge i ts w).map (fun (hint, w) => ({ c with hint := hint }, w)) = some (c', w') →
      lineUp c.intActive c'.intActive := by
    intro c' w' h
    simp only [Option.map_eq_some_iff] at h
    obtain ⟨_, -, h⟩ := h
    cases h; exact id
  split at h
  · exact countLoop_up t i h
  · split at h
    · exact runTimer_up t i h
    · exact triggerLoop_up t i h
    · exact idle h
  · exact idle h

end CtcChannel

namespace Ctc
variable {W D : Type} (t : Triggers W)

theorem processChannel_up {i : Fin 4} {force : Bool} {ts : Nat} {c c' : CtcChannel} {w w' : W}
    (h : processChannel t i force ts c w = some (c', w')) : lineUp c.intActive c'.intActive := by
  unfold processChannel at h
  split at h
  · exact CtcChannel.process_up t i h
  · cases h; exact id

/-- Time can only raise requests, and touches nothing but the channels. -/
theorem processChannels_up {ts : Nat} {s s' : Ctc W D} (h : s.processChannels t ts = some s') :
    s.node.le s'.node ∧ s'.ieo = s.ieo ∧ s'.chained = s.chained := by
  unfold processChannels at h
  split at h
  · simp only [Option.bind_eq_bind, Option.bind_eq_some_iff] at h
    obtain ⟨⟨c0, w0⟩, h0, ⟨c1, w1⟩, h1, ⟨c2, w2⟩, h2, ⟨c3, w3⟩, h3, h⟩ := h
    cases h
    exact ⟨node_le4 (processChannel_up t h0) (processChannel_up t h1) (processChannel_up t h2)
      (processChannel_up t h3), rfl, rfl⟩
  · cases h
    exact ⟨Node.le_refl _, rfl, rfl⟩

theorem nextSecond_int {i : Fin 4} {delta : Nat} {c c' : CtcChannel} {w w' : W}
    (h : c.nextSecond t i delta w = some (c', w')) : c'.intActive = c.intActive := by
  simp only [CtcChannel.nextSecond] at h
  split at h
  · cases h
  · simp only [Option.map_eq_some_iff] at h
    obtain ⟨_, -, h⟩ := h
    cases h; rfl

theorem reset_int {i : Fin 4} {ts : Nat} {c c' : CtcChannel} {w w' : W}
    (h : c.reset t i ts w = some (c', w')) : c'.intActive = false := by
  simp only [CtcChannel.reset, Option.map_eq_some_iff] at h
  obtain ⟨_, -, h⟩ := h
  cases h; rfl

end Ctc

theorem daisy_ctc {W D : Type} (t : Triggers W) {dev : Device D} {view : D → List Node} (h : Daisy dev view) :
    Daisy (Ctc.device t dev) fun s => s.node :: view s.chained where
  isIrq ts s r s' e := by
    simp only [Ctc.device, Ctc.isIrq] at e
    split at e
    · rename_i hi
      cases e
      exact ⟨by simp [asks, Ctc.node, hi], Node.le_refl _, grows_refl _⟩
    · rename_i hi
      have hi : s.ieo = false := by simpa using hi
      simp only [Option.bind_eq_bind, Option.bind_eq_some_iff] at e
      obtain ⟨s1, hs1, e⟩ := e
      obtain ⟨hg, hb, hc⟩ := Ctc.processChannels_up t hs1
      split at e
      · rename_i ha
        cases e
        refine ⟨?_, hg, by rw [hc]; exact grows_refl _⟩
        simp only [Bool.or_assoc] at ha
        simp [asks, Ctc.node, hb, hi, Node.requests, ha]
      · rename_i ha
        simp only [Option.bind_eq_some_iff] at e
        obtain ⟨⟨b, d⟩, hd, e⟩ := e
        cases e
        obtain ⟨hr, hg'⟩ := h.isIrq ts _ _ _ hd
        rw [hc] at hg'
        have ha : (s1.ch0.intActive || s1.ch1.intActive || s1.ch2.intActive || s1.ch3.intActive) = false := by
          simpa using ha
        refine ⟨?_, hg, hg'⟩
        simp only [Bool.or_assoc] at ha
        simp [asks, Ctc.node, hb, hi, Node.requests, ha, hr]
  irqData pc ts s e := by
    simp only [asks, Ctc.node, Node.requests, Bool.and_eq_true, Bool.not_eq_true'] at e
    obtain ⟨hi, e⟩ := e
    simp only [Ctc.device, Ctc.irqData]
    cases h0 : s.ch0.intActive with
    | true => exact ⟨0, _, _, rfl, by simp [accept, Ctc.node, h0, Node.take]⟩
    | false =>
      cases h1 : s.ch1.intActive with
      | true => exact ⟨0, _, _, rfl, by simp [accept, Ctc.node, h0, h1, Node.take]⟩
      | false =>
        cases h2 : s.ch2.intActive with
        | true => exact ⟨0, _, _, rfl, by simp [accept, Ctc.node, h0, h1, h2, Node.take]⟩
        | false =>
          cases h3 : s.ch3.intActive with
          | true => exact ⟨0, _, _, rfl, by simp [accept, Ctc.node, h0, h1, h2, h3, Node.take]⟩
          | false =>
            simp only [h0, h1, h2, h3, List.any_cons, List.any_nil, Bool.false_or, Bool.or_false] at e
            obtain ⟨p, v, d', e1, e2⟩ := h.irqData pc ts s.chained (by simpa using e)
            exact ⟨p + 1, v, { s with chained := d' }, by simp [e1, hi], by
              simp [accept, Ctc.node, h0, h1, h2, h3, Node.take, e2]⟩
  reti pc ts s := by
    simp only [Ctc.device, Ctc.reti]
    cases hi : s.ieo with
    | true => exact ⟨_, rfl, by simp [ends, Ctc.node, hi]⟩
    | false =>
      obtain ⟨d', e1, e2⟩ := h.reti pc ts s.chained
      exact ⟨{ s with chained := d' }, by simp [e1, hi], by simp [ends, Ctc.node, hi, e2]⟩
  m1 ts s s' e := by
    simp only [Ctc.device, Ctc.m1, Option.bind_eq_bind, Option.bind_eq_some_iff] at e
    obtain ⟨s1, hs1, d, hd, e⟩ := e
    cases e
    obtain ⟨hg, -, hc⟩ := Ctc.processChannels_up t hs1
    have := h.m1 ts _ _ hd
    rw [hc] at this
    exact ⟨hg, this⟩
  frameEnd ts s s' e := by
    simp only [Ctc.device, Ctc.frameEnd, Option.bind_eq_bind, Option.bind_eq_some_iff] at e
    obtain ⟨s1, hs1, d, hd, e⟩ := e
    cases e
    obtain ⟨hg, -, hc⟩ := Ctc.processChannels_up t hs1
    have := h.frameEnd ts _ _ hd
    rw [hc] at this
    exact ⟨hg, this⟩
  nextSecond ts s s' e := by
    simp only [Ctc.device, Ctc.nextSecond, Option.bind_eq_bind, Option.bind_eq_some_iff] at e
    obtain ⟨⟨c0, w0⟩, h0, ⟨c1, w1⟩, h1, ⟨c2, w2⟩, h2, ⟨c3, w3⟩, h3, d, hd, e⟩ := e
    cases e
    simp only [Ctc.node, h.nextSecond ts _ _ hd, Ctc.nextSecond_int t h0, Ctc.nextSecond_int t h1,
      Ctc.nextSecond_int t h2, Ctc.nextSecond_int t h3]
  readIo port ts s v s' e := by
    simp only [Ctc.device, Ctc.readIo, CtcChannel.readCounter, Option.map_map] at e
    (repeat' split at e) <;> simp only [Option.map_eq_some_iff, Function.comp] at e <;>
      obtain ⟨⟨x, c⟩, hc, e⟩ := e <;> cases e
    · exact ⟨node_le4 (CtcChannel.process_up t _ hc) id id id, grows_refl _⟩
    · exact ⟨node_le4 id (CtcChannel.process_up t _ hc) id id, grows_refl _⟩
    · exact ⟨node_le4 id id (CtcChannel.process_up t _ hc) id, grows_refl _⟩
    · exact ⟨node_le4 id id id (CtcChannel.process_up t _ hc), grows_refl _⟩
    · exact ⟨Node.le_refl _, h.readIo _ _ _ _ _ hc⟩
  writeIo port data ts s v s' e := by
    simp only [Ctc.device, Ctc.writeIo] at e
    split at e
    · (repeat' split at e) <;> simp only [Option.map_eq_some_iff] at e <;> obtain ⟨⟨b, c, w⟩, hc, e⟩ := e <;>
        cases e <;> dsimp only <;> split <;> rfl
    · simp only [Option.map_eq_some_iff] at e
      obtain ⟨⟨x, d⟩, hd, e⟩ := e
      cases e
      simp only [served, h.writeIo _ _ _ _ _ _ hd]
      rfl
  reset ts s s' e := by
    simp only [Ctc.device, Ctc.reset, Option.bind_eq_bind, Option.bind_eq_some_iff] at e
    obtain ⟨⟨c0, w0⟩, h0, ⟨c1, w1⟩, h1, ⟨c2, w2⟩, h2, ⟨c3, w3⟩, h3, d, hd, e⟩ := e
    cases e
    intro n hn
    rcases List.mem_cons.1 hn with rfl | hn
    · exact ⟨rfl, by simp [Node.requests, Ctc.node, Ctc.reset_int t h0, Ctc.reset_int t h1, Ctc.reset_int t h2,
        Ctc.reset_int t h3]⟩
    · exact h.reset ts _ _ hd n hn

end Z80.Ral
