import Verif.Props.RalHint
import Verif.Spec.RalPio

/-!
# C60: parallel ports of the example computer hand over every byte once and in order
-/

namespace Z80.Ral
open Spec.Ral

variable {A B D S E : Type} {a : PioDev A} {b : PioDev B} {dev : Device D}

/-- The stream, with all bytes it has given written down. -/
def logIn (slurp : S → Option U8 × S) : S × List U8 → Option U8 × (S × List U8)
  | (s, l) => match slurp s with
    | (some b, s) => (some b, (s, l ++ [b]))
    | (none, s) => (none, (s, l))

/-- The sink, with all bytes it has accepted written down. -/
def logOut (flush : U8 → S → Bool × S) : U8 → S × List U8 → Bool × (S × List U8)
  | b, (s, l) => match flush b s with
    | (true, s) => (true, (s, l ++ [b]))
    | (false, s) => (false, (s, l))

/-- A use of a device, with the byte that a read gives. -/
def Use.value (dev : Device E) : Use → E → Option (Option U8 × E)
  | .read port ts, d => (dev.readIo port ts d).map fun (v, d) => (some v.1, d)
  | u, d => (u.act dev d).map fun d => (none, d)

/-- The port belongs to channel A (or B) of the chip. -/
def Pio.ofA (s : Pio A B D) (port : U16) : Bool := port &&& s.matchMask = s.matchBits && port &&& s.channelMask = 0
def Pio.ofB (s : Pio A B D) (port : U16) : Bool := port &&& s.matchMask = s.matchBits && port &&& s.channelMask ≠ 0

/-- The port is for control words. -/
def Pio.ofControl (s : Pio A B D) (port : U16) : Bool := port &&& s.controlMask ≠ 0

/-- Not a control word that selects a mode of the channel with the given ports. -/
def Use.keeps (own : U16 → Bool) (control : U16 → Bool) : Use → Prop
  | .write port data _ => ¬ (own port = true ∧ control port = true ∧ data &&& 0x0F#8 = 0x0F#8)
  | _ => True

/-- The read of a channel with the given ports, if it is one. -/
def Use.readOf (own : U16 → Bool) : Use → Option U8 → List Xfer
  | .read port _, some v => if own port then [.read v] else []
  | _, _ => []

/-- What is handed over at channel A during uses of the chip: the bytes by which the log grows, and the reads of the
channel. -/
def transfers (dev : Device (Pio (PioInput (S × List U8)) B D)) :
    List Use → Pio (PioInput (S × List U8)) B D → Option (List Xfer × Pio (PioInput (S × List U8)) B D)
  | [], s => some ([], s)
  | u :: l, s => match u.value dev s with
    | none => none
    | some (v, s') => match transfers dev l s' with
      | none => none
      | some (r, s'') =>
        some ((s'.chA.device.source.2.drop s.chA.device.source.2.length).map .take ++
          u.readOf s.ofA v ++ r, s'')

/-- The channel is an input that shows byte `q.2`; `q.1` is the byte that has not been read yet. -/
structure Hears (c : PioChannel (PioInput (S × List U8))) (q : Option U8 × U8) (log : List U8) : Prop where
  mode : c.mode = .input
  ready : c.device.ready = c.readyActive
  shows : c.dataIn = q.2
  unread : q.1 = if c.readyActive then none else some c.dataIn
  log : c.device.source.2 = log

theorem hears_check {slurp : S → Option U8 × S} {c : PioChannel (PioInput (S × List U8))} {q : Option U8 × U8}
    {log : List U8} (h : Hears c q log) (ts : Nat) :
    ∃ l q', hand q (l.map .take) = some q' ∧ Hears (c.checkInt (pioInput (logIn slurp)) ts).2 q' (log ++ l) ∧
      (l ≠ [] → c.intsEnabled = true → (c.checkInt (pioInput (logIn slurp)) ts).1 = true) := by
  obtain ⟨h1, h2, h3, h4, h5⟩ := h
  obtain ⟨mode, wi, ie, ia, ra, din, dout, vec, ⟨⟨s, lg⟩, rdy⟩⟩ := c
  obtain ⟨q1, q2⟩ := q
  simp only at h1 h2 h3 h4 h5
  subst h1 h2 h3 h5
  cases rdy
  · refine ⟨[], (q1, din), rfl, ⟨rfl, rfl, rfl, h4, by simp [PioChannel.checkInt]⟩, by simp⟩
  · simp only [if_true] at h4
    subst h4
    rcases hs : slurp s with ⟨_ | byte, s'⟩
    · refine ⟨[], (none, din), rfl, ?_, by simp⟩
      simp only [PioChannel.checkInt, pioInput, logIn, hs, if_true, List.append_nil]
      exact ⟨rfl, rfl, rfl, rfl, rfl⟩
    · refine ⟨[byte], (some byte, byte), rfl, ?_, ?_⟩
      · simp only [PioChannel.checkInt, pioInput, logIn, hs, if_true, PioChannel.setIntActive]
        exact ⟨rfl, rfl, rfl, rfl, rfl⟩
      · intro _ he
        simp only [PioChannel.checkInt, pioInput, logIn, hs, if_true, PioChannel.setIntActive]
        simp only at he
        simp [he]

theorem hears_read {slurp : S → Option U8 × S} {c c' : PioChannel (PioInput (S × List U8))} {q : Option U8 × U8}
    {log : List U8} (h : Hears c q log) {ts : Nat} {v : U8} (e : c.readIo (pioInput (logIn slurp)) ts = some (v, c')) :
    hand q [.read v] = some (none, q.2) ∧ Hears c' (none, q.2) log := by
  obtain ⟨h1, h2, h3, h4, h5⟩ := h
  simp only [PioChannel.readIo, h1] at e
  split at e
  all_goals
    simp only [Option.map_eq_some_iff, Prod.mk.injEq] at e
    obtain ⟨_, -, rfl, rfl⟩ := e
    refine ⟨?_, ⟨rfl, ?_, h3, ?_, h5⟩⟩
    · obtain ⟨q1, q2⟩ := q
      simp only at h3
      subst h3
      simp [hand]
    · simp_all [pioInput]
    · simp_all

theorem hears_data {slurp : S → Option U8 × S} {c c' : PioChannel (PioInput (S × List U8))} {q : Option U8 × U8}
    {log : List U8} (h : Hears c q log) {ts : Nat} {data : U8}
    (e : c.writeData (pioInput (logIn slurp)) data ts = some c') : Hears c' q log := by
  obtain ⟨h1, h2, h3, h4, h5⟩ := h
  simp only [PioChannel.writeData, h1] at e
  cases e
  exact ⟨rfl, h2, h3, h4, h5⟩

theorem hears_control {slurp : S → Option U8 × S} {c c' : PioChannel (PioInput (S × List U8))} {q : Option U8 × U8}
    {log : List U8} (h : Hears c q log) {ts : Nat} {data : U8} (hd : data &&& 0x0F#8 ≠ 0x0F#8)
    (e : c.writeControl (pioInput (logIn slurp)) data ts = some c') : Hears c' q log := by
  obtain ⟨h1, h2, h3, h4, h5⟩ := h
  simp only [PioChannel.writeControl] at e
  split at e
  · cases e; exact ⟨h1, h2, h3, h4, h5⟩
  · split at e
    · rename_i hx
      exact absurd (BitVec.eq_of_toNat_eq hx) hd
    · cases e
    · split at e <;> cases e <;> exact ⟨h1, h2, h3, h4, h5⟩
    · cases e; exact ⟨h1, h2, h3, h4, h5⟩

/-- The ports of the chip. -/
def Pio.ports (s : Pio A B D) : U16 × U16 × U16 × U16 := (s.matchMask, s.matchBits, s.controlMask, s.channelMask)

theorem Pio.ports_of {B D : Type} {s s' : Pio A B D} (h : s'.ports = s.ports) :
    s'.ofA = s.ofA ∧ s'.ofB = s.ofB ∧ s'.ofControl = s.ofControl := by
  simp only [Pio.ports, Prod.mk.injEq] at h
  obtain ⟨h1, h2, h3, h4⟩ := h
  refine ⟨?_, ?_, ?_⟩ <;> funext p <;> simp only [Pio.ofA, Pio.ofB, Pio.ofControl, h1, h2, h3, h4]

theorem hears_step {slurp : S → Option U8 × S} {s s' : Pio (PioInput (S × List U8)) B D} {q : Option U8 × U8}
    {log : List U8} (h : Hears s.chA q log) {u : Use} (hu : u.keeps s.ofA s.ofControl) {v : Option U8}
    (e : u.value (Pio.device (pioInput (logIn slurp)) b dev) s = some (v, s')) :
    ∃ l q', hand q (l.map .take ++ u.readOf s.ofA v) = some q' ∧ Hears s'.chA q' (log ++ l) ∧ s'.ports = s.ports := by
  cases u with
  | ask ts =>
    simp only [Use.value, Use.act, Pio.device, Pio.isIrq, Option.map_eq_some_iff] at e
    obtain ⟨_, ⟨⟨r, s1⟩, e, rfl⟩, e2⟩ := e
    cases e2
    obtain ⟨l, q', k1, k2, -⟩ := hears_check (slurp := slurp) h ts
    split at e
    · cases e
      exact ⟨[], q, rfl, by simpa using h, rfl⟩
    · refine ⟨l, q', by simpa [Use.readOf] using k1, ?_⟩
      split at e
      · rename_i hc
        cases e
        rw [hc] at k2
        exact ⟨k2, rfl⟩
      · rename_i hc
        rw [hc] at k2
        split at e
        · cases e
          exact ⟨k2, rfl⟩
        · simp only [Option.map_eq_some_iff] at e
          obtain ⟨_, -, e⟩ := e
          cases e
          exact ⟨k2, rfl⟩
  | ack pc ts =>
    refine ⟨[], q, rfl, ?_⟩
    simp only [Use.value, Use.act, Pio.device, Pio.irqData, Option.map_eq_some_iff] at e
    obtain ⟨_, ⟨⟨r, s1⟩, e, rfl⟩, e2⟩ := e
    cases e2
    rw [List.append_nil]
    split at e
    · cases e; exact ⟨⟨h.mode, h.ready, h.shows, h.unread, h.log⟩, rfl⟩
    · split at e
      · cases e; exact ⟨h, rfl⟩
      · simp only [Option.map_eq_some_iff] at e
        obtain ⟨_, -, e⟩ := e
        cases e
        exact ⟨h, rfl⟩
  | reti pc ts =>
    refine ⟨[], q, rfl, ?_⟩
    simp only [Use.value, Use.act, Pio.device, Pio.reti, Option.map_eq_some_iff] at e
    obtain ⟨_, e, e2⟩ := e
    cases e2
    rw [List.append_nil]
    split at e
    · cases e; exact ⟨h, rfl⟩
    · simp only [Option.map_eq_some_iff] at e
      obtain ⟨_, -, rfl⟩ := e
      exact ⟨h, rfl⟩
  | m1 ts =>
    refine ⟨[], q, rfl, ?_⟩
    simp only [Use.value, Use.act, Pio.device, Pio.m1, Option.map_eq_some_iff] at e
    obtain ⟨_, ⟨_, -, rfl⟩, e2⟩ := e
    cases e2
    rw [List.append_nil]
    refine ⟨?_, rfl⟩
    simp only [PioChannel.m1]
    split
    · exact ⟨h.mode, h.ready, h.shows, h.unread, h.log⟩
    · exact h
  | frameEnd ts =>
    simp only [Use.value, Use.act, Pio.device, Pio.frameEnd, Option.map_eq_some_iff] at e
    obtain ⟨_, ⟨_, -, rfl⟩, e2⟩ := e
    cases e2
    obtain ⟨l, q', k1, k2, -⟩ := hears_check (slurp := slurp) h ts
    exact ⟨l, q', by simpa [Use.readOf] using k1, k2, rfl⟩
  | nextSecond delta =>
    refine ⟨[], q, rfl, ?_⟩
    simp only [Use.value, Use.act, Pio.device, Pio.nextSecond, Option.map_eq_some_iff] at e
    obtain ⟨_, ⟨_, -, rfl⟩, e2⟩ := e
    cases e2
    rw [List.append_nil]
    exact ⟨h, rfl⟩
  | read port ts =>
    simp only [Use.value, Pio.device, Pio.readIo, Option.map_eq_some_iff] at e
    obtain ⟨⟨⟨r, r'⟩, s1⟩, e, e2⟩ := e
    cases e2
    refine ⟨[], ?_⟩
    split at e
    · rename_i hm
      split at e
      · rename_i hc
        simp only [Option.map_eq_some_iff] at e
        obtain ⟨⟨x, c⟩, e, e2⟩ := e
        cases e2
        obtain ⟨k1, k2⟩ := hears_read h e
        refine ⟨_, ?_, by simpa using k2, rfl⟩
        simpa [Use.readOf, Pio.ofA, hm, hc] using k1
      · rename_i hc
        simp only [Option.map_eq_some_iff] at e
        obtain ⟨⟨x, c⟩, e, e2⟩ := e
        cases e2
        have hA : s.ofA port = false := by
          simp only [Pio.ofA, Bool.and_eq_false_iff, decide_eq_false_iff_not]
          exact Or.inr hc
        exact ⟨q, by simp [Use.readOf, hA, hand], by simpa using h, rfl⟩
    · rename_i hm
      simp only [Option.map_eq_some_iff] at e
      obtain ⟨⟨x, c⟩, e, e2⟩ := e
      cases e2
      exact ⟨q, by simp [Use.readOf, Pio.ofA, hm, hand], by simpa using h, rfl⟩
  | write port data ts =>
    refine ⟨[], q, rfl, ?_⟩
    rw [List.append_nil]
    simp only [Use.value, Use.act, Pio.device, Pio.writeIo, Option.map_eq_some_iff] at e
    obtain ⟨_, ⟨⟨r, s1⟩, e, rfl⟩, e2⟩ := e
    cases e2
    split at e
    · rename_i hm
      split at e
      · rename_i hc
        simp only [Option.map_eq_some_iff] at e
        obtain ⟨c, e, e2⟩ := e
        cases e2
        refine ⟨?_, rfl⟩
        split at e
        · exact hears_data h e
        · rename_i hk
          refine hears_control h (fun hd => hu ⟨?_, ?_, hd⟩) e
          · simp [Pio.ofA, hm, hc]
          · simpa [Pio.ofControl] using hk
      · simp only [Option.map_eq_some_iff] at e
        obtain ⟨c, e, e2⟩ := e
        cases e2
        exact ⟨h, rfl⟩
    · simp only [Option.map_eq_some_iff] at e
      obtain ⟨⟨x, c⟩, e, e2⟩ := e
      cases e2
      exact ⟨h, rfl⟩

theorem hand_append : ∀ (l l' : List Xfer) (q : Option U8 × U8), hand q (l ++ l') = (hand q l).bind fun q => hand q l'
  | [], _, _ => rfl
  | .take x :: l, l', (none, y) => by simp only [List.cons_append, hand]; exact hand_append l l' _
  | .take x :: l, l', (some z, y) => by simp [hand]
  | .read x :: l, l', (z, y) => by
    simp only [List.cons_append, hand]
    split
    · exact hand_append l l' _
    · rfl

theorem takes_append : ∀ l l' : List Xfer, takes (l ++ l') = takes l ++ takes l'
  | [], _ => rfl
  | .take x :: l, l' => by simp only [List.cons_append, takes, takes_append l l']
  | .read x :: l, l' => by simp only [List.cons_append, takes, takes_append l l']

theorem takes_map : ∀ l : List U8, takes (l.map .take) = l
  | [] => rfl
  | x :: l => by simp only [List.map_cons, takes, takes_map l]

theorem hand_fresh : ∀ (l : List Xfer) (q q' : Option U8 × U8), (∀ x, q.1 = some x → x = q.2) → hand q l = some q' →
    q.1.toList ++ takes l = fresh q.1.isSome l ++ q'.1.toList ∧ (∀ x, q'.1 = some x → x = q'.2)
  | [], q, q', hq, h => by cases h; simp [takes, fresh]; exact hq
  | .take x :: l, (none, y), q', hq, h => by
    simp only [hand] at h
    obtain ⟨h1, h2⟩ := hand_fresh l _ _ (by simp) h
    exact ⟨by simpa [takes, fresh] using h1, h2⟩
  | .take x :: l, (some z, y), q', hq, h => by cases h
  | .read x :: l, (z, y), q', hq, h => by
    simp only [hand] at h
    split at h
    · rename_i hx
      obtain ⟨h1, h2⟩ := hand_fresh l _ _ (by simp) h
      refine ⟨?_, h2⟩
      cases z with
      | none => simpa [takes, fresh] using h1
      | some z =>
        have : z = y := hq z rfl
        subst this hx
        simpa [takes, fresh] using h1
    · cases h

/-- **C60.** Channel A as an input, for any stream, whatever else is done with the chip (and with the channel, except that
its mode is not selected again): a byte is taken from the stream only after the one before has been read; the program
reads the byte taken last; and so the first reads after each byte taken give exactly the bytes of the stream, each once
and in order, but for the last one if it has not been read yet. -/
theorem C60_input {slurp : S → Option U8 × S} : ∀ (us : List Use) {s s' : Pio (PioInput (S × List U8)) B D}
    {q : Option U8 × U8} {log : List U8} {ev : List Xfer}, Hears s.chA q log →
    (∀ u ∈ us, u.keeps s.ofA s.ofControl) →
    transfers (Pio.device (pioInput (logIn slurp)) b dev) us s = some (ev, s') →
    ∃ q', hand q ev = some q' ∧ s'.chA.device.source.2 = log ++ takes ev ∧ Hears s'.chA q' (log ++ takes ev)
  | [], s, s', q, log, ev, h, hu, e => by
    cases e
    exact ⟨q, rfl, by simpa [takes] using h.log, by simpa [takes] using h⟩
  | u :: us, s, s', q, log, ev, h, hu, e => by
    simp only [transfers] at e
    split at e
    · cases e
    · rename_i v s1 e1
      split at e
      · cases e
      · rename_i r s2 e2
        obtain ⟨l, q1, k1, k2, k3⟩ := hears_step h (hu u List.mem_cons_self) e1
        obtain ⟨p1, -, p2⟩ := Pio.ports_of k3
        obtain ⟨q', j1, j2, j3⟩ := C60_input us k2
          (fun w hw => by rw [p1, p2]; exact hu w (List.mem_cons_of_mem _ hw)) e2
        have hl : s1.chA.device.source.2.drop s.chA.device.source.2.length = l := by
          rw [k2.log, h.log, List.drop_left]
        rw [hl] at e
        cases e
        have ht : takes (u.readOf s.ofA v) = [] := by
          unfold Use.readOf
          split
          · split <;> rfl
          · rfl
        have hall : takes (l.map .take ++ u.readOf s.ofA v ++ r) = l ++ takes r := by
          rw [takes_append, takes_append, takes_map, ht, List.append_nil]
        refine ⟨q', ?_, ?_, ?_⟩
        · rw [hand_append, k1]; exact j1
        · rw [hall, ← List.append_assoc]; exact j2
        · rw [hall, ← List.append_assoc]; exact j3

/-- **C60.** In particular, starting with nothing unread. -/
theorem C60_once {slurp : S → Option U8 × S} {us : List Use} {s s' : Pio (PioInput (S × List U8)) B D} {x : U8}
    {ev : List Xfer} (h : Hears s.chA (none, x) []) (hu : ∀ u ∈ us, u.keeps s.ofA s.ofControl)
    (e : transfers (Pio.device (pioInput (logIn slurp)) b dev) us s = some (ev, s')) :
    ∃ rest, s'.chA.device.source.2 = fresh false ev ++ rest ∧ rest.length ≤ 1 := by
  obtain ⟨q', j1, j2, -⟩ := C60_input us h hu e
  obtain ⟨h1, -⟩ := hand_fresh ev _ _ (by simp) j1
  refine ⟨q'.1.toList, ?_, ?_⟩
  · rw [j2]; simpa using h1
  · cases q'.1 <;> simp

/-- **C60.** A reset makes channel A such an input, as does the control word for input mode. -/
theorem C60_input_reset (slurp : S → Option U8 × S) (ts : Nat) (c : PioChannel (PioInput (S × List U8))) :
    Hears (c.reset (pioInput (logIn slurp)) ts) (none, 0) c.device.source.2 ∧
    ∀ data, data &&& 0xCF#8 = 0x4F#8 → ∃ c', c.writeControl (pioInput (logIn slurp)) data ts = some c' ∧
      Hears c' (none, c.dataIn) c.device.source.2 := by
  refine ⟨⟨rfl, rfl, rfl, rfl, rfl⟩, fun data hd => ?_⟩
  have h0 : data.getLsbD 0 = true ∧ (data &&& 0b1111#8).toNat = 0b1111 ∧ (data >>> 6).toNat = 1 := by
    revert data; decide +kernel
  exact ⟨{ c with readyActive := true, device := (pioInput (logIn slurp)).setFloatingBus ts c.device, mode := .input },
    by simp only [PioChannel.writeControl, h0.1, h0.2.1, h0.2.2, Bool.true_eq_false, if_false], ⟨rfl, rfl, rfl, rfl, rfl⟩⟩

/-- **C60.** When a byte waits and the channel is free for it, the chip takes it and asks for an interrupt the next time
it is asked, if interrupts of the channel are enabled and none of the chip is being served. -/
theorem C60_input_irq {slurp : S → Option U8 × S} {s : Pio (PioInput (S × List U8)) B D} {x byte : U8}
    {log : List U8} (h : Hears s.chA (none, x) log) (hi : s.ieo = false) (he : s.chA.intsEnabled = true)
    {st : S} (hs : slurp s.chA.device.source.1 = (some byte, st)) (ts : Nat) :
    ∃ s', (Pio.device (pioInput (logIn slurp)) b dev).isIrq ts s = some (true, s') ∧
      Hears s'.chA (some byte, byte) (log ++ [byte]) := by
  obtain ⟨h1, h2, h3, h4, h5⟩ := h
  have hr : s.chA.readyActive = true := by
    revert h4; cases s.chA.readyActive <;> simp
  obtain ⟨mm, mb, cm, chm, ⟨mode, wi, ie, ia, ra, din, dout, vec, ⟨⟨s0, lg⟩, rdy⟩⟩, chB, ieo, chd⟩ := s
  simp only at h1 h2 h3 h5 hi he hs hr
  subst h1 h3 h5 hi he hr h2
  refine ⟨_, by
    simp only [Pio.device, Pio.isIrq, PioChannel.checkInt, pioInput, logIn, hs, if_true, PioChannel.setIntActive,
      Bool.false_eq_true, if_false, Bool.or_true]
    rfl, ?_⟩
  exact ⟨rfl, rfl, rfl, rfl, rfl⟩

/-! ### Output -/

/-- The bytes that the program writes to channel B. -/
def Use.wrote (own control : U16 → Bool) : Use → List U8
  | .write port data _ => if own port && !control port then [data] else []
  | _ => []

/-- The channel is an output: the bytes accepted by the sink, and the one that it has refused so far, make up `log`. A
byte is waiting for the sink only while the channel is not free. -/
structure Sends (c : PioChannel (PioOutput (S × List U8))) (log : List U8) : Prop where
  mode : c.mode = .output
  log : c.device.sink.2 ++ c.device.pending.toList = log
  free : c.readyActive = false → c.device.pending = none

theorem sends_strobe {flush : U8 → S → Bool × S} {c : PioChannel (PioOutput (S × List U8))} {log : List U8}
    (h : Sends c log) (ts : Nat) {r : Bool} {d : PioOutput (S × List U8)}
    (e : (pioOutput (logOut flush)).wasStrobe ts c.device = (r, d)) :
    d.sink.2 ++ d.pending.toList = log ∧ (r = true → d.pending = none) := by
  obtain ⟨h1, h2, h3⟩ := h
  obtain ⟨mode, wi, ie, ia, ra, din, dout, vec, ⟨⟨s, lg⟩, pend⟩⟩ := c
  simp only at h2
  subst h2
  simp only [pioOutput] at e
  split at e
  · rename_i data
    rcases hf : flush data s with ⟨_ | _, s'⟩
    · simp only [logOut, hf] at e
      cases e
      exact ⟨rfl, by simp⟩
    · simp only [logOut, hf] at e
      cases e
      exact ⟨by simp, by simp⟩
  · cases e
    exact ⟨rfl, fun _ => rfl⟩

theorem sends_check {flush : U8 → S → Bool × S} {c : PioChannel (PioOutput (S × List U8))} {log : List U8}
    (h : Sends c log) (ts : Nat) : Sends (c.checkInt (pioOutput (logOut flush)) ts).2 log := by
  simp only [PioChannel.checkInt, h.mode]
  split
  · split
    · rename_i d e
      obtain ⟨k1, k2⟩ := sends_strobe h ts e
      exact ⟨rfl, k1, fun _ => k2 rfl⟩
    · rename_i hr _ d e
      obtain ⟨k1, -⟩ := sends_strobe h ts e
      exact ⟨rfl, k1, fun hf => by simp only at hf; rw [hr] at hf; cases hf⟩
  · exact h

theorem sends_data {flush : U8 → S → Bool × S} {c c' : PioChannel (PioOutput (S × List U8))} {log : List U8}
    (h : Sends c log) (hp : c.device.pending = none) {data : U8} {ts : Nat}
    (e : c.writeData (pioOutput (logOut flush)) data ts = some c') : Sends c' (log ++ [data]) := by
  obtain ⟨h1, h2, h3⟩ := h
  obtain ⟨mode, wi, ie, ia, ra, din, dout, vec, ⟨⟨s, lg⟩, pend⟩⟩ := c
  simp only at h1 h2 hp
  subst h1 hp h2
  have key : ∀ ts (d : PioOutput (S × List U8)), d = (pioOutput (logOut flush)).readyWithData data ts ⟨(s, lg), none⟩ →
      d.sink.2 ++ d.pending.toList = lg ++ [data] := by
    rintro ts d rfl
    rcases hf : flush data s with ⟨_ | _, s'⟩ <;> simp [pioOutput, logOut, hf]
  cases ra
  · simp only [PioChannel.writeData, Bool.false_eq_true, if_false, Option.map_eq_some_iff] at e
    obtain ⟨ts', -, rfl⟩ := e
    exact ⟨rfl, by simpa using key ts' _ rfl, by simp⟩
  · simp only [PioChannel.writeData, if_true, pioOutput, Option.map_eq_some_iff] at e
    obtain ⟨ts', -, rfl⟩ := e
    exact ⟨rfl, by simpa [pioOutput, PioChannel.setIntActive] using key ts' _ rfl, by simp [PioChannel.setIntActive]⟩

theorem sends_control {flush : U8 → S → Bool × S} {c c' : PioChannel (PioOutput (S × List U8))} {log : List U8}
    (h : Sends c log) {ts : Nat} {data : U8} (hd : data &&& 0x0F#8 ≠ 0x0F#8)
    (e : c.writeControl (pioOutput (logOut flush)) data ts = some c') : Sends c' log := by
  obtain ⟨h1, h2, h3⟩ := h
  simp only [PioChannel.writeControl] at e
  split at e
  · cases e; exact ⟨h1, h2, h3⟩
  · split at e
    · rename_i hx
      exact absurd (BitVec.eq_of_toNat_eq hx) hd
    · cases e
    · split at e <;> cases e <;> exact ⟨h1, h2, h3⟩
    · cases e; exact ⟨h1, h2, h3⟩

theorem sends_step {flush : U8 → S → Bool × S} {s s' : Pio A (PioOutput (S × List U8)) D} {log : List U8}
    (h : Sends s.chB log) {u : Use} (hu : u.keeps s.ofB s.ofControl)
    (hw : u.wrote s.ofB s.ofControl ≠ [] → s.chB.device.pending = none)
    (e : u.act (Pio.device a (pioOutput (logOut flush)) dev) s = some s') :
    Sends s'.chB (log ++ u.wrote s.ofB s.ofControl) ∧ s'.ports = s.ports := by
  cases u with
  | ask ts =>
    simp only [Use.act, Pio.device, Pio.isIrq, Option.map_eq_some_iff] at e
    obtain ⟨⟨r, s1⟩, e, rfl⟩ := e
    simp only [Use.wrote, List.append_nil]
    have k := sends_check (flush := flush) h ts
    split at e
    · cases e
      exact ⟨h, rfl⟩
    · split at e
      · cases e
        exact ⟨h, rfl⟩
      · split at e
        · rename_i hc
          cases e
          rw [hc] at k
          exact ⟨k, rfl⟩
        · rename_i hc
          rw [hc] at k
          simp only [Option.map_eq_some_iff] at e
          obtain ⟨_, -, e⟩ := e
          cases e
          exact ⟨k, rfl⟩
  | ack pc ts =>
    simp only [Use.act, Pio.device, Pio.irqData, Option.map_eq_some_iff] at e
    obtain ⟨⟨r, s1⟩, e, rfl⟩ := e
    simp only [Use.wrote, List.append_nil]
    split at e
    · cases e; exact ⟨h, rfl⟩
    · split at e
      · cases e; exact ⟨⟨h.mode, h.log, h.free⟩, rfl⟩
      · simp only [Option.map_eq_some_iff] at e
        obtain ⟨_, -, e⟩ := e
        cases e
        exact ⟨h, rfl⟩
  | reti pc ts =>
    simp only [Use.act, Pio.device, Pio.reti] at e
    simp only [Use.wrote, List.append_nil]
    split at e
    · cases e; exact ⟨h, rfl⟩
    · simp only [Option.map_eq_some_iff] at e
      obtain ⟨_, -, rfl⟩ := e
      exact ⟨h, rfl⟩
  | m1 ts =>
    simp only [Use.act, Pio.device, Pio.m1, Option.map_eq_some_iff] at e
    obtain ⟨_, -, rfl⟩ := e
    simp only [Use.wrote, List.append_nil]
    refine ⟨?_, rfl⟩
    simp only [PioChannel.m1]
    split
    · exact ⟨h.mode, h.log, h.free⟩
    · exact h
  | frameEnd ts =>
    simp only [Use.act, Pio.device, Pio.frameEnd, Option.map_eq_some_iff] at e
    obtain ⟨_, -, rfl⟩ := e
    simp only [Use.wrote, List.append_nil]
    exact ⟨sends_check h ts, rfl⟩
  | nextSecond delta =>
    simp only [Use.act, Pio.device, Pio.nextSecond, Option.map_eq_some_iff] at e
    obtain ⟨_, -, rfl⟩ := e
    simp only [Use.wrote, List.append_nil]
    exact ⟨h, rfl⟩
  | read port ts =>
    simp only [Use.act, Pio.device, Pio.readIo, Option.map_eq_some_iff] at e
    obtain ⟨⟨r, s1⟩, e, rfl⟩ := e
    simp only [Use.wrote, List.append_nil]
    split at e
    · split at e
      · simp only [Option.map_eq_some_iff] at e
        obtain ⟨⟨x, c⟩, e, e2⟩ := e
        cases e2
        exact ⟨h, rfl⟩
      · simp only [Option.map_eq_some_iff] at e
        obtain ⟨⟨x, c⟩, e, e2⟩ := e
        cases e2
        simp only [PioChannel.readIo, h.mode] at e
        cases e
        exact ⟨⟨h.mode, h.log, h.free⟩, rfl⟩
    · simp only [Option.map_eq_some_iff] at e
      obtain ⟨⟨x, c⟩, e, e2⟩ := e
      cases e2
      exact ⟨h, rfl⟩
  | write port data ts =>
    simp only [Use.act, Pio.device, Pio.writeIo, Option.map_eq_some_iff] at e
    obtain ⟨⟨r, s1⟩, e, rfl⟩ := e
    split at e
    · rename_i hm
      split at e
      · rename_i hc
        have hB : s.ofB port = false := by simp only [Pio.ofB, hc]; simp
        simp only [Option.map_eq_some_iff] at e
        obtain ⟨c, e, e2⟩ := e
        cases e2
        refine ⟨?_, rfl⟩
        simp only [Use.wrote, hB, Bool.false_and, Bool.false_eq_true, if_false, List.append_nil]
        exact h
      · rename_i hc
        have hB : s.ofB port = true := by
          simp only [Pio.ofB, hm, Bool.and_eq_true, decide_eq_true_eq]
          exact ⟨trivial, hc⟩
        simp only [Option.map_eq_some_iff] at e
        obtain ⟨c, e, e2⟩ := e
        cases e2
        refine ⟨?_, rfl⟩
        split at e
        · rename_i hk
          have hC : s.ofControl port = false := by simp only [Pio.ofControl, hk]; simp
          have hwr : (Use.write port data ts).wrote s.ofB s.ofControl = [data] := by
            simp only [Use.wrote, hB, hC]; rfl
          rw [hwr] at hw ⊢
          exact sends_data h (hw (by simp)) e
        · rename_i hk
          have hC : s.ofControl port = true := by
            simp only [Pio.ofControl, decide_eq_true_eq]
            exact hk
          have hwr : (Use.write port data ts).wrote s.ofB s.ofControl = [] := by
            simp only [Use.wrote, hB, hC]; rfl
          rw [hwr, List.append_nil]
          exact sends_control h (fun hd => hu ⟨hB, hC, hd⟩) e
    · rename_i hm
      have hB : s.ofB port = false := by
        simp only [Pio.ofB, Bool.and_eq_false_iff, decide_eq_false_iff_not]
        exact Or.inl hm
      simp only [Option.map_eq_some_iff] at e
      obtain ⟨⟨x, c⟩, e, e2⟩ := e
      cases e2
      simp only [Use.wrote, hB, Bool.false_and, Bool.false_eq_true, if_false, List.append_nil]
      exact ⟨h, rfl⟩

/-- Uses of the chip where the program writes to channel B only while no byte waits for the sink. -/
def Polite (dev : Device (Pio A (PioOutput (S × List U8)) D)) : List Use → Pio A (PioOutput (S × List U8)) D → Prop
  | [], _ => True
  | u :: l, s => (u.wrote s.ofB s.ofControl ≠ [] → s.chB.device.pending = none) ∧
      ∀ s', u.act dev s = some s' → Polite dev l s'

/-- **C60.** Channel B as an output, for any sink, whatever else is done with the chip (and with the channel, except that
its mode is not selected again): if the program does not write while a byte still waits, the sink gets exactly the bytes
written, each once and in order; only the last may still wait. -/
theorem C60_output {flush : U8 → S → Bool × S} : ∀ (us : List Use) {s s' : Pio A (PioOutput (S × List U8)) D}
    {log : List U8}, Sends s.chB log → (∀ u ∈ us, u.keeps s.ofB s.ofControl) →
    Polite (Pio.device a (pioOutput (logOut flush)) dev) us s →
    Use.acts (Pio.device a (pioOutput (logOut flush)) dev) us s = some s' →
    s'.chB.device.sink.2 ++ s'.chB.device.pending.toList =
      log ++ (us.map (Use.wrote s.ofB s.ofControl)).flatten ∧
    Sends s'.chB (log ++ (us.map (Use.wrote s.ofB s.ofControl)).flatten)
  | [], s, s', log, h, _, _, e => by
    cases e
    simpa using ⟨h.log, h⟩
  | u :: us, s, s', log, h, hu, hp, e => by
    simp only [Use.acts] at e
    split at e
    · rename_i s1 e1
      obtain ⟨k1, k2⟩ := sends_step h (hu u List.mem_cons_self) hp.1 e1
      obtain ⟨-, p1, p2⟩ := Pio.ports_of k2
      have := C60_output us k1 (fun w hw => by rw [p1, p2]; exact hu w (List.mem_cons_of_mem _ hw)) (hp.2 _ e1) e
      rw [p1, p2] at this
      simpa [List.append_assoc] using this
    · cases e

/-- **C60.** A program that waits for the interrupt after each byte it writes keeps the rule: while the channel is free, no
byte waits. And once the sink has the byte, the chip asks for an interrupt the next time it is asked, if interrupts of the
channel are enabled and none of the chip is being served. -/
theorem C60_output_irq {flush : U8 → S → Bool × S} {s : Pio A (PioOutput (S × List U8)) D} {log : List U8}
    (h : Sends s.chB log) :
    (s.chB.readyActive = false → s.chB.device.pending = none) ∧
    (s.chB.device.pending = none → s.chB.readyActive = true → s.chB.intsEnabled = true → s.ieo = false → ∀ ts,
      ∃ s', (Pio.device a (pioOutput (logOut flush)) dev).isIrq ts s = some (true, s') ∧
        (s'.chB.readyActive = false ∨ (s.chA.checkInt a ts).1 = true)) := by
  refine ⟨h.free, fun hp hr he hi ts => ?_⟩
  simp only [Pio.device, Pio.isIrq, hi, Bool.false_eq_true, if_false]
  split
  · rename_i hc
    exact ⟨_, rfl, Or.inr (by rw [hc])⟩
  · have : s.chB.checkInt (pioOutput (logOut flush)) ts =
        (true, { s.chB with readyActive := false, intActive := true }) := by
      obtain ⟨mm, mb, cm, chm, chA, ⟨mode, wi, ie, ia, ra, din, dout, vec, ⟨sk, pend⟩⟩, ieo, chd⟩ := s
      have hm := h.mode
      simp only at hp hr he hm
      subst hp hr he hm
      simp [PioChannel.checkInt, pioOutput, PioChannel.setIntActive]
    simp only [this]
    exact ⟨_, rfl, Or.inl rfl⟩

/-- **C60.** The control word for output mode makes channel B such an output, after a reset. -/
theorem C60_output_start (flush : U8 → S → Bool × S) (ts : Nat) {c : PioChannel (PioOutput (S × List U8))}
    (hp : c.device.pending = none) {data : U8} (hd : data &&& 0xCF#8 = 0x0F#8) :
    ∃ c', c.writeControl (pioOutput (logOut flush)) data ts = some c' ∧ Sends c' c.device.sink.2 := by
  have h0 : data.getLsbD 0 = true ∧ (data &&& 0b1111#8).toNat = 0b1111 ∧ (data >>> 6).toNat = 0 := by
    revert data; decide +kernel
  refine ⟨{ c with readyActive := false, device := (pioOutput (logOut flush)).setBusData c.dataOut ts c.device,
                   mode := .output },
    by simp only [PioChannel.writeControl, h0.1, h0.2.1, h0.2.2, Bool.true_eq_false, if_false], ⟨rfl, ?_, ?_⟩⟩
  · simp [pioOutput, hp]
  · simp [pioOutput, hp]

/-! ### Behind the counter/timer -/

theorem processChannels_chained {W : Type} {t : Triggers W} {ts : Nat} {s s' : Ctc W D}
    (h : s.processChannels t ts = some s') : s'.chained = s.chained := by
  unfold Ctc.processChannels at h
  split at h
  · simp only [Option.bind_eq_bind, Option.bind_eq_some_iff] at h
    obtain ⟨⟨c0, w0⟩, -, ⟨c1, w1⟩, -, ⟨c2, w2⟩, -, ⟨c3, w3⟩, -, h⟩ := h
    cases h; rfl
  · cases h; rfl

/-- The use is a read or write of a port that is not one of the counter/timer. -/
def Use.elsewhere {W : Type} (s : Ctc W D) : Use → Bool
  | .read port _ => (s.selects port).isNone
  | .write port _ _ => (s.selects port).isNone
  | _ => false

/-- **C60.** The counter/timer in front of another device passes a use on unchanged, or keeps it to itself; it passes on
all reads and writes of ports that are not its own. -/
theorem C60_behind {W : Type} {t : Triggers W} {s s' : Ctc W D} {u : Use} {v : Option U8}
    (e : u.value (Ctc.device t dev) s = some (v, s')) :
    s'.ports = s.ports ∧
    (u.value dev s.chained = some (v, s'.chained) ∨ s'.chained = s.chained ∧ u.elsewhere s = false) := by
  cases u with
  | ask ts =>
    simp only [Use.value, Use.act, Ctc.device, Ctc.isIrq, Option.map_eq_some_iff] at e
    obtain ⟨_, ⟨⟨r, s1⟩, e, rfl⟩, e2⟩ := e
    cases e2
    split at e
    · cases e; exact ⟨rfl, Or.inr ⟨rfl, rfl⟩⟩
    · simp only [Option.bind_eq_bind, Option.bind_eq_some_iff] at e
      obtain ⟨s2, hs2, e⟩ := e
      have hc := processChannels_chained hs2
      have hp := (processChannels_ch hs2).1
      split at e
      · cases e; exact ⟨hp, Or.inr ⟨hc, rfl⟩⟩
      · simp only [Option.bind_eq_some_iff] at e
        obtain ⟨⟨r1, d⟩, hd, e⟩ := e
        cases e
        rw [hc] at hd
        exact ⟨hp, Or.inl (by simp [Use.value, Use.act, hd])⟩
  | ack pc ts =>
    simp only [Use.value, Use.act, Ctc.device, Ctc.irqData, Option.map_eq_some_iff] at e
    obtain ⟨_, ⟨⟨r, s1⟩, e, rfl⟩, e2⟩ := e
    cases e2
    split at e
    · cases e; exact ⟨rfl, Or.inr ⟨rfl, rfl⟩⟩
    · split at e
      · cases e; exact ⟨rfl, Or.inr ⟨rfl, rfl⟩⟩
      · split at e
        · cases e; exact ⟨rfl, Or.inr ⟨rfl, rfl⟩⟩
        · split at e
          · cases e; exact ⟨rfl, Or.inr ⟨rfl, rfl⟩⟩
          · simp only [Option.map_eq_some_iff] at e
            obtain ⟨⟨r1, d⟩, hd, e⟩ := e
            cases e
            exact ⟨rfl, Or.inl (by simp [Use.value, Use.act, hd])⟩
  | reti pc ts =>
    simp only [Use.value, Use.act, Ctc.device, Ctc.reti, Option.map_eq_some_iff] at e
    obtain ⟨_, e, e2⟩ := e
    cases e2
    split at e
    · cases e; exact ⟨rfl, Or.inr ⟨rfl, rfl⟩⟩
    · simp only [Option.map_eq_some_iff] at e
      obtain ⟨d, hd, rfl⟩ := e
      exact ⟨rfl, Or.inl (by simp [Use.value, Use.act, hd])⟩
  | m1 ts =>
    simp only [Use.value, Use.act, Ctc.device, Ctc.m1, Option.map_eq_some_iff, Option.bind_eq_bind,
      Option.bind_eq_some_iff] at e
    obtain ⟨_, ⟨s1, hs1, d, hd, e⟩, e2⟩ := e
    cases e; cases e2
    rw [processChannels_chained hs1] at hd
    exact ⟨(processChannels_ch hs1).1, Or.inl (by simp [Use.value, Use.act, hd])⟩
  | frameEnd ts =>
    simp only [Use.value, Use.act, Ctc.device, Ctc.frameEnd, Option.map_eq_some_iff, Option.bind_eq_bind,
      Option.bind_eq_some_iff] at e
    obtain ⟨_, ⟨s1, hs1, d, hd, e⟩, e2⟩ := e
    cases e; cases e2
    rw [processChannels_chained hs1] at hd
    exact ⟨(processChannels_ch hs1).1, Or.inl (by simp [Use.value, Use.act, hd])⟩
  | nextSecond delta =>
    simp only [Use.value, Use.act, Ctc.device, Ctc.nextSecond, Option.map_eq_some_iff, Option.bind_eq_bind,
      Option.bind_eq_some_iff] at e
    obtain ⟨_, ⟨⟨c0, w0⟩, -, ⟨c1, w1⟩, -, ⟨c2, w2⟩, -, ⟨c3, w3⟩, -, d, hd, e⟩, e2⟩ := e
    cases e; cases e2
    exact ⟨rfl, Or.inl (by simp [Use.value, Use.act, hd])⟩
  | read port ts =>
    simp only [Use.value, Ctc.device, Ctc.readIo, Option.map_eq_some_iff] at e
    obtain ⟨⟨⟨r, r'⟩, s1⟩, e, e2⟩ := e
    cases e2
    split at e
    · rename_i hm
      have hne : (Use.read port ts).elsewhere s = false := by simp [Use.elsewhere, Ctc.selects, hm]
      split at e <;> split at e <;>
      · simp only [Option.map_eq_some_iff] at e
        obtain ⟨⟨_, _, _⟩, -, e⟩ := e
        cases e
        exact ⟨rfl, Or.inr ⟨rfl, hne⟩⟩
    · simp only [Option.map_eq_some_iff] at e
      obtain ⟨⟨r1, d⟩, hd, e⟩ := e
      cases e
      exact ⟨rfl, Or.inl (by simp [Use.value, hd])⟩
  | write port data ts =>
    simp only [Use.value, Use.act, Ctc.device, Ctc.writeIo, Option.map_eq_some_iff] at e
    obtain ⟨_, ⟨⟨r, s1⟩, e, rfl⟩, e2⟩ := e
    cases e2
    split at e
    · rename_i hm
      have hne : (Use.write port data ts).elsewhere s = false := by simp [Use.elsewhere, Ctc.selects, hm]
      split at e <;> split at e <;>
      · simp only [Option.map_eq_some_iff] at e
        obtain ⟨⟨_, _, _⟩, -, e⟩ := e
        simp only [Prod.mk.injEq] at e
        obtain ⟨-, rfl⟩ := e
        refine ⟨?_, Or.inr ⟨?_, hne⟩⟩ <;> split <;> rfl
    · simp only [Option.map_eq_some_iff] at e
      obtain ⟨⟨r1, d⟩, hd, e⟩ := e
      cases e
      exact ⟨rfl, Or.inl (by simp [Use.value, Use.act, hd])⟩

/-- **C60.** So uses of the computer's devices come to the parallel ports as some of them, in order, among them all reads
and writes that are not for the counter/timer. -/
theorem C60_board {W : Type} {t : Triggers W} : ∀ (us : List Use) {s s' : Ctc W D},
    Use.acts (Ctc.device t dev) us s = some s' →
    ∃ us', us'.Sublist us ∧ Use.acts dev us' s.chained = some s'.chained ∧
      us'.filter (·.elsewhere s) = us.filter (·.elsewhere s)
  | [], s, s', e => by
    cases e
    exact ⟨[], List.Sublist.slnil, rfl, rfl⟩
  | u :: us, s, s', e => by
    simp only [Use.acts] at e
    split at e
    · rename_i s1 e1
      have hv : ∃ v, u.value (Ctc.device t dev) s = some (v, s1) := by
        cases u with
        | read port ts =>
          simp only [Use.act, Option.map_eq_some_iff] at e1
          obtain ⟨⟨v, x⟩, e1, rfl⟩ := e1
          exact ⟨some v.1, by simp [Use.value, e1]⟩
        | _ => exact ⟨none, by simp only [Use.value, e1]; rfl⟩
      obtain ⟨v, hv⟩ := hv
      obtain ⟨hp, h⟩ := C60_behind hv
      obtain ⟨us', k1, k2, k3⟩ := C60_board us e
      have hel : (fun w : Use => w.elsewhere s1) = fun w => w.elsewhere s := by
        funext w
        cases w <;> simp only [Use.elsewhere, Ctc.ports_selects hp]
      rw [hel] at k3
      rcases h with h | ⟨h, hn⟩
      · have ha : u.act dev s.chained = some s1.chained := by
          cases u with
          | read port ts =>
            simp only [Use.value, Option.map_eq_some_iff] at h
            obtain ⟨⟨v, x⟩, h, e⟩ := h
            cases e
            simp [Use.act, h]
          | _ =>
            simp only [Use.value, Option.map_eq_some_iff] at h
            obtain ⟨x, h, e⟩ := h
            cases e
            exact h
        refine ⟨u :: us', k1.cons_cons u, by simp only [Use.acts, ha]; exact k2, ?_⟩
        rw [List.filter_cons, List.filter_cons, k3]
      · refine ⟨us', k1.cons u, by rw [← h]; exact k2, ?_⟩
        rw [List.filter_cons, hn, if_neg (by simp), k3]
    · cases e

/-- **C60.** The rule is needed: if a byte is written while another one waits, and the sink gets room just then, it gets
the new byte first and the old one after it. -/
theorem C60_overrun : (do
    let flush : U8 → Nat → Bool × Nat := fun _ n => (2 ≤ n, n + 1)
    let p := Pio.device (pioInput (logIn fun n : Nat => (none, n))) (pioOutput (logOut flush)) terminator
    let s ← (Pio.new ⟨(0, []), false⟩ ⟨(0, []), none⟩ ()).withPortBits 0b11111100#16 0b00001000#16 1 0
    let s ← Use.acts p [.write 0x0B#16 0x0F#8 0, .write 0x0A#16 1#8 10, .write 0x0A#16 2#8 20, .ask 30] s
    return (s.chB.mode, s.chB.device.sink.2, s.chB.device.pending)) = some (.output, [2, 1], none) := by
  decide +kernel

/-- The hypotheses are met: with a stream that gives 1, 2, 3 and a sink that refuses every other time, a program reads
three bytes, one of them twice, and writes two, after the interrupts for them. -/
example : (do
    let slurp : List U8 → Option U8 × List U8 := fun l => (l.head?, l.tail)
    let flush : U8 → Nat → Bool × Nat := fun _ n => (n % 2 = 1, n + 1)
    let p := Pio.device (pioInput (logIn slurp)) (pioOutput (logOut flush)) terminator
    let s ← (Pio.new ⟨([1, 2, 3], []), false⟩ ⟨(0, []), none⟩ ()).withPortBits 0b11111100#16 0b00001000#16 1 0
    let s ← p.reset 0 s
    let s ← Use.acts p [.write 0x09#16 0x83#8 1, .write 0x0B#16 0x0F#8 2, .write 0x0B#16 0x83#8 3, .m1 4] s
    let (ev, s) ← transfers p [.ask 10, .ack 0x10#16 11, .read 0x08#16 20, .reti 0x10#16 30, .ask 40, .ack 0x10#16 41,
      .read 0x08#16 50, .read 0x08#16 51, .write 0x0A#16 7#8 52, .reti 0x10#16 55, .ask 60, .ack 0x10#16 61,
      .read 0x08#16 62, .reti 0x10#16 63, .ask 64, .ack 0x10#16 65, .write 0x0A#16 8#8 66, .ask 70] s
    return ((ev, s.chA.device.source.2), (s.chB.device.sink.2, s.chB.device.pending))) =
  some (([.take 1, .read 1, .take 2, .read 2, .read 2, .take 3, .read 3], [1, 2, 3]), ([7], some 8)) := by
  decide +kernel

end Z80.Ral
