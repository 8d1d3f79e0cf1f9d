import Verif.Proofs.RalChain
import Verif.Proofs.RalVector
import Verif.Model.RalBoard

/-!
# C56: interrupt priorities in the example computer
-/

namespace Z80.Ral
open Spec.Ral

/-- **C56.** A chain of any number of counter/timers and parallel ports is a daisy chain: the end of the chain is one … -/
theorem C56_end : Daisy terminator fun _ => [] := daisy_terminator

/-- … and putting a counter/timer before a daisy chain, with any triggers, gives one … -/
theorem C56_ctc {W D : Type} (t : Triggers W) {dev : Device D} {view : D → List Node} (h : Daisy dev view) :
    Daisy (Ctc.device t dev) fun s => s.node :: view s.chained := daisy_ctc t h

/-- … and so does putting parallel ports before it, with any devices connected to them. -/
theorem C56_pio {A B D : Type} (a : PioDev A) (b : PioDev B) {dev : Device D} {view : D → List Node}
    (h : Daisy dev view) : Daisy (Pio.device a b dev) fun s => s.node :: view s.chained := daisy_pio a b h

/-- What the processor and the owner of the computer do with the devices. -/
inductive Use
  | ask (ts : Nat)
  | ack (pc : U16) (ts : Nat)
  | reti (pc : U16) (ts : Nat)
  | m1 (ts : Nat)
  | frameEnd (ts : Nat)
  | nextSecond (delta : Nat)
  | read (port : U16) (ts : Nat)
  | write (port : U16) (data : U8) (ts : Nat)

/-- What is seen of the interrupts: one of the device at a position was accepted, with a vector; RETI. -/
inductive Mark
  | accepted (p : Nat) (v : U8)
  | reti
deriving DecidableEq, Repr

/-- Uses one after another. An interrupt is acknowledged only right after the devices have asked for one (`asked`). -/
def play {D : Type} (dev : Device D) (view : D → List Node) : List Use → Bool → D → Option (List Mark × D)
  | [], _, d => some ([], d)
  | .ask ts :: l, _, d => match dev.isIrq ts d with
    | some (b, d) => play dev view l b d
    | none => none
  | .ack pc ts :: l, true, d => match accept (view d), dev.irqData pc ts d with
    | some (p, _), some ((v, _), d) => (play dev view l false d).map fun (m, d) => (.accepted p v :: m, d)
    | _, _ => none
  | .ack _ _ :: _, false, _ => none
  | .reti pc ts :: l, _, d => match dev.reti pc ts d with
    | some d => (play dev view l false d).map fun (m, d) => (.reti :: m, d)
    | none => none
  | .m1 ts :: l, _, d => match dev.m1 ts d with
    | some d => play dev view l false d
    | none => none
  | .frameEnd ts :: l, _, d => match dev.frameEnd ts d with
    | some d => play dev view l false d
    | none => none
  | .nextSecond delta :: l, _, d => match dev.nextSecond delta d with
    | some d => play dev view l false d
    | none => none
  | .read port ts :: l, _, d => match dev.readIo port ts d with
    | some (_, d) => play dev view l false d
    | none => none
  | .write port data ts :: l, _, d => match dev.writeIo port data ts d with
    | some (_, d) => play dev view l false d
    | none => none

/-- Interrupts nest: those not yet ended, the last accepted one first. `none` if one is accepted although a device of
the same or a higher priority is being served. -/
def nest : List Mark → List Nat → Option (List Nat)
  | [], st => some st
  | .accepted p _ :: m, st => if ∀ q ∈ st, p < q then nest m (p :: st) else none
  | .reti :: m, st => nest m st.tail

/-- **C56.** Over every sequence of uses, interrupts are accepted only of devices above all those being served, each
RETI ends the one accepted last, and the devices being served are always those accepted and not ended. -/
theorem C56_nested {D : Type} {dev : Device D} {view : D → List Node} (h : Daisy dev view) :
    ∀ (l : List Use) (asked : Bool) (d d' : D) (m : List Mark), (asked = true → asks (view d) = true) →
      play dev view l asked d = some (m, d') → nest m (served (view d)) = some (served (view d'))
  | [], _, _, _, _, _, e => by cases e; rfl
  | .ask ts :: l, asked, d, d', m, ha, e => by
    simp only [play] at e
    split at e
    · rename_i b d1 hd
      obtain ⟨hb, hg⟩ := h.isIrq ts _ _ _ hd
      rw [← grows_served hg]
      exact C56_nested h l b d1 d' m (fun hb' => by rw [← hb, hb']) e
    · cases e
  | .ack pc ts :: l, true, d, d', m, ha, e => by
    obtain ⟨p, v, d1, e1, e2⟩ := h.irqData pc ts d (ha rfl)
    obtain ⟨p', v', l', e3, hs, hp⟩ := accept_served (ha rfl)
    rw [e2] at e3
    cases e3
    simp only [play, e1, e2, Option.map_eq_some_iff] at e
    obtain ⟨⟨m', d2⟩, hm, e⟩ := e
    cases e
    have := C56_nested h l false d1 d2 m' (fun h => by cases h) hm
    simp only [nest, if_pos hp]
    rw [← hs]
    exact this
  | .ack _ _ :: _, false, _, _, _, _, e => by cases e
  | .reti pc ts :: l, asked, d, d', m, ha, e => by
    obtain ⟨d1, e1, e2⟩ := h.reti pc ts d
    simp only [play, e1, Option.map_eq_some_iff] at e
    obtain ⟨⟨m', d2⟩, hm, e⟩ := e
    cases e
    have := C56_nested h l false d1 d2 m' (fun h => by cases h) hm
    simp only [nest]
    rw [← ends_served, ← e2]
    exact this
  | .m1 ts :: l, asked, d, d', m, ha, e => by
    simp only [play] at e
    split at e
    · rename_i d1 hd
      rw [← grows_served (h.m1 ts _ _ hd)]
      exact C56_nested h l false d1 d' m (fun h => by cases h) e
    · cases e
  | .frameEnd ts :: l, asked, d, d', m, ha, e => by
    simp only [play] at e
    split at e
    · rename_i d1 hd
      rw [← grows_served (h.frameEnd ts _ _ hd)]
      exact C56_nested h l false d1 d' m (fun h => by cases h) e
    · cases e
  | .nextSecond delta :: l, asked, d, d', m, ha, e => by
    simp only [play] at e
    split at e
    · rename_i d1 hd
      rw [← h.nextSecond delta _ _ hd]
      exact C56_nested h l false d1 d' m (fun h => by cases h) e
    · cases e
  | .read port ts :: l, asked, d, d', m, ha, e => by
    simp only [play] at e
    split at e
    · rename_i v d1 hd
      rw [← grows_served (h.readIo port ts _ _ _ hd)]
      exact C56_nested h l false d1 d' m (fun h => by cases h) e
    · cases e
  | .write port data ts :: l, asked, d, d', m, ha, e => by
    simp only [play] at e
    split at e
    · rename_i v d1 hd
      rw [← h.writeIo port data ts _ _ _ hd]
      exact C56_nested h l false d1 d' m (fun h => by cases h) e
    · cases e

/-- **C56.** The vector on the bus is that of the first requesting line of the first requesting device, and this
request is then gone. -/
theorem C56_vector {D : Type} {dev : Device D} {view : D → List Node} (h : Daisy dev view) (ts ts' : Nat) (pc : U16)
    (d d' : D) (ha : dev.isIrq ts d = some (true, d')) :
    ∃ v d'' above n below l, dev.irqData pc ts' d' = some ((v, none), d'') ∧ view d' = above ++ n :: below ∧
      (∀ m ∈ above, m.busy = false ∧ m.requests = false) ∧ n.busy = false ∧ Node.take n.lines = some (v, l) ∧
      view d'' = above ++ { busy := true, lines := l } :: below := by
  obtain ⟨hb, -⟩ := h.isIrq ts _ _ _ ha
  obtain ⟨p, v, d'', e1, e2⟩ := h.irqData pc ts' d' hb.symm
  have key : ∀ (l : List Node) (p : Nat) (l' : List Node), asks l = true → accept l = some (p, v, l') →
      ∃ above n below k, l = above ++ n :: below ∧ (∀ m ∈ above, m.busy = false ∧ m.requests = false) ∧
        n.busy = false ∧ Node.take n.lines = some (v, k) ∧ l' = above ++ { busy := true, lines := k } :: below := by
    intro l
    induction l with
    | nil => intro p l' h; cases h
    | cons n r ih =>
      intro p l' h e
      simp only [asks, Bool.and_eq_true, Bool.not_eq_true', Bool.or_eq_true] at h
      simp only [accept] at e
      split at e
      · rename_i x k hk
        cases e
        exact ⟨[], n, r, k, rfl, (fun _ hm => nomatch hm), h.1, hk, rfl⟩
      · rename_i hk
        simp only [Option.map_eq_some_iff] at e
        obtain ⟨⟨q, u, s⟩, hs, e⟩ := e
        cases e
        have hr : n.requests = false := (take_none _).1 hk
        obtain ⟨above, n', below, k, e1, e2, e3, e4, e5⟩ := ih q s (by simpa [hr] using h.2) hs
        exact ⟨n :: above, n', below, k, by rw [e1]; rfl, (fun m hm => by
          rcases List.mem_cons.1 hm with rfl | hm
          · exact ⟨h.1, hr⟩
          · exact e2 m hm), e3, e4, by rw [e5]; rfl⟩
  obtain ⟨above, n, below, k, h1, h2, h3, h4, h5⟩ := key _ _ _ hb.symm e2
  exact ⟨v, d'', above, n, below, k, e1, h1, h2, h3, h4, h5⟩

/-- **C56.** Resetting leaves nothing requested and nothing being served. -/
theorem C56_reset {D : Type} {dev : Device D} {view : D → List Node} (h : Daisy dev view) (ts : Nat) (d d' : D)
    (e : dev.reset ts d = some d') : asks (view d') = false ∧ served (view d') = [] := by
  have key : ∀ l : List Node, (∀ n ∈ l, n.busy = false ∧ n.requests = false) → asks l = false ∧ served l = [] := by
    intro l
    induction l with
    | nil => exact fun _ => ⟨rfl, rfl⟩
    | cons n r ih =>
      intro h
      obtain ⟨h1, h2⟩ := h n List.mem_cons_self
      obtain ⟨i1, i2⟩ := ih fun m hm => h m (List.mem_cons_of_mem _ hm)
      exact ⟨by simp [asks, h1, h2, i1], by simp [served, h1, i2]⟩
  exact key _ (h.reset ts d d' e)

/-- Uses that neither accept an interrupt nor write to a device nor end a service. -/
def Use.waits : Use → Bool
  | .ack .. | .reti .. | .write .. => false
  | _ => true

/-- **C56.** As long as only time passes, code is fetched, ports are read and the line is asked, no request is lost
and no vector changes. -/
theorem C56_pending {D : Type} {dev : Device D} {view : D → List Node} (h : Daisy dev view) :
    ∀ (l : List Use) (asked : Bool) (d d' : D) (m : List Mark), (∀ u ∈ l, u.waits = true) →
      play dev view l asked d = some (m, d') → m = [] ∧ grows (view d) (view d')
  | [], _, _, _, _, _, e => by cases e; exact ⟨rfl, grows_refl _⟩
  | u :: l, asked, d, d', m, hw, e => by
    have hu := hw u List.mem_cons_self
    have hl : ∀ u ∈ l, u.waits = true := fun u h => hw u (List.mem_cons_of_mem _ h)
    have step : ∀ b d1, grows (view d) (view d1) → play dev view l b d1 = some (m, d') →
        m = [] ∧ grows (view d) (view d') := fun b d1 hg e =>
      have ⟨hm, hg'⟩ := C56_pending h l b d1 d' m hl e
      ⟨hm, grows_trans hg hg'⟩
    cases u with
    | ask ts =>
      simp only [play] at e
      split at e
      · rename_i b d1 hd; exact step _ _ (h.isIrq ts _ _ _ hd).2 e
      · cases e
    | ack pc ts => cases hu
    | reti pc ts => cases hu
    | write port data ts => cases hu
    | m1 ts =>
      simp only [play] at e
      split at e
      · rename_i d1 hd; exact step _ _ (h.m1 ts _ _ hd) e
      · cases e
    | frameEnd ts =>
      simp only [play] at e
      split at e
      · rename_i d1 hd; exact step _ _ (h.frameEnd ts _ _ hd) e
      · cases e
    | nextSecond delta =>
      simp only [play] at e
      split at e
      · rename_i d1 hd; exact step _ _ (by rw [h.nextSecond delta _ _ hd]; exact grows_refl _) e
      · cases e
    | read port ts =>
      simp only [play] at e
      split at e
      · rename_i v d1 hd; exact step _ _ (h.readIo port ts _ _ _ hd) e
      · cases e

/-- The nodes of the computer: the counter/timer, then the parallel ports. -/
def Chain.view {n : Nat} {I O : Type} (s : Chain n I O) : List Node := [s.node, s.chained.node]

/-- **C56.** All of the above holds for the devices of the computer. -/
theorem C56_board (bound n : Nat) {I O : Type} (slurp : I → Option U8 × I) (flush : U8 → O → Bool × O) :
    Daisy (board bound n slurp flush) Chain.view :=
  daisy_ctc _ (daisy_pio _ _ daisy_terminator)

/-- A program sets up timer 0 with vector 40h and the input with vector 50h; a byte arrives and is accepted; then the
timer interrupts its service, and both are ended. -/
def busyDay : List Use :=
  [.m1 4, .write 0x09#16 0x50#8 100, .write 0x09#16 0x83#8 110, .m1 120,
   .write 0x04#16 0x40#8 200, .write 0x04#16 0x85#8 210, .write 0x04#16 10#8 220,
   .ask 230, .ack 0x1000#16 236, .m1 250, .ask 300, .m1 399, .ask 400, .ack 0x50#16 406, .m1 410, .ask 420,
   .reti 0x58#16 430, .ask 450, .reti 0x1000#16 470, .ask 480]

/-- The hypotheses are met: interrupts nest as said. -/
example : (do
    let c ← Chain.new 4 200 [65#8, 66#8] ([] : List U8)
    let dev := board 1000 4 (fun s => (s.head?, s.tail)) fun b s => (true, b :: s)
    let c ← dev.reset 0 c
    let (m, c) ← play dev Chain.view busyDay false c
    return (m, served c.view)) =
  some ([.accepted 1 0x50#8, .accepted 0 0x40#8, .reti, .reti], []) := by decide +kernel

/-- Whether a program sets the vectors of a counter/timer by writing to a port: the channel selected, a pair of address
lines giving its number, awaits no time constant and bit 0 is 0. -/
def Ctc.takesVector {W D : Type} (s : Ctc W D) (port : U16) (data : U8) : Prop :=
  port &&& s.matchMask = s.matchBits ∧ data.toNat % 2 = 0 ∧
    (match decide (port &&& s.cs1 = 0), decide (port &&& s.cs0 = 0) with
      | true, true => s.ch0
      | true, false => s.ch1
      | false, true => s.ch2
      | false, false => s.ch3).awaiting = false

instance {W D : Type} (s : Ctc W D) (port : U16) (data : U8) : Decidable (s.takesVector port data) :=
  inferInstanceAs (Decidable (_ ∧ _ ∧ _))

/-- **C56.** The vectors are those that the program has written: a vector for a counter/timer gives the upper five bits
of the vectors of all its channels, the next two being the number of the channel and the last one being 0. Nothing else
that is written changes them, and what is written to this device does not reach those after it. -/
theorem C56_ctc_vectors {W D : Type} (t : Triggers W) (dev : Device D) (port : U16) (data : U8) (ts : Nat)
    (s s' : Ctc W D) (x : Option U16) (h : (Ctc.device t dev).writeIo port data ts s = some (x, s')) :
    s'.node.lines.map Prod.snd = (if s.takesVector port data then
      [0, 1, 2, 3].map fun k => BitVec.ofNat 8 (data.toNat / 8 * 8 + 2 * k) else s.node.lines.map Prod.snd) ∧
    if port &&& s.matchMask = s.matchBits then s'.chained = s.chained else
      dev.writeIo port data ts s.chained = some (x, s'.chained) := by
  have hodd : data.getLsbD 0 = !decide (data.toNat % 2 = 0) := by
    have : ∀ d : U8, d.getLsbD 0 = !decide (d.toNat % 2 = 0) := by decide +kernel
    exact this data
  have hvec : [(data &&& 0b11111000#8) ||| 0#8, (data &&& 0b11111000#8) ||| 2#8, (data &&& 0b11111000#8) ||| 4#8,
      (data &&& 0b11111000#8) ||| 6#8] = [0, 1, 2, 3].map fun k => BitVec.ofNat 8 (data.toNat / 8 * 8 + 2 * k) := by
    have : ∀ d : U8, [(d &&& 0b11111000#8) ||| 0#8, (d &&& 0b11111000#8) ||| 2#8, (d &&& 0b11111000#8) ||| 4#8,
      (d &&& 0b11111000#8) ||| 6#8] = [0, 1, 2, 3].map fun k => BitVec.ofNat 8 (d.toNat / 8 * 8 + 2 * k) := by
      decide +kernel
    exact this data
  simp only [Ctc.device, Ctc.writeIo] at h
  split at h
  · rename_i hm
    simp only [Ctc.takesVector, hm, true_and]
    (repeat' split at h) <;> rename_i h1 h0 <;> simp only [Option.map_eq_some_iff] at h <;>
      obtain ⟨⟨b, c, w⟩, hc, e⟩ := h <;> cases e <;> have hb := CtcChannel.writeControl_word hc <;>
      simp only [h1, h0, decide_true, decide_false] <;> rw [hb, hodd] <;>
      by_cases hd : data.toNat % 2 = 0 <;> simp only [hd, decide_true, decide_false, true_and, false_and,
        Bool.not_true, Bool.not_false, Bool.or_true, Bool.or_false, if_true, if_false]
    all_goals try exact ⟨rfl, trivial⟩
    all_goals
      split
      · rename_i ha
        rw [if_neg (by rw [ha]; nofun)]
        exact ⟨rfl, rfl⟩
      · rename_i ha
        rw [if_pos (by simpa using ha)]
        exact ⟨hvec, rfl⟩
  · rename_i hm
    rw [if_neg hm, if_neg fun h => hm h.1]
    simp only [Option.map_eq_some_iff] at h
    obtain ⟨⟨v, d⟩, hd, e⟩ := h
    cases e
    exact ⟨rfl, hd⟩

/-- **C56.** The same for parallel ports: each of the two channels has a vector of its own, which is set by writing a
word with bit 0 = 0 to its control port. -/
theorem C56_pio_vectors {A B D : Type} (a : PioDev A) (b : PioDev B) (dev : Device D) (port : U16) (data : U8)
    (ts : Nat) (s s' : Pio A B D) (x : Option U16)
    (h : (Pio.device a b dev).writeIo port data ts s = some (x, s')) :
    s'.node.lines.map Prod.snd = (if port &&& s.matchMask = s.matchBits ∧ port &&& s.controlMask ≠ 0 ∧
        data.toNat % 2 = 0 then
      (if port &&& s.channelMask = 0 then [data, s.chB.vector] else [s.chA.vector, data])
      else s.node.lines.map Prod.snd) ∧
    if port &&& s.matchMask = s.matchBits then s'.chained = s.chained else
      dev.writeIo port data ts s.chained = some (x, s'.chained) := by
  have hodd : data.getLsbD 0 = !decide (data.toNat % 2 = 0) := by
    have : ∀ d : U8, d.getLsbD 0 = !decide (d.toNat % 2 = 0) := by decide +kernel
    exact this data
  simp only [Pio.device, Pio.writeIo] at h
  split at h
  · rename_i hm
    simp only [hm, true_and]
    split at h <;> rename_i hc <;> simp only [hc, if_true, if_false] <;> split at h <;> rename_i hk <;>
      simp only [Option.map_eq_some_iff] at h <;> obtain ⟨c, hw, e⟩ := h <;> cases e <;>
      simp only [hk, Pio.node, List.map_cons, List.map_nil, ne_eq, not_true_eq_false, not_false_eq_true, true_and,
        false_and, if_false]
    · rw [PioChannel.writeData_vector hw]; exact ⟨rfl, trivial⟩
    · rw [PioChannel.writeControl_vector hw, hodd]
      by_cases hd : data.toNat % 2 = 0 <;> simp [hd]
    · rw [PioChannel.writeData_vector hw]; exact ⟨rfl, trivial⟩
    · rw [PioChannel.writeControl_vector hw, hodd]
      by_cases hd : data.toNat % 2 = 0 <;> simp [hd]
  · rename_i hm
    rw [if_neg hm, if_neg fun h => hm h.1]
    simp only [Option.map_eq_some_iff] at h
    obtain ⟨⟨v, d⟩, hd, e⟩ := h
    cases e
    exact ⟨rfl, hd⟩

/-- The hypotheses are met: the program writes the vectors 5Eh, by way of channel 2, and 50h. -/
example : (do
    let c ← Chain.new 4 200 [65#8, 66#8] ([] : List U8)
    let dev := board 1000 4 (fun s => (s.head?, s.tail)) fun b s => (true, b :: s)
    let (_, c) ← dev.writeIo 0x06#16 0x5E#8 100 c
    let (_, c) ← dev.writeIo 0x09#16 0x50#8 100 c
    return c.view.map fun n => n.lines.map Prod.snd) =
  some [[0x58#8, 0x5A#8, 0x5C#8, 0x5E#8], [0x50#8, 0#8]] := by decide +kernel

end Z80.Ral
