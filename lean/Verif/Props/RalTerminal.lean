import Verif.Proofs.RalTerminal

/-!
# The terminal of the example computer (C85, C86)

`/repo/examples/terminal.rs`. The theorems hold for every window whose cursor stays below the maximum of an `i32`.
-/

namespace Z80.Ral.Terminal
open Spec.Terminal
open Runner (Msg)
variable {W : Type}

/-- C85: whatever bytes come, they say something, and that is done to the window in this order; the beginning of a
sequence is kept until the rest comes. -/
theorem C85_decodes {o : Win W} (hf : Finite o) (w : W) (l : List U8) :
    ∃ ops q s, Says l ops q ∧ receiveAll o (State.new w) l = some s ∧ Waits (ops.foldl (perform o) w) q s :=
  receive_from hf l [] w _ (.nothing false) .nothing

/-- The length of the code that begins with a byte. -/
def lengthFrom (b : U8) : Nat := if b = 16 then 3 else if b = 21 then 2 else 1

theorem code_length {x : Op} {c : List U8} (h : Code x c) : ∃ b t, c = b :: t ∧ c.length = lengthFrom b := by
  cases h with
  | goto y x => exact ⟨_, _, rfl, rfl⟩
  | cursor n => exact ⟨_, _, rfl, rfl⟩
  | print c h =>
    refine ⟨_, _, rfl, ?_⟩
    simp only [List.mem_cons, List.not_mem_nil, or_false, not_or] at h
    rw [lengthFrom, if_neg h.2.2.2.2.1, if_neg h.2.2.2.2.2.2.2.2.2]; rfl
  | _ => exact ⟨_, _, rfl, rfl⟩

theorem begun_length {p : List U8} (h : Begun p) : p = [] ∨ ∃ b t, p = b :: t ∧ p.length < lengthFrom b := by
  cases h with
  | nothing => exact .inl rfl
  | goto => exact .inr ⟨_, _, rfl, by decide⟩
  | row y => exact .inr ⟨_, _, rfl, by show 2 < lengthFrom 16; decide⟩
  | cursor => exact .inr ⟨_, _, rfl, by decide⟩

theorem code_fun {x y : Op} {c : List U8} (h : Code x c) (h2 : Code y c) : x = y := by
  cases h <;> cases h2 <;> first | rfl | (rename_i h; exact absurd h (by decide))

theorem begun_code {p : List U8} (h : Begun p) {x : Op} {c l : List U8} (hc : Code x c) (e : p = c ++ l) : False := by
  obtain ⟨b, t, e1, e2⟩ := code_length hc
  rcases begun_length h with h | ⟨b2, t2, h1, h2⟩
  · rw [h, e1] at e; cases e
  · rw [h1, e1] at e
    injection e with e3 e4
    have e4 : t2 = t ++ l := e4
    rw [h1, e3, e4, List.length_cons, List.length_append] at h2
    rw [e1, List.length_cons] at e2
    omega

/-- C85: the bytes can be read in one way only. -/
theorem C85_unambiguous {l p q : List U8} {a b : List Op} (h : Says l a p) (h2 : Says l b q) : a = b ∧ p = q := by
  induction h generalizing b q with
  | @rest p hb =>
    generalize e : p = z at h2
    cases h2 with
    | rest _ => exact ⟨rfl, rfl⟩
    | op hc _ => exact (begun_code hb hc e).elim
  | @op x c l xs p hc t ih =>
    generalize e : c ++ l = z at h2
    cases h2 with
    | rest hb => exact (begun_code hb hc e.symm).elim
    | @op y c2 l2 ys q hc2 t2 =>
      have len : c.length = c2.length := by
        obtain ⟨b1, t1, e1, f1⟩ := code_length hc
        obtain ⟨b2, t2, e2, f2⟩ := code_length hc2
        rw [f1, f2]
        rw [e1, e2] at e
        injection e with e3
        rw [e3]
      obtain ⟨g1, g2⟩ := List.append_inj e len
      subst g1 g2
      obtain ⟨i1, i2⟩ := ih t2
      rw [code_fun hc hc2, i1]
      exact ⟨rfl, i2⟩

/-- C85: so if the bytes say something, that is what is done. -/
theorem C85_performs {o : Win W} (hf : Finite o) (w : W) {l q : List U8} {ops : List Op} (h : Says l ops q) :
    ∃ s, receiveAll o (State.new w) l = some s ∧ Waits (ops.foldl (perform o) w) q s := by
  obtain ⟨ops', q', s, h1, h2, h3⟩ := C85_decodes hf w l
  obtain ⟨e1, e2⟩ := C85_unambiguous h1 h
  subst e1 e2
  exact ⟨s, h2, h3⟩

/-- C85: this is what the loop does with bytes, one in each turn. -/
theorem C85_stream (o : Win W) : ∀ (l : List (U8 × Bool)) (s : State W),
    loop o s (l.map fun x => ⟨.data x.1, none, x.2⟩) = (receiveAll o s (l.map (·.1))).map fun s => (s, [], [], false)
  | [], s => rfl
  | x :: l, s => by
    rw [List.map_cons, List.map_cons, loop, receiveAll]
    show (turn o s (.data x.1) none x.2).bind _ = _
    rw [turn, incoming]
    cases h : receive o s x.1 with
    | none => rfl
    | some s1 =>
      show (loop o s1 (l.map fun x => ⟨.data x.1, none, x.2⟩)).bind _ = (receiveAll o s1 (l.map (·.1))).map _
      rw [C85_stream o l s1]
      cases receiveAll o s1 (l.map (·.1)) <;> rfl

/-- The state is one in which the terminal waits for the rest of a sequence or for a new one. -/
def Waiting (s : State W) : Prop := ∃ p, Begun p ∧ Waits s.win p s

theorem Waits.win {w : W} {p : List U8} {s : State W} (h : Waits w p s) : s.win = w := by cases h <;> rfl

theorem receive_waiting {o : Win W} (hf : Finite o) {s : State W} (h : Waiting s) (b : U8) :
    ∃ s', receive o s b = some s' ∧ s'.refresh = true ∧ Waiting s' := by
  obtain ⟨p, _, h⟩ := h
  obtain ⟨s', e, r, g⟩ := receive_one hf h b
  refine ⟨s', e, r, ?_⟩
  rcases g with ⟨g1, g2⟩ | ⟨x, _, g2⟩
  · exact ⟨_, g1, g2.win.symm ▸ g2⟩
  · exact ⟨[], .nothing, g2.win.symm ▸ g2⟩

theorem waiting_win {s : State W} (h : Waiting s) (w : W) (r : Bool) : Waiting { s with win := w, refresh := r } := by
  obtain ⟨p, hb, h⟩ := h
  refine ⟨p, hb, ?_⟩
  obtain ⟨w0, r0, c0, l0⟩ := s
  show Waits w p ⟨w, r, c0, l0⟩
  cases h with
  | nothing => exact .nothing r
  | goto => exact .goto r
  | row => exact .row r _
  | cursor => exact .cursor r

theorem incoming_waiting {o : Win W} (hf : Finite o) {s : State W} (h : Waiting s) (g : Got) :
    ∃ z, incoming o s g = some z ∧ ∀ s', z = some s' → Waiting s' := by
  cases g with
  | data b =>
    obtain ⟨s', e, _, h'⟩ := receive_waiting hf h b
    refine ⟨some s', by rw [incoming, e]; rfl, fun _ k => ?_⟩
    injection k with k; exact k ▸ h'
  | timeout =>
    refine ⟨_, rfl, fun s' k => ?_⟩
    injection k with k
    subst k
    split
    · exact waiting_win h _ _
    · exact h
  | disconnected => exact ⟨none, rfl, fun _ k => by cases k⟩

theorem pressed_waiting {o : Win W} {s : State W} (h : Waiting s) (ok : Bool) (k : Option Key) :
    Waiting (pressed o s ok k).state := by
  have clear : Waiting { s with control := none, collected := [] } := ⟨[], .nothing, .nothing s.refresh⟩
  cases k with
  | none => exact h
  | some k =>
    cases k with
    | character c => unfold pressed; dsimp only; split <;> exact h
    | resize => exact waiting_win h _ s.refresh
    | f1 => exact clear
    | f4 => exact clear
    | _ => exact h

theorem turn_waiting {o : Win W} (hf : Finite o) {s : State W} (h : Waiting s) (g : Got) (k : Option Key) (ok : Bool) :
    ∃ t, turn o s g k ok = some t ∧ Waiting t.state := by
  obtain ⟨z, e, hz⟩ := incoming_waiting hf h g
  cases z with
  | none => exact ⟨_, by rw [turn, e]; rfl, h⟩
  | some s' => exact ⟨_, by rw [turn, e]; rfl, pressed_waiting (hz s' rfl) ok k⟩

theorem loop_waiting {o : Win W} (hf : Finite o) : ∀ (l : List Event) (s : State W), Waiting s → (loop o s l).isSome = true
  | [], _, _ => rfl
  | e :: l, s, h => by
    obtain ⟨t, e1, h1⟩ := turn_waiting hf h e.got e.key e.ok
    have ih := loop_waiting hf l t.state h1
    obtain ⟨z, hz⟩ := Option.isSome_iff_exists.mp ih
    rw [loop, e1]
    show (if t.go = true then _ else _ : Option _).isSome = true
    split
    · rw [hz]; rfl
    · rfl

theorem waiting_new (w : W) : Waiting (State.new w) := ⟨[], .nothing, .nothing false⟩

/-- C85: the terminal never panics, whatever comes from the computer and whatever keys are pressed. -/
theorem C85_no_panic {o : Win W} (hf : Finite o) (w : W) (l : List Event) : (loop o (State.new w) l).isSome = true :=
  loop_waiting hf l _ (waiting_new w)

/-- States that the loop gets into. -/
inductive Reaches (o : Win W) (w : W) : State W → Prop
  | new : Reaches o w (State.new w)
  | turn {s g k ok t} (h : Reaches o w s) (e : turn o s g k ok = some t) : Reaches o w t.state

/-- C85: after the keys for a reset and for an interrupt no sequence is pending, whatever was before. -/
theorem C85_reset {o : Win W} {s : State W} {g : Got} {k : Key} {ok : Bool} {t : Turn W} (hk : k = .f1 ∨ k = .f4)
    (hg : g ≠ .disconnected) (h : turn o s g (some k) ok = some t) : Waits t.state.win [] t.state := by
  unfold turn at h
  cases hi : incoming o s g with
  | none => rw [hi] at h; cases h
  | some z =>
    cases z with
    | none =>
      cases g with
      | data b =>
        cases hr : receive o s b with
        | none => rw [incoming, hr] at hi; cases hi
        | some x => rw [incoming, hr] at hi; cases hi
      | timeout => rw [incoming] at hi; cases hi
      | disconnected => exact absurd rfl hg
    | some z =>
      rw [hi] at h
      injection h with h
      subst h
      rcases hk with rfl | rfl <;> exact .nothing _

/-- C85: the keys for the directions send what moves the cursor in that direction when it is sent back. -/
theorem C85_echo (o : Win W) (s : State W) (ok : Bool) :
    ∀ k x, (k, x) ∈ [(Key.up, Op.up), (Key.left, Op.left), (Key.down, Op.down), (Key.right, Op.right)] →
      ∃ b, (pressed o s ok (some k)).byte = some b ∧ Code x [b] := by
  intro k x h
  simp only [List.mem_cons, List.not_mem_nil, or_false, Prod.mk.injEq] at h
  rcases h with ⟨rfl, rfl⟩ | ⟨rfl, rfl⟩ | ⟨rfl, rfl⟩ | ⟨rfl, rfl⟩
  · exact ⟨_, rfl, .up⟩
  · exact ⟨_, rfl, .left⟩
  · exact ⟨_, rfl, .down⟩
  · exact ⟨_, rfl, .right⟩

/-- C85: characters typed are sent in the order they were typed while the connection lasts, whatever comes from the
computer in between; nothing else is sent then. Characters outside ASCII are left out. -/
theorem C85_typed {o : Win W} (hf : Finite o) : ∀ (l : List (Got × Nat)) (s : State W), Waiting s →
    (∀ x, x ∈ l → x.1 ≠ .disconnected) →
    ∃ s', loop o s (l.map fun x => ⟨x.1, some (.character x.2), true⟩) =
      some (s', [], (l.filter fun x => decide (x.2 < 128)).map fun x => BitVec.ofNat 8 x.2, false)
  | [], s, _, _ => ⟨s, rfl⟩
  | (g, c) :: l, s, hs, hg => by
    obtain ⟨z, e, hz⟩ := incoming_waiting hf hs g
    cases z with
    | none =>
      exfalso
      have := hg (g, c) (List.mem_cons_self ..)
      cases g with
      | data b =>
        obtain ⟨s', e', _⟩ := receive_waiting hf hs b
        rw [incoming, e'] at e; cases e
      | timeout => rw [incoming] at e; cases e
      | disconnected => exact this rfl
    | some s1 =>
      have et : turn o s g (some (.character c)) true = some (pressed o s1 true (some (.character c))) := by
        rw [turn, e]; rfl
      by_cases q : c < 128
      · have ep : pressed o s1 true (some (.character c)) = ⟨s1, none, some (BitVec.ofNat 8 c), true⟩ := if_pos q
        obtain ⟨s', h'⟩ := C85_typed hf l s1 (hz s1 rfl) (fun x hx => hg x (List.mem_cons_of_mem _ hx))
        refine ⟨s', ?_⟩
        rw [List.map_cons, loop]
        simp only [et, ep, Option.bind_eq_bind, Option.bind_some, if_true, h', List.filter_cons, decide_eq_true q, List.map_cons]
        rfl
      · have ep : pressed o s1 true (some (.character c)) = ⟨s1, none, none, true⟩ := if_neg q
        obtain ⟨s', h'⟩ := C85_typed hf l s1 (hz s1 rfl) (fun x hx => hg x (List.mem_cons_of_mem _ hx))
        refine ⟨s', ?_⟩
        rw [List.map_cons, loop]
        simp only [et, ep, Option.bind_eq_bind, Option.bind_some, if_true, h', List.filter_cons, decide_eq_false q]
        rfl

/-- The function keys as the user is told (`/repo/examples/README.md` 34-40). -/
def menu : List (Key × Msg) :=
  [(.f1, .nmi), (.f4, .reset), (.f5, .debugNext), (.f6, .debugCompletion), (.f7, .debugRunIrq), (.f8, .continue)]

/-- C85: function keys send the computer's thread what the user is told, in the order they were pressed while the connection
lasts, and nothing else is sent then. -/
theorem C85_menu {o : Win W} (hf : Finite o) : ∀ (l : List (Got × Key × Msg)) (s : State W), Waiting s →
    (∀ x, x ∈ l → x.1 ≠ .disconnected ∧ x.2 ∈ menu) →
    ∃ s', loop o s (l.map fun x => ⟨x.1, some x.2.1, true⟩) = some (s', l.map (·.2.2), [], false)
  | [], s, _, _ => ⟨s, rfl⟩
  | (g, k, m) :: l, s, hs, hg => by
    obtain ⟨hd, hm⟩ := hg (g, k, m) (List.mem_cons_self ..)
    obtain ⟨z, e, hz⟩ := incoming_waiting hf hs g
    cases z with
    | none =>
      exfalso
      cases g with
      | data b =>
        obtain ⟨s', e', _⟩ := receive_waiting hf hs b
        rw [incoming, e'] at e; cases e
      | timeout => rw [incoming] at e; cases e
      | disconnected => exact hd rfl
    | some s1 =>
      have et : turn o s g (some k) true = some (pressed o s1 true (some k)) := by rw [turn, e]; rfl
      have ep : ∃ s2, Waiting s2 ∧ pressed o s1 true (some k) = ⟨s2, some m, none, true⟩ := by
        simp only [menu, List.mem_cons, List.not_mem_nil, or_false, Prod.mk.injEq] at hm
        have w1 := hz s1 rfl
        have w2 : Waiting { s1 with control := none, collected := [] } := ⟨[], .nothing, .nothing _⟩
        rcases hm with ⟨rfl, rfl⟩ | ⟨rfl, rfl⟩ | ⟨rfl, rfl⟩ | ⟨rfl, rfl⟩ | ⟨rfl, rfl⟩ | ⟨rfl, rfl⟩
        · exact ⟨_, w2, rfl⟩
        · exact ⟨_, w2, rfl⟩
        all_goals exact ⟨_, w1, rfl⟩
      obtain ⟨s2, w2, ep⟩ := ep
      obtain ⟨s', h'⟩ := C85_menu hf l s2 w2 (fun x hx => hg x (List.mem_cons_of_mem _ hx))
      refine ⟨s', ?_⟩
      rw [List.map_cons, loop]
      simp only [et, ep, Option.bind_eq_bind, Option.bind_some, if_true, h', List.map_cons]
      rfl

/-- The keys wired to control codes (`/repo/examples/ral1243/README.md` 118-132), but for `Backspace`, `Tab` and `Esc`, which
are characters. -/
def wired : List (Key × U8) :=
  [(.pPage, 1), (.home, 2), (.end, 3), (.nPage, 4), (.ic, 5), (.up, 17), (.left, 18), (.down, 19), (.right, 20), (.dc, 127)]

/-- C85: these keys send the codes the user is told, in the order they were pressed while the connection lasts, and nothing
else is sent then. -/
theorem C85_keys {o : Win W} (hf : Finite o) : ∀ (l : List (Got × Key × U8)) (s : State W), Waiting s →
    (∀ x, x ∈ l → x.1 ≠ .disconnected ∧ x.2 ∈ wired) →
    ∃ s', loop o s (l.map fun x => ⟨x.1, some x.2.1, true⟩) = some (s', [], l.map (·.2.2), false)
  | [], s, _, _ => ⟨s, rfl⟩
  | (g, k, b) :: l, s, hs, hg => by
    obtain ⟨hd, hm⟩ := hg (g, k, b) (List.mem_cons_self ..)
    obtain ⟨z, e, hz⟩ := incoming_waiting hf hs g
    cases z with
    | none =>
      exfalso
      cases g with
      | data b =>
        obtain ⟨s', e', _⟩ := receive_waiting hf hs b
        rw [incoming, e'] at e; cases e
      | timeout => rw [incoming] at e; cases e
      | disconnected => exact hd rfl
    | some s1 =>
      have et : turn o s g (some k) true = some (pressed o s1 true (some k)) := by rw [turn, e]; rfl
      have ep : pressed o s1 true (some k) = ⟨s1, none, some b, true⟩ := by
        simp only [wired, List.mem_cons, List.not_mem_nil, or_false, Prod.mk.injEq] at hm
        rcases hm with ⟨rfl, rfl⟩ | ⟨rfl, rfl⟩ | ⟨rfl, rfl⟩ | ⟨rfl, rfl⟩ | ⟨rfl, rfl⟩ | ⟨rfl, rfl⟩ | ⟨rfl, rfl⟩ | ⟨rfl, rfl⟩ |
          ⟨rfl, rfl⟩ | ⟨rfl, rfl⟩ <;> rfl
      obtain ⟨s', h'⟩ := C85_keys hf l s1 (hz s1 rfl) (fun x hx => hg x (List.mem_cons_of_mem _ hx))
      refine ⟨s', ?_⟩
      rw [List.map_cons, loop]
      simp only [et, ep, Option.bind_eq_bind, Option.bind_some, if_true, h', List.map_cons]
      rfl

/-- C85: the computer's thread is told to terminate exactly when the loop ends, and that is the last message. -/
theorem C85_leaves (o : Win W) : ∀ (l : List Event) (s s' : State W) (ms : List Msg) (bs : List U8) (ended : Bool),
    loop o s l = some (s', ms, bs, ended) →
    ∃ ms0, ms = ms0 ++ (if ended then [.terminate] else []) ∧ Msg.terminate ∉ ms0
  | [], s, s', ms, bs, ended, h => by
    injection h with h
    obtain ⟨rfl, rfl, rfl, rfl⟩ := Prod.mk.injEq .. |>.mp h |>.imp_right (fun h => Prod.mk.injEq .. |>.mp h |>.imp_right (fun h => Prod.mk.injEq .. |>.mp h))
    exact ⟨[], rfl, fun k => by cases k⟩
  | e :: l, s, s', ms, bs, ended, h => by
    rw [loop] at h
    have hmsg : ∀ t, turn o s e.got e.key e.ok = some t → Msg.terminate ∉ t.msg.toList := fun t ht => by
      unfold turn at ht
      cases hi : incoming o s e.got with
      | none => rw [hi] at ht; cases ht
      | some z =>
        rw [hi] at ht
        injection ht with ht
        subst ht
        cases z with
        | none => exact fun k => by cases k
        | some z =>
          show Msg.terminate ∉ (pressed o z e.ok e.key).msg.toList
          cases e.key with
          | none => exact fun k => by cases k
          | some k =>
            cases k with
            | character c => unfold pressed; dsimp only; split <;> exact fun k => by cases k
            | _ => intro k; first | (cases k; done) | (rcases List.mem_singleton.mp k with k; cases k)
    cases ht : turn o s e.got e.key e.ok with
    | none => rw [ht] at h; cases h
    | some t =>
      rw [ht] at h
      have hm := hmsg t ht
      have h : (if t.go = true then (loop o t.state l).bind fun z => some (z.1, t.msg.toList ++ z.2.1, t.byte.toList ++ z.2.2.1, z.2.2.2)
        else some (t.state, t.msg.toList ++ [.terminate], t.byte.toList, true)) = some (s', ms, bs, ended) := h
      by_cases q : t.go = true
      · rw [if_pos q] at h
        cases hl : loop o t.state l with
        | none => rw [hl] at h; cases h
        | some z =>
          obtain ⟨z1, z2, z3, z4⟩ := z
          rw [hl] at h
          cases h
          obtain ⟨m0, a1, a2⟩ := C85_leaves o l t.state z1 z2 z3 z4 hl
          refine ⟨t.msg.toList ++ m0, by rw [a1, List.append_assoc], fun k => ?_⟩
          rcases List.mem_append.mp k with k | k
          · exact hm k
          · exact a2 k
      · rw [if_neg q] at h
        cases h
        exact ⟨t.msg.toList, rfl, hm⟩

/-- C85: the loop ends in the turn in which F10 is pressed, the computer's end of the port is gone, or a message or byte
cannot be sent, and in no other. -/
theorem C85_ends {o : Win W} (hf : Finite o) {s : State W} (hs : Waiting s) (g : Got) (k : Option Key) (ok : Bool) :
    ∃ t, turn o s g k ok = some t ∧
      (t.go = false ↔ g = .disconnected ∨ k = some .f10 ∨ (ok = false ∧ (t.msg ≠ none ∨ t.byte ≠ none))) := by
  obtain ⟨z, e, _⟩ := incoming_waiting hf hs g
  cases z with
  | none =>
    refine ⟨_, by rw [turn, e]; rfl, fun _ => .inl ?_, fun _ => rfl⟩
    cases g with
    | data b =>
      obtain ⟨s', e', _⟩ := receive_waiting hf hs b
      rw [incoming, e'] at e; cases e
    | timeout => rw [incoming] at e; cases e
    | disconnected => rfl
  | some s1 =>
    refine ⟨_, by rw [turn, e]; rfl, ?_⟩
    have hg : g ≠ .disconnected := fun q => by subst q; rw [incoming] at e; cases e
    show (pressed o s1 ok k).go = false ↔ g = .disconnected ∨ k = some .f10 ∨
      (ok = false ∧ ((pressed o s1 ok k).msg ≠ none ∨ (pressed o s1 ok k).byte ≠ none))
    cases k with
    | none => simp [pressed, hg]
    | some k =>
      cases k with
      | character c => by_cases q : c < 128 <;> simp [pressed, hg, q]
      | _ => simp [pressed, hg, Key.byte]

/-- A window that remembers what was done to it; the positions of the cursor are arbitrary. -/
def logWin (y x b : List Act → Int) : Win (List Act) where
  curY := y
  curX := x
  begX := b
  mv w y x := w ++ [.mv y x]
  addch w c := w ++ [.addch c]
  erase w := w ++ [.erase]
  beep w := w ++ [.beep]
  cursSet w n := w ++ [.cursor n]
  refresh w := w ++ [.refresh]
  resize w := w ++ [.resize]

/-- Everything done to the window is to be seen. -/
def Shown (l : List Act) : Prop := l = [] ∨ l.getLast? = some .refresh

theorem shown_refresh (l : List Act) : Shown (l ++ [.refresh]) := .inr (by rw [List.getLast?_append]; rfl)

theorem pressed_shown {y x b : List Act → Int} {s : State (List Act)} (ok : Bool) (k : Option Key)
    (h : s.refresh = false → Shown s.win) :
    ((pressed (logWin y x b) s ok k).state.refresh = s.refresh) ∧
      (s.refresh = false → Shown (pressed (logWin y x b) s ok k).state.win) := by
  cases k with
  | none => exact ⟨rfl, h⟩
  | some k =>
    cases k with
    | character c => unfold pressed; dsimp only; split <;> exact ⟨rfl, h⟩
    | resize => exact ⟨rfl, fun _ => shown_refresh _⟩
    | _ => exact ⟨rfl, h⟩

theorem turn_shown {y x b : List Act → Int} (hf : Finite (logWin y x b)) {s : State (List Act)} (hw : Waiting s)
    (h : s.refresh = false → Shown s.win) (g : Got) (k : Option Key) (ok : Bool) :
    ∃ t, turn (logWin y x b) s g k ok = some t ∧ (t.state.refresh = false → Shown t.state.win) ∧
      (g = .timeout → Shown t.state.win) := by
  cases g with
  | data c =>
    obtain ⟨s', e, r, _⟩ := receive_waiting hf hw c
    refine ⟨_, by rw [turn, incoming, e]; rfl, fun q => ?_, fun q => by cases q⟩
    have p := pressed_shown (y := y) (x := x) (b := b) ok k (s := s') (fun q => by rw [r] at q; cases q)
    rw [p.1.trans r] at q; cases q
  | disconnected => exact ⟨_, rfl, h, fun q => by cases q⟩
  | timeout =>
    cases hr : s.refresh with
    | true =>
      refine ⟨_, by rw [turn, incoming, hr]; rfl, ?_⟩
      have p := pressed_shown (y := y) (x := x) (b := b) ok k
        (s := { s with win := (logWin y x b).refresh s.win, refresh := false }) (fun _ => shown_refresh _)
      exact ⟨fun _ => p.2 rfl, fun _ => p.2 rfl⟩
    | false =>
      refine ⟨_, by rw [turn, incoming, hr]; rfl, ?_⟩
      have p := pressed_shown (y := y) (x := x) (b := b) ok k (s := s) h
      exact ⟨fun _ => p.2 hr, fun _ => p.2 hr⟩

/-- C85: whenever nothing came for the time of a turn, everything that was done to the window is to be seen. -/
theorem C85_shown {y x b : List Act → Int} (hf : Finite (logWin y x b)) {s : State (List Act)}
    (h : Reaches (logWin y x b) [] s) (k : Option Key) (ok : Bool) {t : Turn (List Act)}
    (ht : turn (logWin y x b) s .timeout k ok = some t) : Shown t.state.win := by
  have inv : Waiting s ∧ (s.refresh = false → Shown s.win) := by
    clear ht
    induction h with
    | new => exact ⟨waiting_new [], fun _ => .inl rfl⟩
    | turn h e ih =>
      obtain ⟨t1, e1, w1⟩ := turn_waiting hf ih.1 _ _ _
      obtain ⟨t2, e2, g2, _⟩ := turn_shown hf ih.1 ih.2 _ _ _
      rw [e] at e1 e2
      cases e1; cases e2
      exact ⟨w1, g2⟩
  obtain ⟨t2, e2, _, g2⟩ := turn_shown hf inv.1 inv.2 .timeout k ok
  rw [ht] at e2
  cases e2
  exact g2 rfl

/-- A window of 24 lines of 80 columns whose cursor is where it was moved last meets the condition of these theorems. -/
example : Finite (logWin (fun l => (l.length % 24 : Nat)) (fun l => (l.length % 80 : Nat)) (fun _ => 0)) := by
  intro w
  show (_ ≤ ((w.length % 24 : Nat) : Int) ∧ ((w.length % 24 : Nat) : Int) < _) ∧ _ ≤ ((w.length % 80 : Nat) : Int) ∧
    ((w.length % 80 : Nat) : Int) < _
  omega

/-- Two letters, a movement and the first byte of another. -/
example : Says [65, 16, 3, 4, 10, 66, 16] [.print 65, .goto 3 4, .down, .print 66] [16] :=
  .op (.print 65 (by decide)) (.op (.goto 3 4) (.op .newline (.op (.print 66 (by decide)) (.rest .goto))))

/-- What that does to the window that remembers. -/
example : (receiveAll (logWin (fun _ => 5) (fun _ => 7) (fun _ => 0)) (State.new []) [65, 16, 3, 4, 10, 66, 16]).map (·.win) =
    some [.addch 65, .mv 3 4, .mv 6 7, .addch 66] := by decide

/-- C86: frequencies given in kHz. They are accepted if and only if they are from 100 kHz to 40 MHz and divisible by 20,
and then the computer is given that frequency. Missing: numbers from 4294968 on, for which the number of Hz exceeds 32 bits. -/
theorem C86_clock_partial (checks : Bool) {khz : Nat} (h : khz < 4294968) :
    clockHz checks (some khz) = some (1000 * khz) ∧
    (checkClock (1000 * khz) = some true ↔ 100 ≤ khz ∧ khz ≤ 40000 ∧ khz % 20 = 0) := by
  constructor
  · unfold clockHz
    simp only [Option.getD_some]
    rw [if_neg (fun q => absurd q.2 (by omega)), Nat.mod_eq_of_lt (by omega)]
  · unfold checkClock clockIsValid
    rw [if_pos (by decide)]
    simp only [Option.map_some, Option.some.injEq, Bool.and_eq_true, beq_iff_eq, decide_eq_true_eq, Bool.not_eq_true',
      decide_eq_false_iff_not]
    omega

/-- C86: in full it is false: without overflow checks 536874912 kHz are accepted as 4 MHz; with them the program panics. -/
theorem C86_refuted : clockHz false (some 536874912) = some 4000000 ∧ checkClock 4000000 = some true ∧
    clockHz true (some 536874912) = none := by decide

/-- C86: without a frequency on the command line it is 4 MHz, which is accepted. -/
theorem C86_default (checks : Bool) : clockHz checks none = some 4000000 ∧ checkClock 4000000 = some true := by
  cases checks <;> decide

/-- There are frequencies that are accepted and such that are not. -/
example : checkClock (1000 * 3500) = some true ∧ checkClock (1000 * 3510) = some false ∧ checkClock (1000 * 80) = some false ∧
    checkClock (1000 * 50000) = some false := by decide

end Z80.Ral.Terminal
