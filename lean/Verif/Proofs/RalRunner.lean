import Verif.Spec.RalRunner
import Verif.Proofs.Kit

/-!
# The thread of the example computer does what it may
-/

namespace Z80.Ral.Runner
open Spec.Ral

variable {Q D : Type} [Flavour Q] {dev : Device D}

omit [Flavour Q] in
/-- The monitor after all of that. -/
def seenAll : Watch → List (Note Q) → Watch
  | w, [] => w
  | w, a :: l => seenAll (w.next a) l

theorem proper_append {w : Watch} {l l' : List (Note Q)} (h : w.Proper l) (h' : (seenAll w l).Proper l') :
    w.Proper (l ++ l') := by
  induction l generalizing w with
  | nil => exact h'
  | cons a l ih => exact ⟨h.1, h.2.1, ih h.2.2 h'⟩

omit [Flavour Q] in
theorem seen_append (w : Watch) (l l' : List (Note Q)) : seenAll w (l ++ l') = seenAll (seenAll w l) l' := by
  induction l generalizing w with
  | nil => rfl
  | cons a l ih => exact ih _

/-- Outside of the debugger, with this `nmi_request`. -/
structure Runs (w : Watch) (request : Bool) : Prop where
  over : w.over = false
  debugging : w.debugging = false
  due : w.due = none
  pressed : w.pressed = request

/-- In the debugger, with these `header_lines`, `last_ts` and `nmi_request`. -/
structure Debugs (w : Watch) (lines last : Nat) (request : Bool) : Prop where
  over : w.over = false
  debugging : w.debugging = true
  due : w.due = none
  pressed : w.pressed = request
  total : w.total = last
  lines : (lines = 255 ∧ w.lines = none) ∨ (lines ≤ 11 ∧ w.lines = some (lines + 1))

theorem nmi_allowed (m : Machine Q D) : (m.nmi dev).1.isSome = true ↔ m.cpu.isNmiAllowed = true := by
  unfold Machine.nmi Z80.nmi
  show _ ↔ isIntAllowed m.cpu.pfx m.cpu.lastEi = true
  cases isIntAllowed m.cpu.pfx m.cpu.lastEi with
  | false => exact ⟨nofun, nofun⟩
  | true =>
    refine ⟨fun _ => rfl, fun _ => ?_⟩
    have : (Prog.run (tClock (Boards.host dev)) (if true = true then (do
      let c ← nmiNoCheck m.cpu
      pure (true, c)) else pure (false, m.cpu)) (m.cur, m.bus)).1.1 = true := by
      rw [if_pos rfl]
      generalize nmiNoCheck m.cpu = p
      generalize (m.cur, m.bus) = s
      show (Prog.run _ (Prog.bind p fun c => Prog.ret (true, c)) s).1.1 = true
      rw [Prog.run_bind]
      rfl
    dsimp only
    rw [if_pos this]
    rfl

theorem print_proper {w : Watch} {lines last : Nat} {request : Bool} (h : Debugs w lines last request)
    (d : Option CpuDebug) : w.Proper (print (Q := Q) lines d).2 ∧
      Debugs (seenAll w (print (Q := Q) lines d).2) (print (Q := Q) lines d).1 last request := by
  obtain ⟨h1, h2, h3, h4, h5, h6⟩ := h
  cases d with
  | none => exact ⟨⟨⟩, h1, h2, h3, h4, h5, h6⟩
  | some d =>
    unfold print
    by_cases hl : lines > 10
    · dsimp only
      rw [if_pos hl]
      refine ⟨⟨h1, ⟨h3, h2, ?_⟩, h1, ⟨h3, h2, 0, rfl, by omega⟩, ⟨⟩⟩, h1, h2, h3, h4, h5, .inr ⟨by simp, rfl⟩⟩
      rcases h6 with ⟨-, h⟩ | ⟨h, h'⟩
      · exact .inl h
      · refine .inr ?_
        rw [h']
        congr
        omega
    · dsimp only
      rw [if_neg hl]
      obtain ⟨h, h'⟩ : lines ≤ 11 ∧ w.lines = some (lines + 1) := by
        rcases h6 with ⟨h, -⟩ | h
        · omega
        · exact h
      refine ⟨⟨h1, ⟨h3, h2, _, h', by omega⟩, ⟨⟩⟩, h1, h2, h3, h4, h5, .inr ⟨by omega, ?_⟩⟩
      show w.lines.map (· + 1) = _
      rw [h']
      rfl

theorem top_proper {w : Watch} {lines last last' : Nat} {request request' : Bool} {m m' : Machine Q D}
    {u : List (Note Q)} (h : Debugs w lines last request) (ht : top dev request last m = some (request', last', m', u)) :
    w.Proper u ∧ Debugs (seenAll w u) lines last' request' ∧ (request' = true → (seenAll w u).tried = true) := by
  obtain ⟨h1, h2, h3, h4, h5, h6⟩ := h
  unfold top at ht
  cases request with
  | false =>
    cases ht
    exact ⟨⟨h1, ⟨h3, h2, h5.symm, by rw [h4]; exact nofun⟩, ⟨⟩⟩, ⟨h1, h2, h3, h4, h5, h6⟩, nofun⟩
  | true =>
    rw [if_pos rfl] at ht
    have ha := nmi_allowed (dev := dev) m
    generalize m.nmi dev = r at ht ha
    obtain ⟨_ | ts, m1⟩ := r
    · cases ht
      exact ⟨⟨h1, ⟨h3, h4, ha⟩, h1, ⟨h3, h2, h5.symm, fun _ => rfl⟩, ⟨⟩⟩, ⟨h1, h2, h3, h4, h5, h6⟩, fun _ => rfl⟩
    · obtain ⟨v, e1, e2⟩ := Option.map_eq_some_iff.1 ht
      unfold add32 at e1
      split at e1
      · cases e1
        cases e2
        subst h5
        exact ⟨⟨h1, ⟨h3, h4, ha⟩, h1, ⟨h3, h2, rfl, nofun⟩, ⟨⟩⟩, ⟨h1, h2, h3, rfl, rfl, h6⟩, nofun⟩
      · cases e1

theorem retry_proper {w : Watch} {request request' : Bool} {m m' : Machine Q D} {u : List (Note Q)} (h : Runs w request)
    (ht : retry dev request m = (request', m', u)) :
    w.Proper u ∧ Runs (seenAll w u) request' ∧ (request' = true → (seenAll w u).tried = true) := by
  obtain ⟨h1, h2, h3, h4⟩ := h
  unfold retry at ht
  cases request with
  | false =>
    cases ht
    exact ⟨⟨⟩, ⟨h1, h2, h3, h4⟩, nofun⟩
  | true =>
    rw [if_pos rfl] at ht
    have ha := nmi_allowed (dev := dev) m
    generalize m.nmi dev = r at ht ha
    obtain ⟨_ | ts, m1⟩ := r
    · cases ht
      exact ⟨⟨h1, ⟨h3, h4, ha⟩, ⟨⟩⟩, ⟨h1, h2, h3, h4⟩, fun _ => rfl⟩
    · cases ht
      exact ⟨⟨h1, ⟨h3, h4, ha⟩, ⟨⟩⟩, ⟨h1, h2, h3, rfl⟩, nofun⟩

variable {search : List U16 → U16 → Machine.Found} {fps n : Nat}

theorem order_proper {w : Watch} {a : Msg} {lines last lines' last' : Nat} {request request' : Bool} {m m' : Machine Q D}
    {u : List (Note Q)} (h : Debugs w lines last request) (hr : request = true → w.tried = true)
    (ha : a ≠ .continue ∧ a ≠ .terminate)
    (ho : order dev search fps n a lines last request m = some (lines', last', request', m', u)) :
    w.Proper (.got a :: u) ∧ Debugs (seenAll w (.got a :: u)) lines' last' request' := by
  have hh := h
  obtain ⟨h1, h2, h3, h4, h5, h6⟩ := hh
  have hn : ∀ b ts, ({ w with due := some b } : Watch).over = false ∧
      Debugs ({ w with due := none, tried := false, total := ts } : Watch) lines ts request :=
    fun b ts => ⟨h1, h1, h2, rfl, h4, rfl, h6⟩
  cases a with
  | «continue» => exact absurd rfl ha.1
  | terminate => exact absurd rfl ha.2
  | reset =>
    cases ho
    exact ⟨⟨h1, h3, h1, rfl, ⟨⟩⟩, h1, h2, rfl, rfl, h5, h6⟩
  | nmi =>
    cases ho
    exact ⟨⟨h1, h3, ⟨⟩⟩, h1, h2, h3, rfl, h5, h6⟩
  | debugNext =>
    obtain ⟨⟨d, ts, m1⟩, -, e⟩ := Option.map_eq_some_iff.1 ho
    cases e
    obtain ⟨p1, p2⟩ := print_proper (Q := Q) (hn .debugNext last').2 d
    have hw : w.next (.got .debugNext : Note Q) = { w with due := some .debugNext } := if_pos h2
    refine ⟨⟨h1, h3, ?_⟩, ?_⟩
    · rw [hw]
      exact ⟨h1, ⟨rfl, h2, h4 ▸ hr⟩, p1⟩
    · show Debugs (seenAll (w.next (.got .debugNext : Note Q)) _) _ _ _
      rw [hw]
      exact p2
  | debugRunIrq =>
    obtain ⟨⟨d, ts, m1⟩, -, e⟩ := Option.map_eq_some_iff.1 ho
    cases e
    obtain ⟨p1, p2⟩ := print_proper (Q := Q) (hn .debugNext last').2 d
    have hw : w.next (.got .debugRunIrq : Note Q) = { w with due := some .debugRunIrq } := if_pos h2
    refine ⟨⟨h1, h3, ?_⟩, ?_⟩
    · rw [hw]
      exact ⟨h1, ⟨rfl, h2, h4 ▸ hr⟩, p1⟩
    · show Debugs (seenAll (w.next (.got .debugRunIrq : Note Q)) _) _ _ _
      rw [hw]
      exact p2
  | debugCompletion =>
    obtain ⟨⟨d, before, ts, m1⟩, -, e⟩ := Option.map_eq_some_iff.1 ho
    cases e
    obtain ⟨p1, p2⟩ := print_proper (Q := Q) (hn .debugNext last').2 before
    obtain ⟨q1, q2⟩ := print_proper (Q := Q) p2 d
    have hw : w.next (.got .debugCompletion : Note Q) = { w with due := some .debugCompletion } := if_pos h2
    refine ⟨⟨h1, h3, ?_⟩, ?_⟩
    · rw [hw]
      exact ⟨h1, ⟨rfl, h2, h4 ▸ hr⟩, proper_append p1 q1⟩
    · show Debugs (seenAll (w.next (.got .debugCompletion : Note Q)) _) _ _ _
      rw [hw]
      show Debugs (seenAll _ (_ ++ _)) _ _ _
      rw [seen_append]
      exact q2

theorem wait_order {a : Msg} (ha : a ≠ .continue ∧ a ≠ .terminate) (l : List (Option Msg)) (lines last : Nat)
    (request : Bool) (m : Machine Q D) : wait dev search fps n (some a :: l) lines last request m =
      (order dev search fps n a lines last request m).bind fun x =>
        (top dev x.2.2.1 x.2.1 x.2.2.2.1).bind fun y =>
          (wait dev search fps n l x.1 y.2.1 y.1 y.2.2.1).bind fun z =>
            some (z.1, z.2.1, z.2.2.1, z.2.2.2.1, .got a :: (x.2.2.2.2 ++ (y.2.2.2 ++ z.2.2.2.2))) := by
  cases a with
  | «continue» => exact absurd rfl ha.1
  | terminate => exact absurd rfl ha.2
  | _ => rfl

theorem wait_proper {l rest : List (Option Msg)} {w : Watch} {lines last : Nat} {request request' done : Bool}
    {m m' : Machine Q D} {u : List (Note Q)} (h : Debugs w lines last request) (hr : request = true → w.tried = true)
    (hw : wait dev search fps n l lines last request m = some (done, rest, request', m', u)) :
    w.Proper u ∧ (done = false → Runs (seenAll w u) request') := by
  induction l generalizing w lines last request m u with
  | nil => cases hw; exact ⟨⟨⟩, nofun⟩
  | cons a l ih =>
    cases a with
    | none => exact ih h hr hw
    | some a =>
      by_cases ha : a ≠ .continue ∧ a ≠ .terminate
      · rw [wait_order ha] at hw
        obtain ⟨⟨li, la, re, m1, t⟩, e1, hw⟩ := Option.bind_eq_some_iff.1 hw
        obtain ⟨⟨re2, la2, m2, t2⟩, e2, hw⟩ := Option.bind_eq_some_iff.1 hw
        obtain ⟨⟨b, r, re3, m3, t3⟩, e3, hw⟩ := Option.bind_eq_some_iff.1 hw
        cases hw
        obtain ⟨p1, p2⟩ := order_proper h hr ha e1
        obtain ⟨q1, q2, q3⟩ := top_proper p2 e2
        obtain ⟨r1, r2⟩ := ih q2 q3 e3
        rw [← List.cons_append]
        refine ⟨proper_append p1 (proper_append q1 r1), ?_⟩
        rw [seen_append, seen_append]
        exact r2
      · cases a with
        | «continue» =>
          cases hw
          exact ⟨⟨h.over, h.due, ⟨⟩⟩, fun _ => ⟨h.over, rfl, h.due, h.pressed⟩⟩
        | terminate =>
          cases hw
          exact ⟨⟨h.over, h.due, ⟨⟩⟩, nofun⟩
        | _ => exact absurd ⟨nofun, nofun⟩ ha

theorem debug_proper {l rest : List (Option Msg)} {w : Watch} {request request' done : Bool} {m m' : Machine Q D}
    {u : List (Note Q)} {a : Msg} (ha : a = .debugNext ∨ a = .debugCompletion ∨ a = .debugRunIrq) (h : Runs w request)
    (hw : debug dev search fps n l request m = some (done, rest, request', m', u)) :
    w.Proper (.got a :: u) ∧ (done = false → Runs (seenAll w (.got a :: u)) request') := by
  obtain ⟨h1, h2, h3, h4⟩ := h
  obtain ⟨⟨re, la, m1, t⟩, e1, hw⟩ := Option.bind_eq_some_iff.1 hw
  obtain ⟨⟨b, r, re3, m3, t3⟩, e3, hw⟩ := Option.bind_eq_some_iff.1 hw
  cases hw
  have hn : w.next (.got a : Note Q) = { w with debugging := true, lines := none, total := 0 } := by
    rcases ha with rfl | rfl | rfl <;> exact if_neg (by rw [h2]; decide)
  have hd : Debugs (w.next (.got a : Note Q)) 255 0 request := by
    rw [hn]
    exact ⟨h1, rfl, h3, h4, rfl, .inl ⟨rfl, rfl⟩⟩
  obtain ⟨q1, q2, q3⟩ := top_proper hd e1
  obtain ⟨r1, r2⟩ := wait_proper q2 q3 e3
  refine ⟨⟨h1, h3, proper_append q1 r1⟩, ?_⟩
  show done = false → Runs (seenAll _ (_ ++ _)) _
  rw [seen_append]
  exact r2

variable {k : Nat}

theorem loop_proper {j : Nat} {inbox rest : List (Option Msg)} {w : Watch} {request : Bool} {m m' : Machine Q D}
    {u : List (Note Q)} (h : Runs w request)
    (hl : loop dev search fps n k j inbox request m = some (rest, m', u)) : w.Proper u := by
  induction j generalizing inbox w request m u with
  | zero => cases hl
  | succ j ih =>
    unfold loop at hl
    rcases hq : retry dev request m with ⟨re, m1, t⟩
    rw [hq] at hl
    obtain ⟨⟨ts, m2⟩, -, hl⟩ := Option.bind_eq_some_iff.1 hl
    obtain ⟨⟨r, m3, v⟩, e2, hl⟩ := Option.bind_eq_some_iff.1 hl
    cases hl
    obtain ⟨p1, p2, p3⟩ := retry_proper h hq
    refine proper_append p1 ⟨p2.over, ⟨p2.due, p2.debugging, p2.pressed ▸ p3⟩, ?_⟩
    have hw : Runs ((seenAll w t).next (.frame : Note Q)) re := ⟨p2.over, p2.debugging, p2.due, p2.pressed⟩
    generalize (seenAll w t).next (.frame : Note Q) = w1 at hw
    have deb : ∀ {a : Msg} {l : List (Option Msg)}, (a = .debugNext ∨ a = .debugCompletion ∨ a = .debugRunIrq) →
        ((debug dev search fps n l re m2).bind fun x => if x.1 = true then some (x.2.1, x.2.2.2.1, .got a :: x.2.2.2.2)
          else (loop dev search fps n k j x.2.1 x.2.2.1 x.2.2.2.1).map fun y => (y.1, y.2.1, .got a :: (x.2.2.2.2 ++ y.2.2)))
          = some (rest, m', v) → w1.Proper v := by
      intro a l ha e
      obtain ⟨⟨b, r, re3, m3, t3⟩, e3, e⟩ := Option.bind_eq_some_iff.1 e
      obtain ⟨q1, q2⟩ := debug_proper ha hw e3
      cases b with
      | true => cases e; exact q1
      | false =>
        obtain ⟨⟨r4, m4, t4⟩, e4, e⟩ := Option.map_eq_some_iff.1 e
        cases e
        rw [← List.cons_append]
        exact proper_append q1 (ih (q2 rfl) e4)
    rcases inbox with _ | ⟨_ | a, l⟩
    · cases e2
      exact ⟨⟩
    · obtain ⟨⟨r4, m4, t4⟩, e4, e⟩ := Option.map_eq_some_iff.1 e2
      cases e
      exact ⟨hw.over, ⟨hw.due, hw.debugging⟩, ih hw e4⟩
    · cases a with
      | terminate =>
        cases e2
        exact ⟨hw.over, hw.due, ⟨⟩⟩
      | reset =>
        obtain ⟨⟨r4, m4, t4⟩, e4, e⟩ := Option.map_eq_some_iff.1 e2
        cases e
        exact ⟨hw.over, hw.due, hw.over, rfl, ih ⟨hw.over, hw.debugging, rfl, rfl⟩ e4⟩
      | nmi =>
        have ha := nmi_allowed (dev := dev) m2
        dsimp only at e2
        generalize m2.nmi dev = q at e2 ha
        obtain ⟨q, m5⟩ := q
        obtain ⟨⟨r4, m4, t4⟩, e4, e⟩ := Option.map_eq_some_iff.1 e2
        cases e
        cases q with
        | none => exact ⟨hw.over, hw.due, hw.over, ⟨hw.due, rfl, ha⟩, ih ⟨hw.over, hw.debugging, hw.due, rfl⟩ e4⟩
        | some ts => exact ⟨hw.over, hw.due, hw.over, ⟨hw.due, rfl, ha⟩, ih ⟨hw.over, hw.debugging, hw.due, rfl⟩ e4⟩
      | «continue» =>
        obtain ⟨⟨r4, m4, t4⟩, e4, e⟩ := Option.map_eq_some_iff.1 e2
        cases e
        exact ⟨hw.over, hw.due, ih ⟨hw.over, rfl, hw.due, hw.pressed⟩ e4⟩
      | debugNext => exact deb (.inl rfl) e2
      | debugCompletion => exact deb (.inr (.inl rfl)) e2
      | debugRunIrq => exact deb (.inr (.inr rfl)) e2

omit [Flavour Q] in
theorem taken_append (l l' : List (Note Q)) : received (l ++ l') = received l ++ received l' := by
  induction l with
  | nil => rfl
  | cons a l ih => cases a <;> simp only [List.cons_append, received, ih]

omit [Flavour Q] in
theorem print_taken (lines : Nat) (d : Option CpuDebug) : received (print (Q := Q) lines d).2 = [] := by
  cases d with
  | none => rfl
  | some d =>
    unfold print
    dsimp only
    split <;> rfl

theorem top_taken {last last' : Nat} {request request' : Bool} {m m' : Machine Q D} {u : List (Note Q)}
    (ht : top dev request last m = some (request', last', m', u)) : received u = [] := by
  unfold top at ht
  split at ht
  · split at ht
    · obtain ⟨v, -, e2⟩ := Option.map_eq_some_iff.1 ht
      cases e2
      rfl
    · cases ht
      rfl
  · cases ht
    rfl

theorem retry_taken {request request' : Bool} {m m' : Machine Q D} {u : List (Note Q)}
    (ht : retry dev request m = (request', m', u)) : received u = [] := by
  unfold retry at ht
  split at ht
  · split at ht <;> cases ht <;> rfl
  · cases ht
    rfl

theorem order_taken {a : Msg} {lines last lines' last' : Nat} {request request' : Bool} {m m' : Machine Q D}
    {u : List (Note Q)} (ho : order dev search fps n a lines last request m = some (lines', last', request', m', u)) :
    received u = [] := by
  cases a with
  | «continue» => cases ho; rfl
  | terminate => cases ho; rfl
  | reset => cases ho; rfl
  | nmi => cases ho; rfl
  | debugNext =>
    obtain ⟨⟨d, ts, m1⟩, -, e⟩ := Option.map_eq_some_iff.1 ho
    cases e
    exact print_taken _ _
  | debugRunIrq =>
    obtain ⟨⟨d, ts, m1⟩, -, e⟩ := Option.map_eq_some_iff.1 ho
    cases e
    exact print_taken _ _
  | debugCompletion =>
    obtain ⟨⟨d, before, ts, m1⟩, -, e⟩ := Option.map_eq_some_iff.1 ho
    cases e
    show received (_ ++ _) = []
    rw [taken_append, print_taken, print_taken]
    rfl

/-- The thread, or the debugger, ended as it should. -/
def Ended (rest : List (Option Msg)) (u : List (Note Q)) : Prop :=
  (∃ l, u = l ++ [.got .terminate]) ∨ rest = [] ∧ Msg.terminate ∉ received u

omit [Flavour Q] in
theorem ended_append {rest : List (Option Msg)} {u : List (Note Q)} (v : List (Note Q)) (hv : Msg.terminate ∉ received v)
    (h : Ended rest u) : Ended rest (v ++ u) := by
  rcases h with ⟨l, rfl⟩ | ⟨h1, h2⟩
  · exact .inl ⟨v ++ l, by rw [List.append_assoc]⟩
  · refine .inr ⟨h1, ?_⟩
    rw [taken_append, List.mem_append]
    exact fun h => h.elim hv h2

theorem wait_taken {l rest : List (Option Msg)} {lines last : Nat} {request request' done : Bool}
    {m m' : Machine Q D} {u : List (Note Q)}
    (hw : wait dev search fps n l lines last request m = some (done, rest, request', m', u)) :
    l.filterMap id = received u ++ rest.filterMap id ∧ rest.length ≤ l.length ∧
      (done = true → Ended rest u) ∧ (done = false → Msg.terminate ∉ received u) := by
  induction l generalizing lines last request m u with
  | nil => cases hw; exact ⟨rfl, Nat.le_refl _, fun _ => .inr ⟨rfl, List.not_mem_nil⟩, nofun⟩
  | cons a l ih =>
    cases a with
    | none =>
      obtain ⟨h1, h2, h3, h4⟩ := ih hw
      exact ⟨h1, Nat.le_succ_of_le h2, h3, h4⟩
    | some a =>
      by_cases ha : a ≠ .continue ∧ a ≠ .terminate
      · rw [wait_order ha] at hw
        obtain ⟨⟨li, la, re, m1, t⟩, e1, hw⟩ := Option.bind_eq_some_iff.1 hw
        obtain ⟨⟨re2, la2, m2, t2⟩, e2, hw⟩ := Option.bind_eq_some_iff.1 hw
        obtain ⟨⟨b, r, re3, m3, t3⟩, e3, hw⟩ := Option.bind_eq_some_iff.1 hw
        cases hw
        obtain ⟨h1, h2, h3, h4⟩ := ih e3
        have ht : received (.got a :: (t ++ t2)) = [a] := by
          show a :: received (t ++ t2) = _
          rw [taken_append, order_taken e1, top_taken e2]
          rfl
        have hm : Msg.terminate ∉ received (Note.got (Q := Q) a :: (t ++ t2)) := by
          rw [ht]
          exact fun h => ha.2 (List.mem_singleton.1 h).symm
        dsimp only
        rw [show (Note.got (Q := Q) a :: (t ++ (t2 ++ t3))) = (.got a :: (t ++ t2)) ++ t3 by simp]
        refine ⟨?_, Nat.le_succ_of_le h2, fun h => ended_append _ hm (h3 h), fun h => ?_⟩
        · rw [taken_append, ht, List.append_assoc, ← h1]
          rfl
        · rw [taken_append, List.mem_append]
          exact fun g => g.elim hm (h4 h)
      · cases a with
        | «continue» =>
          cases hw
          exact ⟨rfl, Nat.le_succ _, nofun, fun _ => by simp [received]⟩
        | terminate =>
          cases hw
          exact ⟨rfl, Nat.le_succ _, fun _ => .inl ⟨[], rfl⟩, nofun⟩
        | _ => exact absurd ⟨nofun, nofun⟩ ha

theorem loop_taken {j : Nat} {inbox rest : List (Option Msg)} {request : Bool} {m m' : Machine Q D} {u : List (Note Q)}
    (hl : loop dev search fps n k j inbox request m = some (rest, m', u)) :
    inbox.filterMap id = received u ++ rest.filterMap id ∧ Ended rest u := by
  induction j generalizing inbox request m u with
  | zero => cases hl
  | succ j ih =>
    unfold loop at hl
    rcases hq : retry dev request m with ⟨re, m1, t⟩
    rw [hq] at hl
    obtain ⟨⟨ts, m2⟩, -, hl⟩ := Option.bind_eq_some_iff.1 hl
    obtain ⟨⟨r, m3, v⟩, e2, hl⟩ := Option.bind_eq_some_iff.1 hl
    cases hl
    have ht : received (t ++ [.frame]) = [] := by rw [taken_append, retry_taken hq]; rfl
    suffices h : inbox.filterMap id = received v ++ rest.filterMap id ∧ Ended rest v by
      rw [show t ++ Note.frame :: v = (t ++ [.frame]) ++ v by simp]
      refine ⟨?_, ended_append _ (by rw [ht]; exact List.not_mem_nil) h.2⟩
      rw [taken_append, ht]
      exact h.1
    have more : ∀ {x : List (Note Q)} {l : List (Option Msg)} {re : Bool} {m : Machine Q D}, Msg.terminate ∉ received x →
        ((loop dev search fps n k j l re m).map fun y => (y.1, y.2.1, x ++ y.2.2)) = some (rest, m', v) →
        received x ++ l.filterMap id = received v ++ rest.filterMap id ∧ Ended rest v := by
      intro x l re m hx e
      obtain ⟨⟨r4, m4, t4⟩, e4, e⟩ := Option.map_eq_some_iff.1 e
      cases e
      obtain ⟨i1, i2⟩ := ih e4
      exact ⟨by rw [taken_append, i1, List.append_assoc], ended_append _ hx i2⟩
    have deb : ∀ {a : Msg} {l : List (Option Msg)}, a ≠ .terminate →
        ((debug dev search fps n l re m2).bind fun x => if x.1 = true then some (x.2.1, x.2.2.2.1, .got a :: x.2.2.2.2)
          else (loop dev search fps n k j x.2.1 x.2.2.1 x.2.2.2.1).map fun y => (y.1, y.2.1, .got a :: (x.2.2.2.2 ++ y.2.2)))
          = some (rest, m', v) → a :: l.filterMap id = received v ++ rest.filterMap id ∧ Ended rest v := by
      intro a l ha e
      obtain ⟨⟨b, r, re3, m3, t3⟩, e3, e⟩ := Option.bind_eq_some_iff.1 e
      obtain ⟨⟨re5, la5, m5, t5⟩, e5, e3⟩ := Option.bind_eq_some_iff.1 e3
      obtain ⟨⟨b6, r6, re6, m6, t6⟩, e6, e3⟩ := Option.bind_eq_some_iff.1 e3
      cases e3
      obtain ⟨h1, -, h3, h4⟩ := wait_taken e6
      have ht5 : received (.got a :: t5) = [a] := by
        show a :: received t5 = _
        rw [top_taken e5]
      have hm : Msg.terminate ∉ received (Note.got (Q := Q) a :: t5) := by
        rw [ht5]
        exact fun h => ha (List.mem_singleton.1 h).symm
      cases b with
      | true =>
        cases e
        rw [show (Note.got (Q := Q) a :: (t5 ++ t6)) = (.got a :: t5) ++ t6 from rfl]
        refine ⟨?_, ended_append _ hm (h3 rfl)⟩
        rw [taken_append, ht5, h1]
        rfl
      | false =>
        have := more (x := .got a :: (t5 ++ t6)) (l := r) (by
          rw [show (Note.got (Q := Q) a :: (t5 ++ t6)) = (.got a :: t5) ++ t6 from rfl, taken_append, List.mem_append]
          exact fun g => g.elim hm (h4 rfl)) e
        rw [show (Note.got (Q := Q) a :: (t5 ++ t6)) = (.got a :: t5) ++ t6 from rfl, taken_append, ht5,
          List.append_assoc, ← h1] at this
        exact this
    rcases inbox with _ | ⟨_ | a, l⟩
    · cases e2
      exact ⟨rfl, .inr ⟨rfl, List.not_mem_nil⟩⟩
    · exact more (x := [.empty]) List.not_mem_nil e2
    · cases a with
      | terminate =>
        cases e2
        exact ⟨rfl, .inl ⟨[], rfl⟩⟩
      | reset => exact more (x := [.got .reset, .reset]) (by simp [received]) e2
      | nmi => exact more (x := [.got .nmi, .nmi m2.cpu (m2.nmi dev).1]) (by simp [received]) e2
      | «continue» => exact more (x := [.got .continue]) (by simp [received]) e2
      | debugNext => exact deb nofun e2
      | debugCompletion => exact deb nofun e2
      | debugRunIrq => exact deb nofun e2

end Z80.Ral.Runner
