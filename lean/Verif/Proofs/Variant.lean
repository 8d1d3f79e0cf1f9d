import Verif.Spec.Variant
import Verif.Proofs.Wz

/-! # Trees of cycles of two variants -/

set_option linter.constructorNameAsVariable false

namespace Z80
open Spec
variable {O R α β γ : Type} {σ : Sig}

/-- Change the value at every end. -/
def Spec.Tree.map (f : α → β) (b : Tree O R α) : Tree O R β := b.bind fun a => .done (f a)

/-- Forget the flag history. -/
def hideQ (e : Res' O R) : Res' O R := (e.1.noQ, e.2)

/-- Trees alike up to `R` at the ends, where nothing is required after a bad sequence of cycles. -/
def Spec.Tree.Agree (E : α → β → Prop) : (List Cyc → Prop) → Tree O R α → Tree O R β → Prop
  | bad, .done a, b => bad [] ∨ ∃ a', b = .done a' ∧ E a a'
  | bad, .m1 a ir k, b => bad [] ∨ ∃ k', b = .m1 a ir k' ∧
      ∀ v, (k v).Agree E (fun l => bad (.m1 a ir v :: l)) (k' v)
  | bad, .idleM1 a k, b => bad [] ∨ ∃ k', b = .idleM1 a k' ∧ k.Agree E (fun l => bad (.idleM1 a :: l)) k'
  | bad, .rd a k, b => bad [] ∨ ∃ k', b = .rd a k' ∧ ∀ v, (k v).Agree E (fun l => bad (.rd a v :: l)) (k' v)
  | bad, .rd16 a k, b => bad [] ∨ ∃ k', b = .rd16 a k' ∧
      ∀ v, (k v).Agree E (fun l => bad (.rd16 a v :: l)) (k' v)
  | bad, .skip a k, b => bad [] ∨ ∃ k', b = .skip a k' ∧ k.Agree E (fun l => bad (.skip a :: l)) k'
  | bad, .wr a v k, b => bad [] ∨ ∃ k', b = .wr a v k' ∧ k.Agree E (fun l => bad (.wr a v :: l)) k'
  | bad, .idle a n k, b => bad [] ∨ ∃ k', b = .idle a n k' ∧
      k.Agree E (fun l => bad (.idle a (BitVec.ofNat 8 n) :: l)) k'
  | bad, .inp p k, b => bad [] ∨ ∃ k', b = .inp p k' ∧
      ∀ v w, (k v).Agree E (fun l => bad (.inp p v w :: l)) (k' v)
  | bad, .out p v k, b => bad [] ∨ ∃ k', b = .out p v k' ∧
      ∀ x w, (k x).Agree E (fun l => bad (.out p v w :: l)) (k' x)
  | bad, .reti pc k, b => bad [] ∨ ∃ k', b = .reti pc k' ∧
      ∀ x, (k x).Agree E (fun l => bad (.reti pc :: l)) (k' x)
  | bad, .irq k, b => bad [] ∨ ∃ k', b = .irq k' ∧ ∀ x, (k x).Agree E (fun l => bad (.irq x :: l)) (k' x)
  | bad, .ack pc k, b => bad [] ∨ ∃ k', b = .ack pc k' ∧
      ∀ v w, (k v).Agree E (fun l => bad (.ack pc v w :: l)) (k' v)

theorem agree_of_map {f : α → γ} {g : β → γ} {b : Tree O R α} {b' : Tree O R β}
    (bad : List Cyc → Prop) (h : b.map f = b'.map g) : b.Agree (fun a a' => f a = g a') bad b' := by
  induction b generalizing b' bad with
  | done a =>
    cases b' with
    | done a' => exact .inr ⟨a', rfl, by injection h⟩
    | _ => nomatch h
  | m1 a ir k ih =>
    cases b' with
    | m1 a' ir' k' =>
      injection h with h1 h2 h3
      subst h1; subst h2
      exact .inr ⟨k', rfl, fun v => ih v _ (congrFun h3 v)⟩
    | _ => nomatch h
  | idleM1 a k ih =>
    cases b' with
    | idleM1 a' k' => injection h with h1 h2; subst h1; exact .inr ⟨k', rfl, ih _ h2⟩
    | _ => nomatch h
  | rd a k ih =>
    cases b' with
    | rd a' k' => injection h with h1 h2; subst h1; exact .inr ⟨k', rfl, fun v => ih v _ (congrFun h2 v)⟩
    | _ => nomatch h
  | rd16 a k ih =>
    cases b' with
    | rd16 a' k' => injection h with h1 h2; subst h1; exact .inr ⟨k', rfl, fun v => ih v _ (congrFun h2 v)⟩
    | _ => nomatch h
  | skip a k ih =>
    cases b' with
    | skip a' k' => injection h with h1 h2; subst h1; exact .inr ⟨k', rfl, ih _ h2⟩
    | _ => nomatch h
  | wr a v k ih =>
    cases b' with
    | wr a' v' k' => injection h with h1 h2 h3; subst h1; subst h2; exact .inr ⟨k', rfl, ih _ h3⟩
    | _ => nomatch h
  | idle a v k ih =>
    cases b' with
    | idle a' v' k' => injection h with h1 h2 h3; subst h1; subst h2; exact .inr ⟨k', rfl, ih _ h3⟩
    | _ => nomatch h
  | inp p k ih =>
    cases b' with
    | inp a' k' => injection h with h1 h2; subst h1; exact .inr ⟨k', rfl, fun v w => ih v _ (congrFun h2 v)⟩
    | _ => nomatch h
  | out p v k ih =>
    cases b' with
    | out a' v' k' =>
      injection h with h1 h2 h3; subst h1; subst h2
      exact .inr ⟨k', rfl, fun v w => ih v _ (congrFun h3 v)⟩
    | _ => nomatch h
  | reti pc k ih =>
    cases b' with
    | reti a' k' => injection h with h1 h2; subst h1; exact .inr ⟨k', rfl, fun v => ih v _ (congrFun h2 v)⟩
    | _ => nomatch h
  | irq k ih =>
    cases b' with
    | irq k' => injection h with h1; exact .inr ⟨k', rfl, fun v => ih v _ (congrFun h1 v)⟩
    | _ => nomatch h
  | ack pc k ih =>
    cases b' with
    | ack a' k' => injection h with h1 h2; subst h1; exact .inr ⟨k', rfl, fun v w => ih v _ (congrFun h2 v)⟩
    | _ => nomatch h

theorem waiting_runs {p : U16} {w : Option U16} {k : Prog σ α} {u : List (Ev σ)} {a : α}
    (h : k.Runs u a) : (waiting p w k).Runs (waitCalls p w ++ u) a := by
  cases w with
  | none => exact h
  | some n => exact .call (.addWait p n) (fun _ => k) () u a h

/-- A run of the calls of a tree either shows a bad sequence of cycles or is a run of a tree that
agrees. -/
theorem agree_runs {E : α → β → Prop} {b : Tree σ.O σ.R α} {b' : Tree σ.O σ.R β}
    {bad : List Cyc → Prop} (hm : ∀ l l', bad l → bad (l ++ l')) (h : b.Agree E bad b')
    {t : List (Ev σ)} {e : α} (hr : b.calls.Runs t e) :
    (∃ l, b.Path l e ∧ Performs l t ∧ bad l) ∨ ∃ e', b'.calls.Runs t e' ∧ E e e' := by
  have early : bad [] → (∃ l, b.Path l e ∧ Performs l t ∧ bad l) := fun hb => by
    obtain ⟨l, h1, h2⟩ := runs_path hr
    exact ⟨l, h1, h2, hm [] l hb⟩
  have hc : ∀ c l l', bad (c :: l) → bad (c :: (l ++ l')) := fun c l l' => hm (c :: l) l'
  induction b generalizing b' bad t with
  | done a =>
    rcases h with h | ⟨a', rfl, h⟩
    · exact .inl (early h)
    · obtain ⟨rfl, rfl⟩ := Prog.runs_ret hr
      exact .inr ⟨a', .ret _, h⟩
  | m1 a ir k ih =>
    rcases h with h | ⟨k', rfl, h⟩
    · exact .inl (early h)
    · obtain ⟨ts, u, rfl, g1⟩ := Prog.runs_call hr
      obtain ⟨v, u, rfl, g2⟩ := Prog.runs_call g1
      rcases ih v (hc _) (h v) g2 (fun hb => by
        obtain ⟨l, h1, h2⟩ := runs_path g2; exact ⟨l, h1, h2, hc _ [] l hb⟩)
        (fun c l l' => hm (_ :: c :: l) l') with ⟨l, h1, h2, h3⟩ | ⟨e', h1, h2⟩
      · exact .inl ⟨_, .m1 h1, .cons (.m1 ts) h2, h3⟩
      · exact .inr ⟨e', .call _ _ _ _ _ (.call _ _ _ _ _ h1), h2⟩
  | idleM1 a k ih =>
    rcases h with h | ⟨k', rfl, h⟩
    · exact .inl (early h)
    · obtain ⟨ts, u, rfl, g1⟩ := Prog.runs_call hr
      rcases ih (hc _) h g1 (fun hb => by
        obtain ⟨l, h1, h2⟩ := runs_path g1; exact ⟨l, h1, h2, hc _ [] l hb⟩)
        (fun c l l' => hm (_ :: c :: l) l') with ⟨l, h1, h2, h3⟩ | ⟨e', h1, h2⟩
      · exact .inl ⟨_, .idleM1 h1, .cons (.idleM1 ts) h2, h3⟩
      · exact .inr ⟨e', .call _ _ _ _ _ h1, h2⟩
  | rd a k ih =>
    rcases h with h | ⟨k', rfl, h⟩
    · exact .inl (early h)
    · obtain ⟨ts, u, rfl, g1⟩ := Prog.runs_call hr
      obtain ⟨v, u, rfl, g2⟩ := Prog.runs_call g1
      rcases ih v (hc _) (h v) g2 (fun hb => by
        obtain ⟨l, h1, h2⟩ := runs_path g2; exact ⟨l, h1, h2, hc _ [] l hb⟩)
        (fun c l l' => hm (_ :: c :: l) l') with ⟨l, h1, h2, h3⟩ | ⟨e', h1, h2⟩
      · exact .inl ⟨_, .rd h1, .cons (.rd ts) h2, h3⟩
      · exact .inr ⟨e', .call _ _ _ _ _ (.call _ _ _ _ _ h1), h2⟩
  | rd16 a k ih =>
    rcases h with h | ⟨k', rfl, h⟩
    · exact .inl (early h)
    · obtain ⟨ts, u, rfl, g1⟩ := Prog.runs_call hr
      obtain ⟨v, u, rfl, g2⟩ := Prog.runs_call g1
      obtain ⟨ts', u, rfl, g3⟩ := Prog.runs_call g2
      rcases ih v (hc _) (h v) g3 (fun hb => by
        obtain ⟨l, h1, h2⟩ := runs_path g3; exact ⟨l, h1, h2, hc _ [] l hb⟩)
        (fun c l l' => hm (_ :: c :: l) l') with ⟨l, h1, h2, h3⟩ | ⟨e', h1, h2⟩
      · exact .inl ⟨_, .rd16 h1, .cons (.rd16 ts ts') h2, h3⟩
      · exact .inr ⟨e', .call _ _ _ _ _ (.call _ _ _ _ _ (.call _ _ _ _ _ h1)), h2⟩
  | skip a k ih =>
    rcases h with h | ⟨k', rfl, h⟩
    · exact .inl (early h)
    · obtain ⟨ts, u, rfl, g1⟩ := Prog.runs_call hr
      obtain ⟨v, u, rfl, g2⟩ := Prog.runs_call g1
      rcases ih (hc _) h g2 (fun hb => by
        obtain ⟨l, h1, h2⟩ := runs_path g2; exact ⟨l, h1, h2, hc _ [] l hb⟩)
        (fun c l l' => hm (_ :: c :: l) l') with ⟨l, h1, h2, h3⟩ | ⟨e', h1, h2⟩
      · exact .inl ⟨_, .skip h1, .cons (.skip ts v) h2, h3⟩
      · exact .inr ⟨e', .call _ _ _ _ _ (.call _ _ _ _ _ h1), h2⟩
  | wr a v k ih =>
    rcases h with h | ⟨k', rfl, h⟩
    · exact .inl (early h)
    · obtain ⟨ts, u, rfl, g1⟩ := Prog.runs_call hr
      obtain ⟨_, u, rfl, g2⟩ := Prog.runs_call g1
      rcases ih (hc _) h g2 (fun hb => by
        obtain ⟨l, h1, h2⟩ := runs_path g2; exact ⟨l, h1, h2, hc _ [] l hb⟩)
        (fun c l l' => hm (_ :: c :: l) l') with ⟨l, h1, h2, h3⟩ | ⟨e', h1, h2⟩
      · exact .inl ⟨_, .wr h1, .cons (.wr ts) h2, h3⟩
      · exact .inr ⟨e', .call _ _ _ _ _ (.call _ _ _ _ _ h1), h2⟩
  | idle a n k ih =>
    rcases h with h | ⟨k', rfl, h⟩
    · exact .inl (early h)
    · obtain ⟨_, u, rfl, g1⟩ := Prog.runs_call hr
      rcases ih (hc _) h g1 (fun hb => by
        obtain ⟨l, h1, h2⟩ := runs_path g1; exact ⟨l, h1, h2, hc _ [] l hb⟩)
        (fun c l l' => hm (_ :: c :: l) l') with ⟨l, h1, h2, h3⟩ | ⟨e', h1, h2⟩
      · exact .inl ⟨_, .idle h1, .cons .idle h2, h3⟩
      · exact .inr ⟨e', .call _ _ _ _ _ h1, h2⟩
  | inp p k ih =>
    rcases h with h | ⟨k', rfl, h⟩
    · exact .inl (early h)
    · obtain ⟨ts, u, rfl, g1⟩ := Prog.runs_call hr
      obtain ⟨v, u, rfl, g2⟩ := Prog.runs_call g1
      obtain ⟨u, rfl, g3⟩ := runs_waiting g2
      rcases ih v.1 (hc _) (h v.1 v.2) g3 (fun hb => by
        obtain ⟨l, h1, h2⟩ := runs_path g3; exact ⟨l, h1, h2, hc _ [] l hb⟩)
        (fun c l l' => hm (_ :: c :: l) l') with ⟨l, h1, h2, h3⟩ | ⟨e', h1, h2⟩
      · exact .inl ⟨_, .inp h1, .cons (.inp ts) h2, h3⟩
      · exact .inr ⟨e', .call _ _ _ _ _ (.call _ _ _ _ _ (waiting_runs h1)), h2⟩
  | out p v k ih =>
    rcases h with h | ⟨k', rfl, h⟩
    · exact .inl (early h)
    · obtain ⟨ts, u, rfl, g1⟩ := Prog.runs_call hr
      obtain ⟨x, u, rfl, g2⟩ := Prog.runs_call g1
      obtain ⟨u, rfl, g3⟩ := runs_waiting g2
      rcases ih x.1 (hc _) (h x.1 x.2) g3 (fun hb => by
        obtain ⟨l, h1, h2⟩ := runs_path g3; exact ⟨l, h1, h2, hc _ [] l hb⟩)
        (fun c l l' => hm (_ :: c :: l) l') with ⟨l, h1, h2, h3⟩ | ⟨e', h1, h2⟩
      · exact .inl ⟨_, .out h1, .cons (.out ts x.1) h2, h3⟩
      · exact .inr ⟨e', .call _ _ _ _ _ (.call _ _ _ _ _ (waiting_runs h1)), h2⟩
  | reti pc k ih =>
    rcases h with h | ⟨k', rfl, h⟩
    · exact .inl (early h)
    · obtain ⟨ts, u, rfl, g1⟩ := Prog.runs_call hr
      obtain ⟨x, u, rfl, g2⟩ := Prog.runs_call g1
      rcases ih x (hc _) (h x) g2 (fun hb => by
        obtain ⟨l, h1, h2⟩ := runs_path g2; exact ⟨l, h1, h2, hc _ [] l hb⟩)
        (fun c l l' => hm (_ :: c :: l) l') with ⟨l, h1, h2, h3⟩ | ⟨e', h1, h2⟩
      · exact .inl ⟨_, .reti h1, .cons (.reti ts x) h2, h3⟩
      · exact .inr ⟨e', .call _ _ _ _ _ (.call _ _ _ _ _ h1), h2⟩
  | irq k ih =>
    rcases h with h | ⟨k', rfl, h⟩
    · exact .inl (early h)
    · obtain ⟨ts, u, rfl, g1⟩ := Prog.runs_call hr
      obtain ⟨x, u, rfl, g2⟩ := Prog.runs_call g1
      rcases ih x (hc _) (h x) g2 (fun hb => by
        obtain ⟨l, h1, h2⟩ := runs_path g2; exact ⟨l, h1, h2, hc _ [] l hb⟩)
        (fun c l l' => hm (_ :: c :: l) l') with ⟨l, h1, h2, h3⟩ | ⟨e', h1, h2⟩
      · exact .inl ⟨_, .irq h1, .cons (.irq ts) h2, h3⟩
      · exact .inr ⟨e', .call _ _ _ _ _ (.call _ _ _ _ _ h1), h2⟩
  | ack pc k ih =>
    rcases h with h | ⟨k', rfl, h⟩
    · exact .inl (early h)
    · obtain ⟨ts, u, rfl, g1⟩ := Prog.runs_call hr
      obtain ⟨v, u, rfl, g2⟩ := Prog.runs_call g1
      obtain ⟨u, rfl, g3⟩ := runs_waiting g2
      rcases ih v.1 (hc _) (h v.1 v.2) g3 (fun hb => by
        obtain ⟨l, h1, h2⟩ := runs_path g3; exact ⟨l, h1, h2, hc _ [] l hb⟩)
        (fun c l l' => hm (_ :: c :: l) l') with ⟨l, h1, h2, h3⟩ | ⟨e', h1, h2⟩
      · exact .inl ⟨_, .ack h1, .cons (.ack ts) h2, h3⟩
      · exact .inr ⟨e', .call _ _ _ _ _ (.call _ _ _ _ _ (waiting_runs h1)), h2⟩

/-! ### The trees of two variants -/

theorem map_endCycles {f : Bool} {c c' : Cycles O R} (h : c.map hideQ = c'.map hideQ) :
    (endCycles f c).map hideQ = (endCycles f c').map hideQ := by
  have hb : ∀ c : Cycles O R, (endCycles f c).map hideQ =
      (c.map hideQ).map fun e => ({ e.1 with idx := .hl, q := none }, e.2) := by
    intro c
    induction c with
    | done a => rfl
    | m1 a ir k ih => exact congrArg (Tree.m1 a ir) (funext ih)
    | idleM1 a k ih => exact congrArg (Tree.idleM1 a) ih
    | rd a k ih => exact congrArg (Tree.rd a) (funext ih)
    | rd16 a k ih => exact congrArg (Tree.rd16 a) (funext ih)
    | skip a k ih => exact congrArg (Tree.skip a) ih
    | wr a v k ih => exact congrArg (Tree.wr a v) ih
    | idle a v k ih => exact congrArg (Tree.idle a v) ih
    | inp a k ih => exact congrArg (Tree.inp a) (funext ih)
    | out a v k ih => exact congrArg (Tree.out a v) (funext ih)
    | reti a k ih => exact congrArg (Tree.reti a) (funext ih)
    | irq k ih => exact congrArg Tree.irq (funext ih)
    | ack a k ih => exact congrArg (Tree.ack a) (funext ih)
  rw [hb, hb, h]

/-- Registers that differ in the flag history only. -/
theorem noQ_eq {r r' : Regs} (h : r.noQ = r'.noQ) : r' = { r with q := r'.q } := by
  cases r; cases r'
  simp only [Regs.noQ, Regs.mk.injEq] at h
  simp_all

theorem var0 (o o' : Opt) (x : Ix) (k : I0) (r : Regs) (q : Option Bool)
    (hk : k ≠ .scf ∧ k ≠ .ccf ∧ (∀ p, k ≠ .ldRpA p) ∧ k ≠ .ldNnA ∧ k ≠ .outNA) :
    (cycles0 (O := O) (R := R) o x k r).map hideQ = (cycles0 o' x k { r with q := q }).map hideQ := by
  obtain ⟨h1, h2, h3, h4, h5⟩ := hk
  cases k with
  | scf => exact absurd rfl h1
  | ccf => exact absurd rfl h2
  | ldRpA p => exact absurd rfl (h3 p)
  | ldNnA => exact absurd rfl h4
  | outNA => exact absurd rfl h5
  | djnz =>
    unfold cycles0
    refine congrArg (Tree.idle r.ir 1) ?_
    show Tree.map hideQ (if r.b - 1 ≠ 0 then _ else _) = Tree.map hideQ (if r.b - 1 ≠ 0 then _ else _)
    split <;> rfl
  | jrCc c =>
    unfold cycles0
    show Tree.map hideQ (if r.holds c then _ else _) = Tree.map hideQ (if r.holds c then _ else _)
    split <;> rfl
  | retCc c =>
    unfold cycles0
    refine congrArg (Tree.idle r.ir 1) ?_
    show Tree.map hideQ (if r.holds c then _ else _) = Tree.map hideQ (if r.holds c then _ else _)
    split <;> rfl
  | callCc c =>
    unfold cycles0
    refine congrArg (Tree.rd16 r.pc) (funext fun v => ?_)
    show Tree.map hideQ (if r.holds c then _ else _) = Tree.map hideQ (if r.holds c then _ else _)
    split <;> rfl
  | jpCc c =>
    unfold cycles0
    refine congrArg (Tree.rd16 r.pc) (funext fun v => congrArg Tree.done ?_)
    show hideQ (if r.holds c then _ else _, _) = hideQ (if r.holds c then _ else _, _)
    split <;> rfl
  | incR g | decR g | ldRN g | aluR _ g => cases x <;> cases g <;> rfl
  | ldRR d g => cases x <;> cases d <;> cases g <;> rfl
  | ldRpNn p | incRp p | decRp p | pop p => cases x <;> cases p <;> rfl
  | addHl p | ldHlNn | exSpHl => cases x <;> rfl
  | _ => rfl

theorem varCb (k : ICb) (r : Regs) (q : Option Bool) :
    (cbCycles (O := O) (R := R) k r).map hideQ = (cbCycles k { r with q := q }).map hideQ := by
  rcases k with ⟨k, g⟩ | ⟨n, g⟩ | ⟨n, g⟩ | ⟨n, g⟩ <;> cases g <;> rfl

theorem varXCb (k : ICb) (a : U16) (r : Regs) (q : Option Bool) :
    (xcbCycles (O := O) (R := R) k a r).map hideQ = (xcbCycles k a { r with q := q }).map hideQ := by
  rcases k with ⟨k, g⟩ | ⟨n, g⟩ | ⟨n, g⟩ | ⟨n, g⟩ <;> cases g <;> rfl

theorem varEd (o o' : Opt) (k : IEd) (r : Regs) (q : Option Bool)
    (hk : k ≠ .outC .m ∧ k ≠ .ldAI ∧ k ≠ .ldAR) :
    (edCycles (O := O) (R := R) o k r).map hideQ = (edCycles o' k { r with q := q }).map hideQ := by
  obtain ⟨h1, h2, h3⟩ := hk
  cases k with
  | ldAI => exact absurd rfl h2
  | ldAR => exact absurd rfl h3
  | inC g | outC g => cases g <;> first | exact absurd rfl h1 | rfl
  | ldRpNn p => cases p <;> rfl
  | blk b d rep =>
    have hrep : ∀ (again : Bool) (a : U16) (r r' : Regs) (y : Out O R), r.noQ = r'.noQ →
        (repeatCycles again a r y).map hideQ = (repeatCycles again a r' y).map hideQ := by
      intro again a r r' y h
      rw [noQ_eq h]
      cases again <;> rfl
    cases b with
    | ld =>
      exact congrArg (Tree.rd r.hl) (funext fun v => congrArg (Tree.wr r.de v)
        (congrArg (Tree.idle r.de 2) (hrep _ _ _ _ _ rfl)))
    | cp =>
      exact congrArg (Tree.rd r.hl) (funext fun v => congrArg (Tree.idle r.hl 5)
        (hrep _ _ _ _ _ rfl))
    | inp =>
      exact congrArg (Tree.idle r.ir 1) (congrArg (Tree.inp r.bc) (funext fun v =>
        congrArg (Tree.wr r.hl v) (hrep _ _ _ _ _ rfl)))
    | out =>
      exact congrArg (Tree.idle r.ir 1) (congrArg (Tree.rd r.hl) (funext fun v =>
        congrArg (Tree.out _ v) (funext fun x => hrep _ _ _ _ _ rfl)))
  | _ => rfl

/-! ### Opcode bytes -/

/-- Opcode byte of a cycle. -/
def Spec.Cyc.code? (im : Nat) : Cyc → Option U8
  | .m1 _ _ v => some v
  | .ack _ v _ => if im = 0 then some v else none
  | _ => none

/-- Opcode bytes of cycles. -/
def codes (im : Nat) (l : List Cyc) : List U8 := l.filterMap (Cyc.code? im)

theorem performs_codes {im : Nat} {l : List Cyc} {t : List (Ev σ)} (h : Performs l t) :
    codesOf im t = codes im l := by
  refine performs_filterMap (fun hc => ?_) h
  cases hc with
  | @inp p v w ts => cases w <;> rfl
  | @out p v w ts x => cases w <;> rfl
  | @ack p v w ts =>
    show List.filterMap (Ev.code? im) (⟨_, _⟩ :: ⟨.irqData p ts, (v, w)⟩ :: waitCalls p w) = _
    rw [List.filterMap_cons_none rfl, List.filterMap_cons]
    have h1 : Ev.code? im (⟨.irqData p ts, (v, w)⟩ : Ev σ) = Cyc.code? im (.ack p v w) := rfl
    rw [h1]
    cases w <;> cases Cyc.code? im (.ack p v _) <;> rfl
  | _ => rfl

theorem imp8 {p q : U8 → Bool} {c : U8} (h : all8 (fun c => !p c || q c) = true) (hp : p c = true) :
    q c = true := by
  have := all8_spec h c
  rwa [hp] at this

theorem varies_append {l l' : List U8} (h : varies l = true) : varies (l ++ l') = true := by
  match l with
  | [] => cases h
  | [op] =>
    cases l' with
    | nil => exact h
    | cons a l' => exact (congrArg (· || _) h).trans (Bool.true_or _)
  | op :: op2 :: l => exact h

theorem agree_bad {E : α → β → Prop} {b : Tree O R α} {b' : Tree O R β} {bad : List Cyc → Prop}
    (h : bad []) : b.Agree E bad b' := by
  cases b <;> exact .inl h

/-- Executing the same opcode on two variants. -/
theorem varOp (o o' : Opt) (op : U8) {r r' : Regs} (h : r.noQ = r'.noQ) (im : Nat) :
    (opCycles (O := O) (R := R) o op r).Agree (fun e e' => hideQ e = hideQ e')
      (fun l => varies (op :: codes im l) = true) (opCycles o' op r') := by
  rw [noQ_eq h]
  generalize r'.q = q
  by_cases hv : varies0 op = true
  · exact agree_bad hv
  have h0 : (!varies0 op) = true := by simpa using hv
  have hd := imp8 (p := fun op => !varies0 op) (q := fun op => decide (decode op ≠ .scf ∧ decode op ≠ .ccf ∧
    (decode op ≠ .ldRpA .bc ∧ decode op ≠ .ldRpA .de ∧ decode op ≠ .ldRpA .hl ∧
      decode op ≠ .ldRpA .sp) ∧ decode op ≠ .ldNnA ∧ decode op ≠ .outNA))
    (by decide +kernel) h0
  obtain ⟨d1, d2, d3, d4, d5⟩ := of_decide_eq_true hd
  have hrp : ∀ p, decode op ≠ .ldRpA p := fun p => by
    obtain ⟨a, b, c, d⟩ := d3; cases p <;> assumption
  unfold opCycles
  generalize hk : decode op = k at *
  cases k with
  | dd | fd => exact .inr ⟨_, rfl, rfl⟩
  | ed =>
    refine .inr ⟨_, rfl, fun c => ?_⟩
    by_cases hc : variesEd c = true
    · refine agree_bad ?_
      show (varies0 op || (op == 0xED#8 && variesEd c)) = true
      have he := all8_spec (p := fun op => !(decode op == I0.ed) || op == 0xED#8) (by decide +kernel) op
      rw [hk] at he
      have he : (op == 0xED#8) = true := he
      rw [he, hc]; exact Bool.or_true _
    · refine agree_of_map _ (map_endCycles (varEd o o' _ _ q ?_))
      have h0 : (!variesEd c) = true := by simpa using hc
      exact of_decide_eq_true (imp8 (p := fun c => !variesEd c)
        (q := fun c => decide (decodeEd c ≠ .outC .m ∧
        decodeEd c ≠ .ldAI ∧ decodeEd c ≠ .ldAR)) (by decide +kernel) h0)
  | cb =>
    dsimp only
    generalize r.idx = x
    cases x with
    | hl => exact .inr ⟨_, rfl, fun c => agree_of_map _ (map_endCycles (varCb _ _ q))⟩
    | ix => exact .inr ⟨_, rfl, fun d => .inr ⟨_, rfl, fun c => .inr ⟨_, rfl,
        agree_of_map _ (map_endCycles (varXCb _ _ _ q))⟩⟩⟩
    | iy => exact .inr ⟨_, rfl, fun d => .inr ⟨_, rfl, fun c => .inr ⟨_, rfl,
        agree_of_map _ (map_endCycles (varXCb _ _ _ q))⟩⟩⟩
  | _ => exact agree_of_map _ (map_endCycles (var0 o o' _ _ _ q ⟨d1, d2, hrp, d4, d5⟩))

theorem varIrq (o o' : Opt) {r r' : Regs} (h : r.noQ = r'.noQ) :
    (irqCycles (O := O) (R := R) o r).Agree (fun e e' => hideQ e = hideQ e')
      (fun l => varies (codes r.im l) = true) (irqCycles o' r') := by
  unfold irqCycles
  have hw : (wake { r with iff1 := false, iff2 := false, ei := false }.bumpR).noQ =
      (wake { r' with iff1 := false, iff2 := false, ei := false }.bumpR).noQ := by
    rw [noQ_eq h]; unfold wake Regs.bumpR; dsimp only; split <;> rfl
  have hi : (wake { r with iff1 := false, iff2 := false, ei := false }.bumpR).im = r.im := by
    unfold wake Regs.bumpR; split <;> rfl
  generalize wake { r with iff1 := false, iff2 := false, ei := false }.bumpR = w at *
  generalize wake { r' with iff1 := false, iff2 := false, ei := false }.bumpR = w' at *
  rw [← hi]
  have h2 : w'.im = w.im := by rw [noQ_eq hw]
  have h3 : w'.pc = w.pc := by rw [noQ_eq hw]
  dsimp only
  rw [h2, h3]
  refine .inr ⟨_, rfl, fun v _ => ?_⟩
  cases hm : w.im with
  | zero => exact varOp o o' v hw 0
  | succ n =>
    rw [noQ_eq hw]
    cases n with
    | zero => exact agree_of_map _ rfl
    | succ n => exact agree_of_map _ rfl

theorem varStep (o o' : Opt) {r r' : Regs} (h : r.noQ = r'.noQ) :
    (stepCycles (O := O) (R := R) o r).Agree (fun e e' => hideQ e = hideQ e')
      (fun l => varies (codes r.im l) = true) (stepCycles o' r') := by
  have hirq := varIrq (O := O) (R := R) o o' h
  have hgo : (if r.halted then Tree.idleM1 r.pc (fin r.bumpR) else fetchCycles o r : Cycles O R).Agree
      (fun e e' => hideQ e = hideQ e') (fun l => varies (codes r.im l) = true)
      (if r'.halted then Tree.idleM1 r'.pc (fin r'.bumpR) else fetchCycles o' r') := by
    have h1 : r'.halted = r.halted := by rw [noQ_eq h]
    have h2 : r'.pc = r.pc := by rw [noQ_eq h]
    have h3 : r'.bumpR.ir = r.bumpR.ir := by rw [noQ_eq h]; rfl
    rw [h1]
    split
    · rw [noQ_eq h]; exact .inr ⟨_, rfl, .inr ⟨_, rfl, rfl⟩⟩
    · unfold fetchCycles
      rw [h2, h3]
      exact .inr ⟨_, rfl, fun op => varOp o o' op (by rw [noQ_eq h]; rfl) r.im⟩
  unfold stepCycles
  have h4 : irqOk r' = irqOk r := by rw [noQ_eq h]; rfl
  dsimp only
  rw [h4]
  split
  · refine .inr ⟨_, rfl, fun b => ?_⟩
    cases b
    · exact hgo
    · exact hirq
  · exact hgo

/-! ### Programs -/

theorem outS_inj {x y : Res σ} (h : outS x = outS y) (hx : outS x ≠ none) : x = y := by
  cases x <;> cases y <;> first | rfl | exact absurd rfl hx | (cases h; rfl) | cases h

variable {Q Q' : Type} [FlavourSpec Q] [FlavourSpec Q']

/-- Programs with trees that agree have the same runs. -/
theorem drives_agree {p : Prog σ (Res σ × Cpu Q)} {p' : Prog σ (Res σ × Cpu Q')}
    {b b' : Cycles σ.O σ.R} (hd : DrivesP p b) (hd' : DrivesP p' b') (hp : p.erase = p)
    (hp' : p'.erase = p') {f : Regs → Regs} {bad : List Cyc → Prop}
    (hm : ∀ l l', bad l → bad (l ++ l'))
    (ha : b.Agree (fun e e' => f e.1 = f e'.1 ∧ e.2 = e'.2) bad b')
    {t : List (Ev σ)} {x : Res σ} {c : Cpu Q} (hr : p.Runs t (x, c))
    (hb : ∀ l, Performs l t → ¬ bad l) :
    ∃ c', p'.Runs t (x, c') ∧ f (abs c) = f (abs c') := by
  have h1 : (p.erase.map seenR).Runs t (abs c, outS x) := Prog.runs_map.2 ⟨_, hp.symm ▸ hr, rfl⟩
  rw [hd] at h1
  obtain ⟨e, h2, h3⟩ := Prog.runs_map.1 h1
  rcases agree_runs hm ha h2 with ⟨l, _, h4, h5⟩ | ⟨e', h4, h5, h6⟩
  · exact absurd h5 (hb l h4)
  have h7 : (b'.calls.map wanted).Runs t (wanted e') := Prog.runs_map.2 ⟨_, h4, rfl⟩
  rw [← hd', hp'] at h7
  obtain ⟨⟨y, c'⟩, h8, h9⟩ := Prog.runs_map.1 h7
  have h10 : abs c = e.1 := congrArg Prod.fst h3
  have h11 : outS x = some e.2.2 := congrArg Prod.snd h3
  have h12 : abs c' = e'.1 := congrArg Prod.fst h9.symm
  have h13 : outS y = some e'.2.2 := congrArg Prod.snd h9.symm
  have : x = y := outS_inj (by rw [h11, h13, h6]) (by rw [h11]; nofun)
  subst this
  exact ⟨c', h8, by rw [h10, h12, h5]⟩

theorem erase_erase (p : Prog σ α) : p.erase.erase = p.erase := by
  induction p with
  | ret a => rfl
  | call r k ih =>
    cases h : r.isDebug with
    | false => rw [Prog.erase_call h, Prog.erase_call h]; exact congrArg _ (funext ih)
    | true => cases r <;> first | exact ih () | cases h

theorem hideQ_eq : (fun e e' : Res' O R => hideQ e = hideQ e') =
    fun e e' => e.1.noQ = e'.1.noQ ∧ e.2 = e'.2 := by
  funext e e'
  exact propext ⟨fun h => by have h1 := congrArg Prod.fst h; have h2 := congrArg Prod.snd h; exact ⟨h1, h2⟩, fun h => by
    unfold hideQ; rw [h.1, h.2]⟩

theorem agree_imp {E E' : α → β → Prop} (hE : ∀ a b, E a b → E' a b) {b : Tree O R α}
    {b' : Tree O R β} {bad : List Cyc → Prop} (h : b.Agree E bad b') : b.Agree E' bad b' := by
  induction b generalizing b' bad with
  | done a => exact h.imp id fun ⟨a', h1, h2⟩ => ⟨a', h1, hE _ _ h2⟩
  | m1 a ir k ih => exact h.imp id fun ⟨k', h1, h2⟩ => ⟨k', h1, fun v => ih v (h2 v)⟩
  | idleM1 a k ih => exact h.imp id fun ⟨k', h1, h2⟩ => ⟨k', h1, ih h2⟩
  | rd a k ih => exact h.imp id fun ⟨k', h1, h2⟩ => ⟨k', h1, fun v => ih v (h2 v)⟩
  | rd16 a k ih => exact h.imp id fun ⟨k', h1, h2⟩ => ⟨k', h1, fun v => ih v (h2 v)⟩
  | skip a k ih => exact h.imp id fun ⟨k', h1, h2⟩ => ⟨k', h1, ih h2⟩
  | wr a v k ih => exact h.imp id fun ⟨k', h1, h2⟩ => ⟨k', h1, ih h2⟩
  | idle a v k ih => exact h.imp id fun ⟨k', h1, h2⟩ => ⟨k', h1, ih h2⟩
  | inp a k ih => exact h.imp id fun ⟨k', h1, h2⟩ => ⟨k', h1, fun v w => ih v (h2 v w)⟩
  | out a v k ih => exact h.imp id fun ⟨k', h1, h2⟩ => ⟨k', h1, fun v w => ih v (h2 v w)⟩
  | reti a k ih => exact h.imp id fun ⟨k', h1, h2⟩ => ⟨k', h1, fun v => ih v (h2 v)⟩
  | irq k ih => exact h.imp id fun ⟨k', h1, h2⟩ => ⟨k', h1, fun v => ih v (h2 v)⟩
  | ack a k ih => exact h.imp id fun ⟨k', h1, h2⟩ => ⟨k', h1, fun v w => ih v (h2 v w)⟩

theorem erase_quiet_instruction (op : U8) (c : Cpu Q) :
    (executeInstruction (σ := σ) false op c).erase = executeInstruction false op c := by
  rw [← erase_instruction, erase_erase]

theorem erase_quiet_next (c : Cpu Q) :
    (executeNext (σ := σ) false c).erase = executeNext false c := by
  rw [← erase_next, erase_erase]

/-! ### Instructions on which variants differ -/

/-- SCF and CCF. -/
theorem varScf (o o' : Opt) {op : U8} (hop : op = 0x37#8 ∨ op = 0x3F#8) {r r' : Regs}
    (h : r.noQ = r'.noQ) :
    (opCycles (O := O) (R := R) o op r).Agree (fun e e' => e.1.noXY = e'.1.noXY ∧ e.2 = e'.2)
      (fun _ => False) (opCycles o' op r') := by
  rw [noQ_eq h]
  rcases hop with rfl | rfl <;> exact .inr ⟨_, rfl, rfl, rfl⟩

/-- Instructions that leave A in the high byte of MEMPTR, or 0 on the BM1. -/
theorem varStoreA (o o' : Opt) {op : U8}
    (hop : op = 0x02#8 ∨ op = 0x12#8 ∨ op = 0x32#8 ∨ op = 0xD3#8) {r r' : Regs}
    (h : r.noQ = r'.noQ) :
    (opCycles (O := O) (R := R) o op r).Agree (fun e e' => e.1.noWz = e'.1.noWz ∧ e.2 = e'.2)
      (fun _ => False) (opCycles o' op r') := by
  rw [noQ_eq h]
  rcases hop with rfl | rfl | rfl | rfl
  · exact .inr ⟨_, rfl, .inr ⟨_, rfl, rfl, rfl⟩⟩
  · exact .inr ⟨_, rfl, .inr ⟨_, rfl, rfl, rfl⟩⟩
  · exact .inr ⟨_, rfl, fun v => .inr ⟨_, rfl, .inr ⟨_, rfl, rfl, rfl⟩⟩⟩
  · exact .inr ⟨_, rfl, fun v => .inr ⟨_, rfl, fun x _ => .inr ⟨_, rfl, rfl, rfl⟩⟩⟩

theorem varStoreA' (o o' : Opt) (ho : o.wzHi0 = o'.wzHi0) {op : U8}
    (hop : op = 0x02#8 ∨ op = 0x12#8 ∨ op = 0x32#8 ∨ op = 0xD3#8) {r r' : Regs}
    (h : r.noQ = r'.noQ) :
    (opCycles (O := O) (R := R) o op r).Agree (fun e e' => e.1.noQ = e'.1.noQ ∧ e.2 = e'.2)
      (fun _ => False) (opCycles o' op r') := by
  rw [noQ_eq h]
  cases o; cases o'; cases ho
  rcases hop with rfl | rfl | rfl | rfl
  · exact .inr ⟨_, rfl, .inr ⟨_, rfl, rfl, rfl⟩⟩
  · exact .inr ⟨_, rfl, .inr ⟨_, rfl, rfl, rfl⟩⟩
  · exact .inr ⟨_, rfl, fun v => .inr ⟨_, rfl, .inr ⟨_, rfl, rfl, rfl⟩⟩⟩
  · exact .inr ⟨_, rfl, fun v => .inr ⟨_, rfl, fun x _ => .inr ⟨_, rfl, rfl, rfl⟩⟩⟩

theorem drives_to {p : Prog σ (Res σ × Cpu Q)} {b : Cycles σ.O σ.R} (hd : DrivesP p b)
    (hp : p.erase = p) {t : List (Ev σ)} {x : Res σ} {c : Cpu Q} (hr : p.Runs t (x, c)) :
    ∃ e, b.calls.Runs t e ∧ abs c = e.1 ∧ outS x = some e.2.2 := by
  have h1 : (p.erase.map seenR).Runs t (abs c, outS x) := Prog.runs_map.2 ⟨_, hp.symm ▸ hr, rfl⟩
  rw [hd] at h1
  obtain ⟨e, h2, h3⟩ := Prog.runs_map.1 h1
  exact ⟨e, h2, congrArg Prod.fst h3, congrArg Prod.snd h3⟩

theorem drives_from {p : Prog σ (Res σ × Cpu Q)} {b : Cycles σ.O σ.R} (hd : DrivesP p b)
    (hp : p.erase = p) {t : List (Ev σ)} {e : Res' σ.O σ.R} (hr : b.calls.Runs t e) {x : Res σ}
    (hx : outS x = some e.2.2) : ∃ c, p.Runs t (x, c) ∧ abs c = e.1 := by
  have h7 : (b.calls.map wanted).Runs t (wanted e) := Prog.runs_map.2 ⟨_, hr, rfl⟩
  rw [← hd, hp] at h7
  obtain ⟨⟨y, c⟩, h8, h9⟩ := Prog.runs_map.1 h7
  have h12 : abs c = e.1 := congrArg Prod.fst h9.symm
  have h13 : outS y = some e.2.2 := congrArg Prod.snd h9.symm
  have : x = y := outS_inj (by rw [hx, h13]) (by rw [hx]; nofun)
  subst this
  exact ⟨c, h8, h12⟩

theorem sending_wait {p : U16} {w : Option U16} (v : U8) :
    (waitCalls (σ := σ) p w).map (Ev.sending v) = waitCalls p w := by
  cases w <;> rfl

theorem runs_m1 {a ir : U16} {k : U8 → Tree σ.O σ.R α} (ts : σ.Ts) (v : U8) {u : List (Ev σ)} {e : α}
    (h : (k v).calls.Runs u e) :
    (Tree.m1 a ir k).calls.Runs (⟨.addM1 a, ts⟩ :: ⟨.readOpcode a ir ts, v⟩ :: u) e :=
  .call (.addM1 a) _ ts _ _ (.call (.readOpcode a ir ts) _ v _ _ h)

theorem runs_out {p : U16} {v : U8} {k : Option σ.O → Tree σ.O σ.R α} (ts : σ.Ts)
    (x : Option σ.O × Option U16) {u : List (Ev σ)} {e : α} (h : (k x.1).calls.Runs u e) :
    (Tree.out p v k).calls.Runs (⟨.addIo p, ts⟩ :: ⟨.writeIo p v ts, x⟩ :: (waitCalls p x.2 ++ u)) e :=
  .call (.addIo p) _ ts _ _ (.call (.writeIo p v ts) _ x _ _ (waiting_runs h))

theorem runs_idle {a : U16} {n : Nat} {k : Tree σ.O σ.R α} {u : List (Ev σ)} {e : α}
    (h : k.calls.Runs u e) :
    (Tree.idle a n k).calls.Runs (⟨.addNoMreq a (BitVec.ofNat 8 n), ()⟩ :: u) e :=
  .call (.addNoMreq a (BitVec.ofNat 8 n)) _ () _ _ h

/-- The second opcode byte and what follows. -/
def edTree (o : Opt) (r : Regs) : Cycles O R :=
  .m1 r.pc r.ir fun c => endCycles (fEd (decodeEd c)) (edCycles o (decodeEd c) (r.skip 1))

theorem edTree_eq (o : Opt) (r : Regs) : opCycles (O := O) (R := R) o 0xED#8 r =
    edTree o { r with ei := false, halted := false }.bumpR := rfl

theorem edTree_second {o : Opt} {r : Regs} {t : List (Ev σ)} {e : Res' σ.O σ.R}
    (hr : (edTree o r).calls.Runs t e) {v : U8} (hop : opcodesOf t = [v]) :
    ∃ ts u, t = ⟨.addM1 r.pc, ts⟩ :: ⟨.readOpcode r.pc r.ir ts, v⟩ :: u ∧
      (endCycles (fEd (decodeEd v)) (edCycles o (decodeEd v) (r.skip 1))).calls.Runs u e := by
  obtain ⟨ts, u, rfl, g1⟩ := Prog.runs_call hr
  obtain ⟨v', u, rfl, g2⟩ := Prog.runs_call g1
  have hv : v' :: opcodesOf u = [v] := hop
  injection hv with hv
  subst hv
  exact ⟨ts, u, rfl, g2⟩

/-- `OUT (C),0`. -/
theorem varOutC0 (o o' : Opt) {r r' : Regs} (h : r.noQ = r'.noQ) {t : List (Ev σ)}
    {e : Res' σ.O σ.R} (hr : (opCycles o 0xED#8 r).calls.Runs t e) (hop : opcodesOf t = [0x71#8]) :
    ∃ e', (opCycles o' 0xED#8 r').calls.Runs (t.map (Ev.sending o'.outC0)) e' ∧
      e.1.noQ = e'.1.noQ ∧ e.2 = e'.2 := by
  rw [edTree_eq] at hr ⊢
  have hn : { r with ei := false, halted := false }.bumpR.noQ =
    { r' with ei := false, halted := false }.bumpR.noQ := by rw [noQ_eq h]; rfl
  generalize { r with ei := false, halted := false }.bumpR = s at *
  generalize { r' with ei := false, halted := false }.bumpR = s' at *
  rw [noQ_eq hn]
  generalize s'.q = q
  obtain ⟨ts, u, rfl, g2⟩ := edTree_second hr hop
  obtain ⟨ts', u, rfl, g3⟩ := Prog.runs_call g2
  obtain ⟨y, u, rfl, g4⟩ := Prog.runs_call g3
  obtain ⟨u, rfl, g5⟩ := runs_waiting g4
  obtain ⟨rfl, rfl⟩ := Prog.runs_ret g5
  rw [List.append_nil]
  refine ⟨({ s.skip 1 with wz := s.bc + 1, idx := .hl, q := q.map fun _ => false }, false, outOf y.1),
    ?_, rfl, rfl⟩
  refine runs_m1 (σ := σ) ts 0x71#8 ?_
  have := runs_out (σ := σ) (α := Res' σ.O σ.R) (p := s.bc) (v := o'.outC0)
    (k := fun x => Tree.done ({ s.skip 1 with wz := s.bc + 1, idx := .hl, q := q.map fun _ => false }, false, outOf x))
    ts' y (Prog.Runs.ret _)
  rw [List.append_nil, ← sending_wait (p := s.bc) (w := y.2) o'.outC0] at this
  exact this

theorem pv_ldAIr (v : U8) (b c : Bool) : (ldAIrFl v b c).pv = b := rfl

theorem varLdAIR1 (o o' : Opt) (ho : o.early = true) (ho' : o'.early = false) (v : U8) (r : Regs)
    (q : Option Bool) {t : List (Ev σ)} {e : Res' σ.O σ.R}
    (hr : (endCycles (fEd .ldAI) (ldAIrCycles o v r)).calls.Runs t e) :
    ∃ u e', (endCycles (fEd .ldAI) (ldAIrCycles o' v { r with q := q })).calls.Runs u e' ∧ e.2 = e'.2 ∧
      ((t = u ∧ e.1.noQ = e'.1.noQ) ∨
        ∃ ts b, t = u ++ [⟨.asTimestamp, ts⟩, ⟨.isIrq ts, b⟩] ∧ e.1.noPv = e'.1.noPv ∧
          e'.1.f.pv = true ∧ e.1.f.pv = !b) := by
  unfold ldAIrCycles at hr ⊢
  rw [ho, Bool.true_and] at hr
  rw [ho', Bool.false_and, Bool.false_and]
  obtain ⟨_, u, rfl, g3⟩ := Prog.runs_call hr
  refine ⟨[⟨.addNoMreq r.ir 1, ()⟩], _, runs_idle (Prog.Runs.ret _), ?_⟩
  by_cases h : (r.iff1 && r.iff2) = true
  · rw [if_pos h] at g3
    obtain ⟨ts, u, rfl, g4⟩ := Prog.runs_call g3
    obtain ⟨b, u, rfl, g5⟩ := Prog.runs_call g4
    obtain ⟨rfl, rfl⟩ := Prog.runs_ret g5
    have h2 : r.iff2 = true := by
      cases h3 : r.iff2 with
      | true => rfl
      | false => rw [h3, Bool.and_false] at h; cases h
    exact ⟨rfl, .inr ⟨ts, b, rfl, rfl, h2, rfl⟩⟩
  · rw [if_neg h] at g3
    obtain ⟨rfl, rfl⟩ := Prog.runs_ret g3
    exact ⟨rfl, .inl ⟨rfl, rfl⟩⟩

/-- `LD A,I` and `LD A,R`: a variant that resets the interrupt enable flag early asks for an
interrupt at the end of the instruction. -/
theorem varLdAIR (o o' : Opt) (ho : o.early = true) (ho' : o'.early = false) {r r' : Regs}
    (h : r.noQ = r'.noQ) {t : List (Ev σ)} {e : Res' σ.O σ.R}
    (hr : (opCycles o 0xED#8 r).calls.Runs t e) {v : U8} (hv : v = 0x57#8 ∨ v = 0x5F#8)
    (hop : opcodesOf t = [v]) :
    ∃ u e', (opCycles o' 0xED#8 r').calls.Runs u e' ∧ e.2 = e'.2 ∧
      ((t = u ∧ e.1.noQ = e'.1.noQ) ∨
        ∃ ts b, t = u ++ [⟨.asTimestamp, ts⟩, ⟨.isIrq ts, b⟩] ∧ e.1.noPv = e'.1.noPv ∧
          e'.1.f.pv = true ∧ e.1.f.pv = !b) := by
  rw [edTree_eq] at hr ⊢
  have hn : { r with ei := false, halted := false }.bumpR.noQ =
    { r' with ei := false, halted := false }.bumpR.noQ := by rw [noQ_eq h]; rfl
  generalize { r with ei := false, halted := false }.bumpR = s at *
  generalize { r' with ei := false, halted := false }.bumpR = s' at *
  rw [noQ_eq hn]
  generalize s'.q = q
  obtain ⟨ts, u, rfl, g2⟩ := edTree_second hr hop
  have key : ∃ u' e', (endCycles (fEd (decodeEd v)) (edCycles o' (decodeEd v)
      ({ s with q := q }.skip 1))).calls.Runs u' e' ∧ e.2 = e'.2 ∧
      ((u = u' ∧ e.1.noQ = e'.1.noQ) ∨
        ∃ ts b, u = u' ++ [⟨.asTimestamp, ts⟩, ⟨.isIrq ts, b⟩] ∧ e.1.noPv = e'.1.noPv ∧
          e'.1.f.pv = true ∧ e.1.f.pv = !b) := by
    rcases hv with rfl | rfl
    · exact varLdAIR1 o o' ho ho' _ _ q g2
    · exact varLdAIR1 o o' ho ho' _ _ q g2
  obtain ⟨u', e', h1, h2, h3⟩ := key
  refine ⟨_ :: _ :: u', e', runs_m1 (σ := σ) ts v h1, h2, ?_⟩
  rcases h3 with ⟨h3, h4⟩ | ⟨ts', b, h3, h4⟩
  · exact .inl ⟨by rw [h3]; rfl, h4⟩
  · exact .inr ⟨ts', b, by rw [h3]; rfl, h4⟩

/-- An opcode byte other than `v` was fetched. -/
def notFirst (vs : List U8) (l : List U8) : Prop :=
  match l with
  | v :: _ => v ∉ vs
  | [] => False

theorem notFirst_append {vs l l' : List U8} (h : notFirst vs l) : notFirst vs (l ++ l') := by
  cases l with
  | nil => exact absurd h id
  | cons a l => exact h

/-- `LD A,I` and `LD A,R` on variants that agree about the interrupt enable flag, and `OUT (C),0` on
variants that agree about the byte. -/
theorem varEd' (o o' : Opt) {r r' : Regs} (h : r.noQ = r'.noQ) (vs : List U8)
    (hvs : ∀ v ∈ vs, ∀ s q, (edCycles (O := O) (R := R) o (decodeEd v) s).map hideQ =
      (edCycles o' (decodeEd v) { s with q := q }).map hideQ) :
    (opCycles (O := O) (R := R) o 0xED#8 r).Agree (fun e e' => e.1.noQ = e'.1.noQ ∧ e.2 = e'.2)
      (fun l => notFirst vs (opcodes l)) (opCycles o' 0xED#8 r') := by
  rw [edTree_eq, edTree_eq]
  have hn : { r with ei := false, halted := false }.bumpR.noQ =
    { r' with ei := false, halted := false }.bumpR.noQ := by rw [noQ_eq h]; rfl
  generalize { r with ei := false, halted := false }.bumpR = s at *
  generalize { r' with ei := false, halted := false }.bumpR = s' at *
  rw [noQ_eq hn, ← hideQ_eq]
  generalize s'.q = q
  refine .inr ⟨_, rfl, fun c => ?_⟩
  by_cases hc : c ∈ vs
  · exact agree_of_map _ (map_endCycles (hvs c hc (s.skip 1) q))
  · exact agree_bad hc

theorem hvsLdAIR (o o' : Opt) (ho : o.early = o'.early) : ∀ v ∈ [0x57#8, 0x5F#8], ∀ s q,
    (edCycles (O := O) (R := R) o (decodeEd v) s).map hideQ =
      (edCycles o' (decodeEd v) { s with q := q }).map hideQ := by
  have key : ∀ (v : U8) (s : Regs) q, (ldAIrCycles (O := O) (R := R) o v s).map hideQ =
      (ldAIrCycles o' v { s with q := q }).map hideQ := by
    intro v s q
    unfold ldAIrCycles
    rw [ho]
    refine congrArg (Tree.idle s.ir 1) ?_
    show Tree.map hideQ (if (o'.early && s.iff1 && s.iff2) = true then _ else _) =
      Tree.map hideQ (if (o'.early && s.iff1 && s.iff2) = true then _ else _)
    split <;> rfl
  intro v hv s q
  rcases List.mem_cons.1 hv with rfl | hv
  · exact key _ s q
  · rcases List.mem_cons.1 hv with rfl | hv
    · exact key _ s q
    · cases hv

theorem hvsOutC0 (o o' : Opt) (ho : o.outC0 = o'.outC0) : ∀ v ∈ [0x71#8], ∀ s q,
    (edCycles (O := O) (R := R) o (decodeEd v) s).map hideQ =
      (edCycles o' (decodeEd v) { s with q := q }).map hideQ := by
  intro v hv s q
  rcases List.mem_cons.1 hv with rfl | hv
  · cases o; cases o'; cases ho; rfl
  · cases hv

end Z80
