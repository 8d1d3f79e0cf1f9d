import Verif.Spec.Path
import Verif.Proofs.Quiet

/-! # Paths of trees of cycles and runs of their calls -/

namespace Z80
open Spec
variable {O R α β : Type} {σ : Sig}

/-- A program run with a debugger is run without one when the debugger is left out. -/
theorem Prog.runs_erase {p : Prog σ α} {t : List (Ev σ)} {a : α} (h : p.Runs t a) :
    p.erase.Runs (t.filter fun e => !e.req.isDebug) a := by
  induction h with
  | ret a => exact .ret a
  | call r k x t a _ ih =>
    cases hr : r.isDebug with
    | true =>
      rw [List.filter_cons_of_neg (by simp [hr])]
      cases r <;> first | exact absurd hr Bool.false_ne_true | exact ih
    | false =>
      rw [List.filter_cons_of_pos (by simp [hr]), Prog.erase_call hr]
      exact .call _ _ _ _ _ ih

theorem runs_waiting {p : U16} {w : Option U16} {k : Prog σ α} {t : List (Ev σ)} {a : α}
    (h : (waiting p w k).Runs t a) : ∃ u, t = waitCalls p w ++ u ∧ k.Runs u a := by
  cases w with
  | none => exact ⟨t, rfl, h⟩
  | some n =>
    obtain ⟨x, u, rfl, g1⟩ := Prog.runs_call h
    exact ⟨u, rfl, g1⟩

/-- Every run of the calls of a tree performs the cycles of a path. -/
theorem runs_path {b : Tree σ.O σ.R α} {t : List (Ev σ)} {e : α} (h : b.calls.Runs t e) :
    ∃ l, b.Path l e ∧ Performs l t := by
  induction b generalizing t with
  | done a =>
    obtain ⟨rfl, rfl⟩ := Prog.runs_ret h
    exact ⟨[], .done _, .nil⟩
  | m1 a ir k ih =>
    obtain ⟨ts, u, rfl, g1⟩ := Prog.runs_call h
    obtain ⟨v, u, rfl, g2⟩ := Prog.runs_call g1
    obtain ⟨l, h1, h2⟩ := ih v g2
    exact ⟨_, .m1 h1, .cons (.m1 ts) h2⟩
  | idleM1 a k ih =>
    obtain ⟨ts, u, rfl, g1⟩ := Prog.runs_call h
    obtain ⟨l, h1, h2⟩ := ih g1
    exact ⟨_, .idleM1 h1, .cons (.idleM1 ts) h2⟩
  | rd a k ih =>
    obtain ⟨ts, u, rfl, g1⟩ := Prog.runs_call h
    obtain ⟨v, u, rfl, g2⟩ := Prog.runs_call g1
    obtain ⟨l, h1, h2⟩ := ih v g2
    exact ⟨_, .rd h1, .cons (.rd ts) h2⟩
  | rd16 a k ih =>
    obtain ⟨ts, u, rfl, g1⟩ := Prog.runs_call h
    obtain ⟨v, u, rfl, g2⟩ := Prog.runs_call g1
    obtain ⟨ts', u, rfl, g3⟩ := Prog.runs_call g2
    obtain ⟨l, h1, h2⟩ := ih v g3
    exact ⟨_, .rd16 h1, .cons (.rd16 ts ts') h2⟩
  | skip a k ih =>
    obtain ⟨ts, u, rfl, g1⟩ := Prog.runs_call h
    obtain ⟨v, u, rfl, g2⟩ := Prog.runs_call g1
    obtain ⟨l, h1, h2⟩ := ih g2
    exact ⟨_, .skip h1, .cons (.skip ts v) h2⟩
  | wr a v k ih =>
    obtain ⟨ts, u, rfl, g1⟩ := Prog.runs_call h
    obtain ⟨_, u, rfl, g2⟩ := Prog.runs_call g1
    obtain ⟨l, h1, h2⟩ := ih g2
    exact ⟨_, .wr h1, .cons (.wr ts) h2⟩
  | idle a n k ih =>
    obtain ⟨_, u, rfl, g1⟩ := Prog.runs_call h
    obtain ⟨l, h1, h2⟩ := ih g1
    exact ⟨_, .idle h1, .cons .idle h2⟩
  | inp p k ih =>
    obtain ⟨ts, u, rfl, g1⟩ := Prog.runs_call h
    obtain ⟨v, u, rfl, g2⟩ := Prog.runs_call g1
    obtain ⟨u, rfl, g3⟩ := runs_waiting g2
    obtain ⟨l, h1, h2⟩ := ih v.1 g3
    exact ⟨_, .inp h1, .cons (.inp ts) h2⟩
  | out p v k ih =>
    obtain ⟨ts, u, rfl, g1⟩ := Prog.runs_call h
    obtain ⟨x, u, rfl, g2⟩ := Prog.runs_call g1
    obtain ⟨u, rfl, g3⟩ := runs_waiting g2
    obtain ⟨l, h1, h2⟩ := ih x.1 g3
    exact ⟨_, .out h1, .cons (.out ts x.1) h2⟩
  | reti pc k ih =>
    obtain ⟨ts, u, rfl, g1⟩ := Prog.runs_call h
    obtain ⟨x, u, rfl, g2⟩ := Prog.runs_call g1
    obtain ⟨l, h1, h2⟩ := ih x g2
    exact ⟨_, .reti h1, .cons (.reti ts x) h2⟩
  | irq k ih =>
    obtain ⟨ts, u, rfl, g1⟩ := Prog.runs_call h
    obtain ⟨x, u, rfl, g2⟩ := Prog.runs_call g1
    obtain ⟨l, h1, h2⟩ := ih x g2
    exact ⟨_, .irq h1, .cons (.irq ts) h2⟩
  | ack pc k ih =>
    obtain ⟨ts, u, rfl, g1⟩ := Prog.runs_call h
    obtain ⟨v, u, rfl, g2⟩ := Prog.runs_call g1
    obtain ⟨u, rfl, g3⟩ := runs_waiting g2
    obtain ⟨l, h1, h2⟩ := ih v.1 g3
    exact ⟨_, .ack h1, .cons (.ack ts) h2⟩

/-! ### Sums -/

theorem clocked_append (t u : List (Ev σ)) : clocked (t ++ u) = clocked t + clocked u := by
  simp [clocked]
theorem waited_append (t u : List (Ev σ)) : Spec.waited (t ++ u) = Spec.waited t + Spec.waited u := by
  simp [Spec.waited]
theorem asked_append (t u : List (Ev σ)) : asked (t ++ u) = asked t + asked u := by
  simp [asked]

theorem clocked_filter (t : List (Ev σ)) :
    clocked (t.filter fun e => !e.req.isDebug) = clocked t := by
  induction t with
  | nil => rfl
  | cons e t ih =>
    obtain ⟨r, x⟩ := e
    cases r <;> first
      | exact congrArg (_ + ·) ih
      | exact ih.trans (Nat.zero_add _).symm
theorem waited_filter (t : List (Ev σ)) :
    Spec.waited (t.filter fun e => !e.req.isDebug) = Spec.waited t := by
  induction t with
  | nil => rfl
  | cons e t ih =>
    obtain ⟨r, x⟩ := e
    cases r <;> first
      | exact congrArg (_ + ·) ih
      | exact ih.trans (Nat.zero_add _).symm
theorem asked_filter (t : List (Ev σ)) :
    asked (t.filter fun e => !e.req.isDebug) = asked t := by
  induction t with
  | nil => rfl
  | cons e t ih =>
    obtain ⟨r, x⟩ := e
    cases r <;> first
      | exact congrArg (_ + ·) ih
      | exact ih.trans (Nat.zero_add _).symm

theorem performs_clocked {l : List Cyc} {t : List (Ev σ)} (h : Performs l t) :
    clocked t = base l := by
  induction h with
  | nil => rfl
  | cons hc _ ih =>
    rw [clocked_append, ih]
    refine congrArg (· + _) ?_
    cases hc <;> first | rfl | (rename_i w _; cases w <;> rfl) | (rename_i w _ _; cases w <;> rfl)

theorem performs_waited {l : List Cyc} {t : List (Ev σ)} (h : Performs l t) :
    Spec.waited t = asked t := by
  induction h with
  | nil => rfl
  | cons hc _ ih =>
    rw [waited_append, asked_append, ih]
    refine congrArg (· + _) ?_
    cases hc with
    | @inp p v w ts => cases w <;> simp [Spec.waited, asked, Ev.waited, Ev.asked, waitCalls, waits]
    | @out p v w ts x => cases w <;> simp [Spec.waited, asked, Ev.waited, Ev.asked, waitCalls, waits]
    | @ack p v w ts => cases w <;> simp [Spec.waited, asked, Ev.waited, Ev.asked, waitCalls, waits]
    | _ => rfl

/-! ### Conditions on all paths -/

/-- `P` holds of every path. -/
def Spec.Tree.Ends : Tree O R α → (List Cyc → α → Prop) → Prop
  | .done a, P => P [] a
  | .m1 a ir k, P => ∀ v, (k v).Ends fun l e => P (.m1 a ir v :: l) e
  | .idleM1 a k, P => k.Ends fun l e => P (.idleM1 a :: l) e
  | .rd a k, P => ∀ v, (k v).Ends fun l e => P (.rd a v :: l) e
  | .rd16 a k, P => ∀ v, (k v).Ends fun l e => P (.rd16 a v :: l) e
  | .skip a k, P => k.Ends fun l e => P (.skip a :: l) e
  | .wr a v k, P => k.Ends fun l e => P (.wr a v :: l) e
  | .idle a n k, P => k.Ends fun l e => P (.idle a (BitVec.ofNat 8 n) :: l) e
  | .inp p k, P => ∀ v w, (k v).Ends fun l e => P (.inp p v w :: l) e
  | .out p v k, P => ∀ x w, (k x).Ends fun l e => P (.out p v w :: l) e
  | .reti pc k, P => ∀ x, (k x).Ends fun l e => P (.reti pc :: l) e
  | .irq k, P => ∀ b, (k b).Ends fun l e => P (.irq b :: l) e
  | .ack pc k, P => ∀ v w, (k v).Ends fun l e => P (.ack pc v w :: l) e

theorem ends_path {b : Tree O R α} {P : List Cyc → α → Prop} {l e} (h : b.Ends P)
    (hp : b.Path l e) : P l e := by
  induction hp generalizing P with
  | done a => exact h
  | idleM1 _ ih | skip _ ih | wr _ ih | idle _ ih => exact ih h
  | m1 _ ih | rd _ ih | rd16 _ ih => exact ih (h _)
  | inp _ ih | out _ ih | ack _ ih => exact ih (h _ _)
  | reti _ ih | irq _ ih => exact ih (h _)

theorem ends_iff {b : Tree O R α} {P : List Cyc → α → Prop} :
    b.Ends P ↔ ∀ l e, b.Path l e → P l e := by
  refine ⟨fun h l e hp => ends_path h hp, fun h => ?_⟩
  induction b generalizing P with
  | done a => exact h _ _ (.done a)
  | m1 a ir k ih => exact fun v => ih v fun l e hp => h _ _ (.m1 hp)
  | idleM1 a k ih => exact ih fun l e hp => h _ _ (.idleM1 hp)
  | rd a k ih => exact fun v => ih v fun l e hp => h _ _ (.rd hp)
  | rd16 a k ih => exact fun v => ih v fun l e hp => h _ _ (.rd16 hp)
  | skip a k ih => exact ih fun l e hp => h _ _ (.skip hp)
  | wr a v k ih => exact ih fun l e hp => h _ _ (.wr hp)
  | idle a n k ih => exact ih fun l e hp => h _ _ (.idle hp)
  | inp p k ih => exact fun v w => ih v fun l e hp => h _ _ (.inp hp)
  | out p v k ih => exact fun x w => ih x fun l e hp => h _ _ (.out hp)
  | reti pc k ih => exact fun x => ih x fun l e hp => h _ _ (.reti hp)
  | irq k ih => exact fun x => ih x fun l e hp => h _ _ (.irq hp)
  | ack pc k ih => exact fun v w => ih v fun l e hp => h _ _ (.ack hp)

theorem ends_bind {b : Tree O R α} {f : α → Tree O R β} {P : List Cyc → β → Prop} :
    (b.bind f).Ends P ↔ b.Ends fun l a => (f a).Ends fun l' e => P (l ++ l') e := by
  induction b generalizing P with
  | done a => exact Iff.rfl
  | idleM1 _ _ ih | skip _ _ ih | wr _ _ _ ih | idle _ _ _ ih => exact ih
  | m1 _ _ _ ih | rd _ _ ih | rd16 _ _ ih | reti _ _ ih | irq _ ih => exact forall_congr' fun v => ih v
  | inp _ _ ih | out _ _ _ ih | ack _ _ ih => exact forall_congr' fun v => forall_congr' fun _ => ih v

theorem ends_mono {b : Tree O R α} {P P' : List Cyc → α → Prop} (h : b.Ends P)
    (hm : ∀ l e, P l e → P' l e) : b.Ends P' :=
  ends_iff.2 fun l e hp => hm l e (ends_path h hp)

end Z80
