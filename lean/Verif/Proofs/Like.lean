import Verif.Props.Executed
import Verif.Spec.Transparent

/-!
# Two CPUs that differ only in R, MEMPTR, the interrupt flip-flops and the flag history

Their bus cycles are the same, instructions that look at those registers apart.
-/

set_option linter.constructorNameAsVariable false

namespace Z80
open Spec

/-- Equal apart from R, MEMPTR, the interrupt flip-flops and the flag history. -/
def Spec.Regs.Like (r s : Regs) : Prop :=
  s = { r with r := s.r, wz := s.wz, iff1 := s.iff1, iff2 := s.iff2, q := s.q }

variable {O R : Type}

/-- Trees with the same cycles, but for the addresses in cycles without a request, and with ends that are
alike; for paths whose opcodes are in `P`. -/
inductive Like : (List U8 → Prop) → Cycles O R → Cycles O R → Prop
  | off {P b b'} : (∀ l, ¬P l) → Like P b b'
  | done {P r s x} : r.Like s → Like P (.done (r, x)) (.done (s, x))
  | m1 {P a i j k k'} : (∀ v, Like (fun l => P (v :: l)) (k v) (k' v)) → Like P (.m1 a i k) (.m1 a j k')
  | idleM1 {P a k k'} : Like P k k' → Like P (.idleM1 a k) (.idleM1 a k')
  | rd {P a k k'} : (∀ v, Like P (k v) (k' v)) → Like P (.rd a k) (.rd a k')
  | rd16 {P a k k'} : (∀ v, Like P (k v) (k' v)) → Like P (.rd16 a k) (.rd16 a k')
  | skip {P a k k'} : Like P k k' → Like P (.skip a k) (.skip a k')
  | wr {P a v k k'} : Like P k k' → Like P (.wr a v k) (.wr a v k')
  | idle {P a a' n k k'} : Like P k k' → Like P (.idle a n k) (.idle a' n k')
  | inp {P p k k'} : (∀ v, Like P (k v) (k' v)) → Like P (.inp p k) (.inp p k')
  | out {P p v k k'} : (∀ x, Like P (k x) (k' x)) → Like P (.out p v k) (.out p v k')
  | reti {P pc k k'} : (∀ x, Like P (k x) (k' x)) → Like P (.reti pc k) (.reti pc k')

variable {P : List U8 → Prop}

theorem like_fin {r s : Regs} (h : r.Like s) : Like P (fin (O := O) (R := R) r) (fin s) := .done h

theorem like_end {b b' : Cycles O R} (h : Like P b b') (f : Bool) : Like P (endCycles f b) (endCycles f b') := by
  induction h with
  | off h => exact .off h
  | @done P r s x h =>
    refine .done ?_
    unfold Spec.Regs.Like at h ⊢
    rw [h]
  | m1 _ ih => exact .m1 ih
  | idleM1 _ ih => exact .idleM1 ih
  | rd _ ih => exact .rd ih
  | rd16 _ ih => exact .rd16 ih
  | skip _ ih => exact .skip ih
  | wr _ ih => exact .wr ih
  | idle _ ih => exact .idle ih
  | inp _ ih => exact .inp ih
  | out _ ih => exact .out ih
  | reti _ ih => exact .reti ih

variable (r : Regs) (R' : U8) (W : U16) (A B : Bool) (H : Option Bool)

/-- The same with other values in the hidden registers. -/
abbrev hid (r : Regs) (R' : U8) (W : U16) (A B : Bool) (H : Option Bool) : Regs :=
  { r with r := R', wz := W, iff1 := A, iff2 := B, q := H }

theorem like_iff {r s : Regs} : r.Like s ↔ s = hid r s.r s.wz s.iff1 s.iff2 s.q := Iff.rfl

theorem like_hid : r.Like (hid r R' W A B H) := rfl

/-- Go down two trees at once. -/
macro "likes" : tactic => `(tactic| repeat' (first
  | exact Like.done rfl
  | refine Like.rd fun _ => ?_
  | refine Like.rd16 fun _ => ?_
  | refine Like.skip ?_
  | refine Like.wr ?_
  | refine Like.idle ?_
  | refine Like.inp fun _ => ?_
  | refine Like.out fun _ => ?_
  | refine Like.reti fun _ => ?_))

omit r R' W A B H in
theorem like_repeat {r s : Regs} {again : Bool} {a a' : U16} {o : Out O R} (h : r.Like s) :
    Like P (repeatCycles again a r o) (repeatCycles again a' s o) := by
  have h' : ({ r with pc := r.pc - 2 } : Regs).Like { s with pc := s.pc - 2 } := by
    unfold Spec.Regs.Like at h ⊢
    rw [h]
  cases again
  · exact .done h
  · exact .idle (.done h')

theorem like_cb (k : ICb) (h : ∀ n, k ≠ .bit n .m) :
    Like P (cbCycles (O := O) (R := R) k r) (cbCycles k (hid r R' W A B H)) := by
  cases k with
  | rot k g => cases g <;> likes
  | bit n g =>
    cases g
    case m => exact absurd rfl (h n)
    all_goals likes
  | res n g => cases g <;> likes
  | set n g => cases g <;> likes

theorem like_xcb (k : ICb) (a : U16) :
    Like P (xcbCycles (O := O) (R := R) k a r) (xcbCycles k a (hid r R' W A B H)) := by
  cases k with
  | rot k g => cases g <;> likes
  | bit n g => likes
  | res n g => cases g <;> likes
  | set n g => cases g <;> likes

theorem like_blk (k : Blk) (dec rep : Bool) :
    Like P (blkCycles (O := O) (R := R) k dec rep r) (blkCycles k dec rep (hid r R' W A B H)) := by
  cases k
  · exact .rd fun v => .wr (.idle (like_repeat rfl))
  · exact .rd fun v => .idle (like_repeat rfl)
  · exact .idle (.inp fun v => .wr (like_repeat rfl))
  · exact .idle (.rd fun v => .out fun o => like_repeat rfl)

theorem like_ed (o : Opt) (k : IEd) (h : k ≠ .ldAI) (h' : k ≠ .ldAR) :
    Like P (edCycles (O := O) (R := R) o k r) (edCycles o k (hid r R' W A B H)) := by
  cases k with
  | ldAI => exact absurd rfl h
  | ldAR => exact absurd rfl h'
  | blk k dec rep => exact like_blk _ _ _ _ _ _ _ _ _
  | inC g => cases g <;> likes
  | outC g => cases g <;> likes
  | sbcHl p => cases p <;> likes
  | adcHl p => cases p <;> likes
  | ldNnRp p => cases p <;> likes
  | ldRpNn p => cases p <;> likes
  | _ => likes

theorem like_0 (o : Opt) (x : Ix) (k : I0) (h1 : k ≠ .scf) (h2 : k ≠ .ccf) :
    Like P (cycles0 (O := O) (R := R) o x k r) (cycles0 o x k (hid r R' W A B H)) := by
  cases k with
  | scf => exact absurd rfl h1
  | ccf => exact absurd rfl h2
  | djnz =>
    refine .idle ?_
    show Like P (if r.b - 1 ≠ 0 then _ else _) (if r.b - 1 ≠ 0 then _ else _)
    split <;> likes
  | jrCc c =>
    show Like P (if r.holds c then _ else _) (if (hid r R' W A B H).holds c then _ else _)
    rw [show (hid r R' W A B H).holds c = r.holds c by cases c <;> rfl]
    split <;> likes
  | retCc c =>
    refine .idle ?_
    rw [show (hid r R' W A B H).holds c = r.holds c by cases c <;> rfl]
    split <;> likes
  | jpCc c =>
    refine .rd16 fun _ => ?_
    rw [show (hid r R' W A B H).holds c = r.holds c by cases c <;> rfl]
    split <;> likes
  | callCc c =>
    refine .rd16 fun _ => ?_
    rw [show (hid r R' W A B H).holds c = r.holds c by cases c <;> rfl]
    split <;> likes
  | ldRpNn p => cases p <;> cases x <;> likes
  | addHl p => cases p <;> cases x <;> likes
  | ldRpA p => cases p <;> likes
  | ldARp p => cases p <;> likes
  | incRp p => cases p <;> cases x <;> likes
  | decRp p => cases p <;> cases x <;> likes
  | pop p => cases p <;> cases x <;> likes
  | push p => cases p <;> cases x <;> likes
  | incR g => cases g <;> cases x <;> likes
  | decR g => cases g <;> cases x <;> likes
  | ldRN g => cases g <;> cases x <;> likes
  | aluR k g => cases g <;> cases x <;> likes
  | ldRR d g => cases d <;> cases g <;> cases x <;> likes
  | ldNnHl => cases x <;> likes
  | ldHlNn => cases x <;> likes
  | jpHl => cases x <;> likes
  | ldSpHl => cases x <;> likes
  | exSpHl => cases x <;> likes
  | _ => likes

omit r R' W A B H in
theorem like_codes : ∀ c : U8, (decode c = .ed ↔ c = 0xED#8) ∧ (decode c = .cb ↔ c = 0xCB#8) ∧
    (decode c = .scf ↔ c = 0x37#8) ∧ (decode c = .ccf ↔ c = 0x3F#8) ∧
    (decodeEd c = .ldAI → c = 0x57#8) ∧ (decodeEd c = .ldAR → c = 0x5F#8) := by
  intro c
  have h := all8_spec (p := fun c => decide ((decode c = .ed ↔ c = 0xED#8) ∧ (decode c = .cb ↔ c = 0xCB#8) ∧
    (decode c = .scf ↔ c = 0x37#8) ∧ (decode c = .ccf ↔ c = 0x3F#8) ∧
    (decodeEd c = .ldAI → c = 0x57#8) ∧ (decodeEd c = .ldAR → c = 0x5F#8))) (by decide +kernel) c
  exact of_decide_eq_true h

omit r R' W A B H in
theorem like_bit (c : U8) (h : c &&& 0xC7#8 ≠ 0x46#8) (n : Nat) : decodeCb c ≠ .bit n .m := by
  have h1 := all8_spec (p := fun c => c &&& 0xC7#8 = 0x46#8 || (match decodeCb c with
    | .bit _ .m => false
    | _ => true)) (by decide +kernel) c
  intro e
  rw [e] at h1
  exact h (by simpa using h1)

theorem like_op (o : Opt) (op : U8) :
    Like (O := O) (R := R) (fun l => Blind (op :: l)) (opCycles o op r) (opCycles o op (hid r R' W A B H)) := by
  have hc := like_codes op
  unfold opCycles
  dsimp only
  split
  · exact .done rfl
  · exact .done rfl
  · next hd =>
    refine .m1 fun c => ?_
    by_cases h : c = 0x57#8 ∨ c = 0x5F#8
    · refine .off fun l hl => ?_
      cases l with
      | nil =>
        have hop := hc.1.1 hd
        subst hop
        rcases hl with hl | hl
        · exact h.elim hl.2.1 hl.2.2
        · exact absurd hl.1 (by decide)
      | cons _ _ => exact hl
    · refine like_end (like_ed _ _ _ _ _ _ _ _ (fun e => h (.inl ?_)) (fun e => h (.inr ?_))) _
      · exact (like_codes c).2.2.2.2.1 e
      · exact (like_codes c).2.2.2.2.2 e
  · next hd =>
    split
    · refine .m1 fun c => ?_
      by_cases h : c &&& 0xC7#8 = 0x46#8
      · refine .off fun l hl => ?_
        cases l with
        | nil =>
          have hop := hc.2.1.1 hd
          subst hop
          rcases hl with hl | hl
          · exact absurd hl.1 (by decide)
          · exact hl.2 h
        | cons _ _ => exact hl
      · exact like_end (like_cb _ _ _ _ _ _ _ (like_bit c h)) _
    · exact .rd fun d => .rd fun c => .idle (like_end (like_xcb _ _ _ _ _ _ _ _) _)
  · by_cases h : op = 0x37#8 ∨ op = 0x3F#8
    · refine .off fun l hl => ?_
      cases l with
      | nil => exact h.elim hl.1 hl.2
      | cons c l =>
        cases l with
        | nil =>
          rcases h with rfl | rfl
          · exact hl.elim (fun h => absurd h.1 (by decide)) fun h => absurd h.1 (by decide)
          · exact hl.elim (fun h => absurd h.1 (by decide)) fun h => absurd h.1 (by decide)
        | cons _ _ => exact hl
    · refine like_end (like_0 _ _ _ _ _ _ _ _ _ (fun e => h (.inl ?_)) (fun e => h (.inr ?_))) _
      · exact hc.2.2.1.1 e
      · exact hc.2.2.2.1.1 e

/-! ### Runs -/

variable {σ : Sig} {S : Type} {h : Handler σ S} {C : Req σ → Prop} {D : S → S → Prop}

/-- From related states of the host two programs reach related states and ends that are alike. -/
def Agree (h : Handler σ S) (C : Req σ → Prop) (D : S → S → Prop) (P : List U8 → Prop)
    (x y : Prog σ (Res' σ.O σ.R)) : Prop :=
  ∀ s s', D s s' → (∀ e ∈ x.trace h s, C e.req) → P (opcodesOf (x.trace h s)) →
    (x.run h s).1.1.Like (y.run h s').1.1 ∧ (x.run h s).1.2 = (y.run h s').1.2 ∧ D (x.run h s).2 (y.run h s').2

omit r R' W A B H in
/-- Wait states do not matter. -/
theorem agree_waiting (hi : Ignores h C D) {p : U16} {x y : Prog σ (Res' σ.O σ.R)} (hg : Agree h C D P x y)
    (w w' : Option U16) : Agree h C D P (waiting p w x) (waiting p w' y) := by
  intro s s' hd hA hP
  cases w with
  | none =>
    cases w' with
    | none => exact hg s s' hd hA hP
    | some n => exact hg s _ (hi.equiv.trans hd (hi.passing (.addWait p n) s' rfl)) hA hP
  | some m =>
    have h1 := hi.equiv.trans (hi.equiv.symm (hi.passing (.addWait p m) s rfl)) hd
    cases w' with
    | none => exact hg _ s' h1 (fun e he => hA e (.tail _ he)) hP
    | some n =>
      exact hg _ _ (hi.equiv.trans h1 (hi.passing (.addWait p n) s' rfl)) (fun e he => hA e (.tail _ he)) hP

omit r R' W A B H in
theorem like_run (hi : Ignores h C D) {b b' : Cycles σ.O σ.R} (hl : Like P b b') :
    Agree h C D P b.calls b'.calls := by
  have hp : ∀ q s s', q.passing = true → D s s' → ∀ q', q'.passing = true → D (h q s).2 (h q' s').2 :=
    fun q s s' hq hd q' hq' => hi.equiv.trans (hi.equiv.symm (hi.passing q s hq))
      (hi.equiv.trans hd (hi.passing q' s' hq'))
  induction hl with
  | off hn => exact fun _ _ _ _ hP => absurd hP (hn _)
  | done hl => exact fun _ _ hd _ _ => ⟨hl, rfl, hd⟩
  | @m1 P a i j k k' _ ih =>
    intro s s' hd hA hP
    have h1 := hp (.addM1 a) s s' rfl hd (.addM1 a) rfl
    have h2 := hi.readOpcode (i := i) (j := j) (u := (h (.addM1 a) s').1)
      (hA ⟨.readOpcode a i (h (.addM1 a) s).1, _⟩ (.tail _ (.head _))) h1
    have h3 := ih _ _ _ h2.2 (fun e he => hA e (.tail _ (.tail _ he))) hP
    rw [congrArg (fun v => (k' v).calls) h2.1] at h3
    exact h3
  | @idleM1 P a k k' _ ih =>
    intro s s' hd hA hP
    exact ih _ _ (hp (.addM1 a) s s' rfl hd (.addM1 a) rfl) (fun e he => hA e (.tail _ he)) hP
  | @rd P a k k' _ ih =>
    intro s s' hd hA hP
    have h1 := hp (.addMreq a) s s' rfl hd (.addMreq a) rfl
    have h2 := hi.readMem (u := (h (.addMreq a) s').1)
      (hA ⟨.readMem a (h (.addMreq a) s).1, _⟩ (.tail _ (.head _))) h1
    have h3 := ih _ _ _ h2.2 (fun e he => hA e (.tail _ (.tail _ he))) hP
    rw [congrArg (fun v => (k' v).calls) h2.1] at h3
    exact h3
  | @rd16 P a k k' _ ih =>
    intro s s' hd hA hP
    have h1 := hp (.addMreq a) s s' rfl hd (.addMreq a) rfl
    have h2 := hi.readMem16 (u := (h (.addMreq a) s').1)
      (hA ⟨.readMem16 a (h (.addMreq a) s).1, _⟩ (.tail _ (.head _))) h1
    have h3 := ih _ _ _ (hp (.addMreq (a + 1#16)) _ _ rfl h2.2 (.addMreq (a + 1#16)) rfl)
      (fun e he => hA e (.tail _ (.tail _ (.tail _ he)))) hP
    rw [congrArg (fun v => (k' v).calls) h2.1] at h3
    exact h3
  | @skip P a k k' _ ih =>
    intro s s' hd hA hP
    exact ih _ _ (hp (.readDebug a) _ _ rfl (hp (.addMreq a) s s' rfl hd (.addMreq a) rfl) (.readDebug a) rfl)
      (fun e he => hA e (.tail _ (.tail _ he))) hP
  | @wr P a v k k' _ ih =>
    intro s s' hd hA hP
    have h1 := hp (.addMreq a) s s' rfl hd (.addMreq a) rfl
    have h2 := hi.writeMem (u := (h (.addMreq a) s').1)
      (hA ⟨.writeMem a v (h (.addMreq a) s).1, _⟩ (.tail _ (.head _))) h1
    exact ih _ _ h2 (fun e he => hA e (.tail _ (.tail _ he))) hP
  | @idle P a a' n k k' _ ih =>
    intro s s' hd hA hP
    exact ih _ _ (hp (.addNoMreq a _) s s' rfl hd (.addNoMreq a' _) rfl) (fun e he => hA e (.tail _ he)) hP
  | @inp P p k k' _ ih =>
    intro s s' hd hA hP
    have h1 := hp (.addIo p) s s' rfl hd (.addIo p) rfl
    have h2 := hi.readIo (u := (h (.addIo p) s').1)
      (hA ⟨.readIo p (h (.addIo p) s).1, _⟩ (.tail _ (.head _))) h1
    have h3 := agree_waiting hi (ih (h (.readIo p (h (.addIo p) s).1) (h (.addIo p) s).2).1.1) (p := p)
      (h (.readIo p (h (.addIo p) s).1) (h (.addIo p) s).2).1.2
      (h (.readIo p (h (.addIo p) s').1) (h (.addIo p) s').2).1.2 _ _ h2.2
      (fun e he => hA e (.tail _ (.tail _ he))) hP
    rw [congrArg (fun v => (k' v).calls) h2.1] at h3
    exact h3
  | @out P p v k k' _ ih =>
    intro s s' hd hA hP
    have h1 := hp (.addIo p) s s' rfl hd (.addIo p) rfl
    have h2 := hi.writeIo (u := (h (.addIo p) s').1)
      (hA ⟨.writeIo p v (h (.addIo p) s).1, _⟩ (.tail _ (.head _))) h1
    have h3 := agree_waiting hi (ih (h (.writeIo p v (h (.addIo p) s).1) (h (.addIo p) s).2).1.1) (p := p)
      (h (.writeIo p v (h (.addIo p) s).1) (h (.addIo p) s).2).1.2
      (h (.writeIo p v (h (.addIo p) s').1) (h (.addIo p) s').2).1.2 _ _ h2.2
      (fun e he => hA e (.tail _ (.tail _ he))) hP
    rw [congrArg (fun v => (k' v).calls) h2.1] at h3
    exact h3
  | @reti P p k k' _ ih =>
    intro s s' hd hA hP
    have h1 := hp .asTimestamp s s' rfl hd .asTimestamp rfl
    have h2 := hi.reti (u := (h .asTimestamp s').1)
      (hA ⟨.reti p (h .asTimestamp s).1, _⟩ (.tail _ (.head _))) h1
    have h3 := ih _ _ _ h2.2 (fun e he => hA e (.tail _ (.tail _ he))) hP
    rw [congrArg (fun v => (k' v).calls) h2.1] at h3
    exact h3

/-! ### Steps -/

omit r R' W A B H in
theorem like_fetch (o : Opt) {r s : Regs} (h : r.Like s) :
    Like (O := O) (R := R) Blind (fetchCycles o r) (fetchCycles o s) := by
  rw [like_iff.1 h]
  exact .m1 fun op => like_op (r.bumpR.skip 1) (hid r s.r s.wz s.iff1 s.iff2 s.q).bumpR.r s.wz s.iff1 s.iff2 s.q o op

omit r R' W A B H in
theorem like_go (o : Opt) {r s : Regs} (h : r.Like s) : Like (O := O) (R := R) Blind
    (if r.halted then .idleM1 r.pc (fin r.bumpR) else fetchCycles o r)
    (if s.halted then .idleM1 s.pc (fin s.bumpR) else fetchCycles o s) := by
  have h1 : s.halted = r.halted := by rw [like_iff.1 h]
  have h2 : s.pc = r.pc := by rw [like_iff.1 h]
  rw [h1, h2]
  cases r.halted
  · exact like_fetch o h
  · refine .idleM1 (.done ?_)
    rw [like_iff.1 h]
    exact rfl

end Z80
