import Verif.Proofs.Nexts

/-!
# The breaks requested by the host and the exit reason of an instruction
-/

namespace Z80
open Ex

variable {σ : Sig} {Q α β γ : Type}

/-- The instruction byte delivered by a call: an opcode read from memory or the byte put on the
bus by an interrupting device. -/
def Ev.byte : Ev σ → Option U8
  | ⟨.readOpcode _ _ _, c⟩ => some c
  | ⟨.irqData _ _, v⟩ => some v.1
  | _ => none

/-- The instruction bytes delivered by the host. -/
def bytes (t : List (Ev σ)) : List U8 := t.filterMap Ev.byte

theorem bytes_append (t u : List (Ev σ)) : bytes (t ++ u) = bytes t ++ bytes u := by
  simp [bytes]

theorem bytes_instr {t : List (Ev σ)} (h : ∀ v ∈ t, v.req.isInstr = true) :
    bytes t = opcodes t := by
  induction t with
  | nil => rfl
  | cons e t ih =>
    have ih := ih fun v hv => h v (List.mem_cons_of_mem _ hv)
    have he := h e List.mem_cons_self
    have : Ev.byte e = Ev.opcode e := by
      obtain ⟨r, a⟩ := e
      cases r <;> first | rfl | exact absurd he Bool.false_ne_true
    unfold bytes opcodes at *
    rw [List.filterMap_cons, List.filterMap_cons, this, ih]

/-- The break requested by the answer to a call, if any. -/
def Ev.cause : Ev σ → Option (Res σ)
  | ⟨.writeIo _ _ _, (some o, _)⟩ => some (.writeIo o)
  | ⟨.reti _ _, some r⟩ => some (.reti r)
  | _ => none

/-- The breaks requested during a sequence of calls. -/
def causes (t : List (Ev σ)) : List (Res σ) := t.filterMap Ev.cause

theorem causes_append (t u : List (Ev σ)) : causes (t ++ u) = causes t ++ causes u := by
  simp [causes]

/-- No instruction byte is delivered after a break was requested. -/
def tidy : List (Ev σ) → Prop
  | [] => True
  | e :: t => (e.cause.isSome = true → bytes t = []) ∧ tidy t

theorem causes_cons (e : Ev σ) (t : List (Ev σ)) : causes (e :: t) = causes [e] ++ causes t :=
  causes_append [e] t

theorem tidy_append {t u : List (Ev σ)} (ht : tidy t) (hu : tidy u)
    (h : causes t ≠ [] → bytes u = []) : tidy (t ++ u) := by
  induction t with
  | nil => exact hu
  | cons e t ih =>
    refine ⟨fun he => ?_, ih ht.2 fun h' => h ?_⟩
    · show bytes (t ++ u) = []
      rw [bytes_append, ht.1 he, h, List.append_nil]
      intro h'
      obtain ⟨x, hx⟩ := Option.isSome_iff_exists.1 he
      rw [causes, List.filterMap_cons_some hx] at h'
      cases h'
    · rw [causes_cons]
      exact fun h'' => h' (List.append_eq_nil_iff.1 h'').2

theorem tidy_none {t : List (Ev σ)} (h : causes t = []) : tidy t := by
  induction t with
  | nil => trivial
  | cons e t ih =>
    have h := List.filterMap_eq_nil_iff.1 h
    refine ⟨fun he => ?_, ih (List.filterMap_eq_nil_iff.2 fun a ha =>
      h a (List.mem_cons_of_mem _ ha))⟩
    rw [h e List.mem_cons_self] at he
    cases he

/-- Calls whose answer may request a break or deliver an instruction byte. -/
def Req.mayBreak : Req σ → Bool
  | .writeIo _ _ _ | .reti _ _ | .readOpcode _ _ _ | .irqData _ _ => true
  | _ => false

/-- No break is requested and no instruction byte delivered. -/
def Qt (x : Ex σ Q α) : Prop := ∀ s, (x s).wp fun t _ => causes t = [] ∧ bytes t = []

namespace Qt

theorem bind {x : Ex σ Q α} {f : α → Ex σ Q β} (hx : Qt x) (hf : ∀ a, Qt (f a)) :
    Qt (x >>= f) := by
  intro s
  refine (Prog.wp_bind _ _ _).2 (Prog.wp_mono ?_ (hx s))
  intro t r h
  refine Prog.wp_mono ?_ (hf r.1 r.2)
  intro u r' h'
  rw [causes_append, bytes_append, h.1, h'.1, h.2, h'.2]
  exact ⟨rfl, rfl⟩

theorem pure {a : β} : Qt (pure a : Ex σ Q β) := fun _ => ⟨rfl, rfl⟩
theorem getS : Qt (Ex.getS : Ex σ Q _) := fun _ => ⟨rfl, rfl⟩
theorem getC : Qt (Ex.getC : Ex σ Q _) := fun _ => ⟨rfl, rfl⟩
theorem getF : Qt (Ex.getF : Ex σ Q _) := fun _ => ⟨rfl, rfl⟩
theorem getPc : Qt (Ex.getPc : Ex σ Q _) := fun _ => ⟨rfl, rfl⟩
theorem setF (v) : Qt (Ex.setF v : Ex σ Q _) := fun _ => ⟨rfl, rfl⟩
theorem setPc (v) : Qt (Ex.setPc v : Ex σ Q _) := fun _ => ⟨rfl, rfl⟩
theorem setPfx (v) : Qt (Ex.setPfx v : Ex σ Q _) := fun _ => ⟨rfl, rfl⟩
theorem modC (f) : Qt (Ex.modC f : Ex σ Q _) := fun _ => ⟨rfl, rfl⟩
theorem call {r : Req σ} (h : r.mayBreak = false) : Qt (Ex.call r : Ex σ Q _) := by
  intro s a
  show causes [⟨r, a⟩] = [] ∧ bytes [⟨r, a⟩] = []
  cases r <;> first | exact ⟨rfl, rfl⟩ | exact absurd h.symm Bool.false_ne_true
theorem when {c : Bool} {x : Ex σ Q Unit} (h : Qt x) : Qt (Ex.when c x) := by
  cases c
  · exact fun _ => ⟨rfl, rfl⟩
  · exact h
theorem ifElse {c : Bool} {x y : Ex σ Q α} (h : Qt x) (h' : Qt y) : Qt (Ex.ifElse c x y) := by
  cases c
  · exact h'
  · exact h
theorem dbg (c n a) : Qt (Z80.dbg c n a : Ex σ Q _) := by
  intro s
  unfold Z80.dbg
  cases s.deb
  · exact ⟨rfl, rfl⟩
  · exact call (r := .debug _) rfl s
theorem addWaitOpt (a n) : Qt (Z80.addWaitOpt a n : Ex σ Q _) := by
  cases n
  · exact fun _ => ⟨rfl, rfl⟩
  · exact call rfl

end Qt

/-- The breaks requested so far, `l`, and during `x` are those its value accounts for. -/
def Cau (l : List (Res σ)) (v : α → List (Res σ)) (x : Ex σ Q α) : Prop :=
  ∀ s, (x s).wp fun t r => l ++ causes t = v r.1 ∧ (l ≠ [] → bytes t = []) ∧ tidy t

/-- A break requested on output. -/
def ioV : Option σ.O → List (Res σ)
  | some o => [.writeIo o]
  | none => []
/-- A break requested on `RETI`. -/
def retiV : Option σ.R → List (Res σ)
  | some o => [.reti o]
  | none => []
/-- The break reported by an instruction. -/
def exitV : Exit σ → List (Res σ)
  | .writeIo o => [.writeIo o]
  | .reti o => [.reti o]
  | _ => []

namespace Cau
variable {l : List (Res σ)} {v : β → List (Res σ)}

theorem seq {w : α → List (Res σ)} {x : Ex σ Q α} {f : α → Ex σ Q β} (hx : Cau [] w x)
    (hn : l = []) (hf : ∀ a, Cau (w a) v (f a)) : Cau l v (x >>= f) := by
  subst hn
  intro s
  refine (Prog.wp_bind _ _ _).2 (Prog.wp_mono ?_ (hx s))
  rintro t r ⟨h1, _, h3⟩
  refine Prog.wp_mono ?_ (hf r.1 r.2)
  rintro u r' ⟨g1, g2, g3⟩
  rw [← h1] at g1 g2
  rw [List.nil_append] at g1 g2
  refine ⟨?_, fun h => absurd rfl h, tidy_append h3 g3 g2⟩
  rw [List.nil_append, causes_append, g1]

theorem bind {x : Ex σ Q α} {f : α → Ex σ Q β} (hx : Qt x)
    (hf : ∀ a, Cau l v (f a)) : Cau l v (x >>= f) := by
  intro s
  refine (Prog.wp_bind _ _ _).2 (Prog.wp_mono ?_ (hx s))
  rintro t r ⟨h1, h2⟩
  refine Prog.wp_mono ?_ (hf r.1 r.2)
  rintro u r' ⟨g1, g2, g3⟩
  rw [causes_append, bytes_append, h1, h2]
  exact ⟨g1, g2, tidy_append (tidy_none h1) g3 fun h => absurd h1 h⟩

theorem pure {a : β} (h : l = v a) : Cau l v (pure a : Ex σ Q β) := by
  intro s
  refine ⟨?_, fun _ => rfl, trivial⟩
  rw [show causes ([] : List (Ev σ)) = [] from rfl, List.append_nil, h]
theorem ifElse {v : α → List (Res σ)} {c : Bool} {x y : Ex σ Q α} (h : Cau l v x) (h' : Cau l v y) :
    Cau l v (Ex.ifElse c x y) := by
  cases c
  · exact h'
  · exact h
theorem writeIo (a d ts) : Cau [] (fun r => ioV r.1) (Z80.writeIo a d ts : Ex σ Q _) := by
  intro s r
  rcases r with ⟨_ | o, w⟩ <;> exact ⟨rfl, fun _ => rfl, fun _ => rfl, trivial⟩
theorem retiCall (a ts) : Cau [] retiV (Z80.retiCall a ts : Ex σ Q _) := by
  intro s r
  rcases r with _ | o <;> exact ⟨rfl, fun _ => rfl, fun _ => rfl, trivial⟩
theorem fetchOpcode : Cau [] (fun _ => []) (Z80.fetchOpcode : Ex σ Q _) := fun _ _ _ =>
  ⟨rfl, fun h => absurd rfl h, nofun, nofun, trivial⟩
theorem bind_fetchOpcode {f : _ → Ex σ Q β} (hl : l = []) (hf : ∀ c, Cau [] v (f c)) :
    Cau l v (Z80.fetchOpcode >>= f) := seq fetchOpcode hl hf
theorem bind_writeIo {a d ts} {f : _ → Ex σ Q β} (hl : l = []) (hf : ∀ r, Cau (ioV r.1) v (f r)) :
    Cau l v (Z80.writeIo a d ts >>= f) := seq (writeIo a d ts) hl hf
theorem bind_retiCall {a ts} {f : _ → Ex σ Q β} (hl : l = []) (hf : ∀ r, Cau (retiV r) v (f r)) :
    Cau l v (Z80.retiCall a ts >>= f) := seq (retiCall a ts) hl hf

theorem breakIo_v (o : Option σ.O) : ioV o = exitV (breakIo o : Exit σ) := by
  cases o <;> first | rfl | exact fun _ => rfl
theorem breakReti_v (o : Option σ.R) : retiV o = exitV (breakReti o : Exit σ) := by
  cases o <;> first | rfl | exact fun _ => rfl

/-- Finish the leaves of a walk. -/
local macro "cau" : tactic =>
  `(tactic| first | rfl | (first | exact breakIo_v _ | exact breakReti_v _))

variable [Flavour Q]

theorem blockOut (d r) : Cau [] ioV (Z80.blockOut d r : Ex σ Q _) := by
  unfold Z80.blockOut
  (walk Z80.Cau <;> (walk Z80.Qt <;> cau))
theorem ioAOutAn (n) : Cau [] ioV (Z80.ioAOutAn n : Ex σ Q _) := by
  unfold Z80.ioAOutAn
  (walk Z80.Cau <;> (walk Z80.Qt <;> cau))
theorem ioROutBc (n) : Cau [] ioV (Z80.ioROutBc n : Ex σ Q _) := by
  unfold Z80.ioROutBc
  (walk Z80.Cau <;> (walk Z80.Qt <;> cau))
theorem bind_blockOut {d r} {f : _ → Ex σ Q β} (hl : l = []) (hf : ∀ r, Cau (ioV r) v (f r)) :
    Cau l v (Z80.blockOut d r >>= f) := seq (blockOut d r) hl hf
theorem bind_ioAOutAn {d} {f : _ → Ex σ Q β} (hl : l = []) (hf : ∀ r, Cau (ioV r) v (f r)) :
    Cau l v (Z80.ioAOutAn d >>= f) := seq (ioAOutAn d) hl hf
theorem bind_ioROutBc {d} {f : _ → Ex σ Q β} (hl : l = []) (hf : ∀ r, Cau (ioV r) v (f r)) :
    Cau l v (Z80.ioROutBc d >>= f) := seq (ioROutBc d) hl hf

theorem instrE (m c0 c1) : Cau [] exitV (Z80.instrE m c0 c1 : Ex σ Q _) := by
  cases m
  case retn =>
    refine bind (Qt.modC _) fun _ => seq (w := retiV) ?_ rfl fun sb => ?_
    · refine ifElse ?_ ?_
      · exact bind (Qt.dbg _ _ _) fun _ => bind (Qt.call (r := .asTimestamp) rfl) fun ts =>
          bind Qt.getPc fun pc => retiCall _ _
      · exact bind (Qt.dbg _ _ _) fun _ => pure rfl
    · (walk Z80.Cau <;> (walk Z80.Qt <;> cau))
  all_goals (walk Z80.Cau <;> (walk Z80.Qt <;> cau))

theorem instrDaa (c) : Cau [] exitV (Z80.instrDaa c : Ex σ Q _) := by
  unfold Z80.instrDaa
  (walk Z80.Cau <;> (walk Z80.Qt <;> cau))
theorem instr0 (m c) : Cau [] exitV (Z80.instr0 m c : Ex σ Q _) := by
  cases m <;> (walk Z80.Cau <;> (walk Z80.Qt <;> cau))
theorem instrI (m p c) : Cau [] exitV (Z80.instrI m p c : Ex σ Q _) := by
  cases m <;> (walk Z80.Cau <;> (walk Z80.Qt <;> cau))
theorem bind_instrI {m p c} {f : _ → Ex σ Q β} (hl : l = []) (hf : ∀ r, Cau (exitV r) v (f r)) :
    Cau l v (Z80.instrI m p c >>= f) := seq (instrI m p c) hl hf
theorem executeCode (c) : Cau [] exitV (Z80.executeCode c : Ex σ Q _) := by
  unfold Z80.executeCode
  (walk Z80.Cau <;> (walk Z80.Qt <;> cau))

end Cau

section
variable [Flavour Q]

/-- The break reported by a result. -/
def resV : Res σ → List (Res σ)
  | .writeIo o => [.writeIo o]
  | .reti o => [.reti o]
  | _ => []

/-- The result accounts for all breaks requested, and no instruction byte follows one. -/
def Caused (t : List (Ev σ)) (e : Res σ) : Prop := causes t = resV e ∧ tidy t

omit [Flavour Q] in
theorem Caused.pre {t u : List (Ev σ)} {e : Res σ} (h : causes t = []) (h' : Caused u e) :
    Caused (t ++ u) e := by
  refine ⟨?_, tidy_append (tidy_none h) h'.2 fun g => absurd h g⟩
  rw [causes_append, h, h'.1, List.nil_append]

omit [Flavour Q] in
theorem toRes_v (e : Exit σ) : resV e.toRes = exitV e := by cases e <;> rfl

theorem caused_instruction (deb : Bool) (code : U8) (c : Cpu Q) :
    (executeInstruction (σ := σ) deb code c).wp fun t r => Caused t r.1 := by
  refine (Prog.wp_bind _ _ _).2 (Prog.wp_mono ?_ (Cau.executeCode code _))
  rintro t r ⟨h1, _, h2⟩
  show Caused (t ++ []) r.1.toRes
  rw [List.append_nil, Caused, toRes_v]
  exact ⟨h1, h2⟩

theorem caused_irq (deb : Bool) (c : Cpu Q) :
    (irqNoCheck (σ := σ) deb c).wp fun t r => Caused t r.1 := by
  unfold irqNoCheck
  simp only []
  generalize c.disableInterrupts.incR.wake = c1
  refine wp_ask fun ts => wp_ask fun v => wp_askWait fun w hw => ?_
  have hw : causes w = [] := by
    refine List.filterMap_eq_nil_iff.2 fun e he => ?_
    obtain ⟨_, _, rfl⟩ := hw e he
    rfl
  have key : ∀ {t : List (Ev σ)} {e}, Caused t e →
      Caused (⟨.addIrq c1.pc, ts⟩ :: ⟨.irqData c1.pc ts, v⟩ :: (w ++ t)) e := fun h =>
    (h.pre hw).pre (t := [_, _]) rfl
  cases c1.im with
  | mode0 => exact Prog.wp_mono (fun t r h => key h) (caused_instruction deb v.1 c1)
  | mode1 => exact Prog.wp_mono (fun t r h => key h) (caused_instruction deb 0xFF#8 c1)
  | mode2 =>
    intro x ts1 x1 ts2 x2
    exact Prog.wp_mono (fun t r h => key (h.pre (t := [_, _, _, _, _]) rfl))
      (caused_instruction deb 0xC3#8 _)

theorem caused_fetch (deb : Bool) (c : Cpu Q) :
    (fetchExecute (σ := σ) deb c).wp fun t r => Caused t r.1 := by
  intro ts code
  exact Prog.wp_mono (fun t r h => h.pre (t := [_, _]) rfl) (caused_instruction deb code _)

theorem caused_next (deb : Bool) (c : Cpu Q) :
    (executeNext (σ := σ) deb c).wp fun t r => Caused t r.1 := by
  have rest : ((if c.halt then (haltStep c).bind fun c => pure (.ok, c) else fetchExecute deb c :
        Prog σ (Res σ × Cpu Q))).wp fun t r => Caused t r.1 := by
    by_cases hh : c.halt = true
    · rw [if_pos hh]
      exact fun ts => ⟨rfl, nofun, trivial⟩
    · rw [if_neg hh]
      exact caused_fetch deb c
  unfold executeNext
  refine wp_askIrq (fun _ => rest) fun ts a _ => ?_
  cases a with
  | true => exact Prog.wp_mono (fun t r h => h.pre (t := [_, _]) rfl) (caused_irq deb c)
  | false => exact Prog.wp_mono (fun t r h => h.pre (t := [_, _]) rfl) rest

theorem caused_step (c : Cpu Q) : (stepStored (σ := σ) c).wp fun t r => Caused t r.1.toRes := by
  refine (Prog.wp_bind _ _ _).2 (wp_fetch fun ts code => ?_)
  refine Prog.wp_mono ?_ (Cau.executeCode code _)
  rintro t r ⟨h1, _, h2⟩
  refine Caused.pre (t := [⟨.addM1 _, ts⟩, ⟨.readOpcode _ _ ts, code⟩]) rfl (u := t ++ []) ?_
  rw [List.append_nil, Caused, toRes_v]
  exact ⟨h1, h2⟩

/-- The way an execution with limit `l` ends. -/
structure Left (l : σ.L) (t : List (Ev σ)) (e : Res σ) (c' : Cpu Q) : Prop where
  caused : Caused t e
  past : ∀ v ∈ t.dropLast, ∀ k, v ≠ ⟨.isPastLimit k, true⟩
  ok : e = .ok ↔ t.getLast? = some ⟨.isPastLimit l, true⟩
  halt : e = .halt → (bytes t).getLast? = some 0x76 ∧ c'.halt = true
  noUb : e ≠ .ub

/-- Nothing in a sequence of calls ends the execution. -/
def Going (t : List (Ev σ)) : Prop := causes t = [] ∧ ∀ v ∈ t, ∀ k, v ≠ ⟨.isPastLimit k, true⟩

omit [Flavour Q] in
theorem Going.append {t u : List (Ev σ)} (h : Going t) (h' : Going u) : Going (t ++ u) := by
  refine ⟨by rw [causes_append, h.1, h'.1]; rfl, fun v hv => ?_⟩
  rcases List.mem_append.1 hv with hv | hv
  · exact h.2 v hv
  · exact h'.2 v hv

omit [Flavour Q] in
theorem Left.pre {l : σ.L} {t u : List (Ev σ)} {e : Res σ} {c' : Cpu Q} (h : Going t)
    (h' : Left l u e c') : Left l (t ++ u) e c' := by
  refine ⟨h'.caused.pre h.1, ?_, ?_, fun he => ⟨?_, (h'.halt he).2⟩, h'.noUb⟩
  · intro v hv
    by_cases hu : u = []
    · subst hu
      rw [List.append_nil] at hv
      exact h.2 v ((List.dropLast_sublist _).subset hv)
    · rw [List.dropLast_append_of_ne_nil hu] at hv
      rcases List.mem_append.1 hv with hv | hv
      · exact h.2 v hv
      · exact h'.past v hv
  · rw [h'.ok, List.getLast?_append]
    cases hu : u.getLast? with
    | some x => rw [Option.some_or]
    | none =>
      refine ⟨nofun, fun hl => ?_⟩
      rw [Option.none_or] at hl
      exact absurd rfl (h.2 _ (List.mem_of_getLast? hl) l)
  · rw [bytes_append, List.getLast?_append, (h'.halt he).1, Option.some_or]

omit [Flavour Q] in
theorem Left.last {l : σ.L} {t : List (Ev σ)} {c : Cpu Q} (h : Going t) :
    Left l (t ++ [⟨.isPastLimit l, true⟩]) .ok c := by
  refine .pre h ⟨⟨rfl, nofun, trivial⟩, fun v hv => absurd hv List.not_mem_nil, ?_, nofun, nofun⟩
  exact ⟨fun _ => rfl, fun _ => rfl⟩

omit [Flavour Q] in
theorem noPast_instr {t : List (Ev σ)} (h : ∀ v ∈ t, v.req.isInstr = true) :
    ∀ v ∈ t, ∀ k, v ≠ ⟨.isPastLimit k, true⟩ := by
  rintro v hv k rfl
  exact absurd (h _ hv) Bool.false_ne_true

omit [Flavour Q] in
theorem noPast_query {ts : σ.Ts} {a : Bool} :
    Going ([⟨.asTimestamp, ts⟩, ⟨.isIrq ts, a⟩] : List (Ev σ)) := by
  refine ⟨rfl, fun v hv k h => ?_⟩
  subst h
  simp at hv

omit [Flavour Q] in
theorem noPast_false {l : σ.L} : Going ([⟨.isPastLimit l, false⟩] : List (Ev σ)) := by
  refine ⟨rfl, fun v hv k h => ?_⟩
  subst h
  simp at hv

/-- A break ends the execution. -/
theorem Left.stop {l : σ.L} {t : List (Ev σ)} {e : Res σ} {c' : Cpu Q} (h : Caused t e)
    (hp : ∀ v ∈ t, ∀ k, v ≠ ⟨.isPastLimit k, true⟩) (he : e ≠ .ok)
    (hh : e = .halt → (bytes t).getLast? = some 0x76 ∧ c'.halt = true) (hu : e ≠ .ub) :
    Left l t e c' :=
  ⟨h, fun v hv => hp v ((List.dropLast_sublist _).subset hv),
    ⟨fun h => absurd h he, fun hl => absurd rfl (hp _ (List.mem_of_getLast? hl) l)⟩, hh, hu⟩

/-- Calls and result of an accepted interrupt. -/
theorem end_irq {c d : Cpu Q} {t : List (Ev σ)} {e} (h : (irqNoCheck false c).Runs t (e, d)) :
    Caused t e ∧ (∀ v ∈ t, ∀ k, v ≠ ⟨.isPastLimit k, true⟩) ∧
      (e = .halt → (bytes t).getLast? = some 0x76 ∧ d.halt = true) ∧ e ≠ .ub := by
  have h0 := Prog.runs_wp h (caused_irq false c)
  obtain ⟨v, ts, w, u, h1, rfl⟩ := Prog.runs_wp h (ok_irqNoCheck false c)
  refine ⟨h0, ?_, fun he => ?_, h1.noUb⟩
  · intro e he k hk
    subst hk
    simp only [List.mem_cons] at he
    rcases he with he | he | he
    · cases he
    · cases he
    · exact absurd (h1.calls _ he) Bool.false_ne_true
  · have hc := h1.halt.1 he
    have ho : opcodes u = [] := by
      have := h1.fetched
      rw [hc] at this
      exact List.length_eq_zero_iff.1 (this.trans (by cases hx : ixOf c.pfx <;> rfl))
    have hb : bytes u = [] := (bytes_instr (t := u) h1.calls).trans ho
    have hv : v = 0x76 := by
      unfold irqCode at hc
      split_ifs at hc
      · exact hc
      · exact absurd hc (by decide)
      · exact absurd hc (by decide)
    refine ⟨?_, ?_⟩
    · show (v :: bytes u).getLast? = _
      rw [hb, hv]; rfl
    · refine (congrArg Spec.Ctl.halted h1.ctl :).trans ?_
      rw [control_halted, hc]; rfl

theorem end_step {c d : Cpu Q} {t : List (Ev σ)} {e} (h : (stepStored (σ := σ) c).Runs t (e, d)) :
    Caused t e.toRes ∧ (∀ v ∈ t, ∀ k, v ≠ ⟨.isPastLimit k, true⟩) ∧
      (e.toRes = .halt → (bytes t).getLast? = some 0x76 ∧ d.halt = true) ∧ e.toRes ≠ .ub := by
  have h0 := Prog.runs_wp h (caused_step c)
  have h1 := Prog.runs_wp h (ok_stepStored c)
  have h1 : StepOk c t e d := h1
  obtain ⟨m1, m2, m3⟩ := step_marks h1
  refine ⟨h0, noPast_instr m1, fun he => ?_, fun hu => h1.noUb ((toRes_ub _).1 hu)⟩
  have he := (toRes_halt _).1 he
  subst he
  obtain ⟨ts, code, u, rfl, g1, g2, g3, g4, g5, g6⟩ := h1.ex
  have hc := g6.1 rfl
  have ho : opcodes u = [] := by
    rw [hc] at g2
    exact List.length_eq_zero_iff.1 (g2.trans (by cases hx : ixOf c.pfx <;> rfl))
  refine ⟨?_, by rw [m3]; exact Bool.or_true _⟩
  show (code :: bytes u).getLast? = _
  rw [bytes_instr g1, ho, hc]; rfl

theorem loop_left (n : Nat) (l : σ.L) (c : Cpu Q) : (loopC (σ := σ) n l c).wp fun t r =>
    ∀ e c', r = some (e, c') → match e with
      | .irq => Going t
      | .limitReached | .enableInt => Left l t .ok c'
      | .halt => Left l t .halt c'
      | .writeIo o => Left l t (.writeIo o) c'
      | .reti o => Left l t (.reti o) c'
      | .ub => False := by
  induction n generalizing c with
  | zero => exact fun e c' h => nomatch h
  | succ n ih =>
    refine (Prog.wp_bind _ _ _).2 ((Prog.wp_iff _ _).2 ?_)
    rintro t ⟨e, d⟩ hr
    obtain ⟨h1, h2, h3, h4⟩ := end_step hr
    have go : e.toRes = .ok → Going t := fun he => ⟨by rw [h1.1, he]; rfl, h2⟩
    have rest : ∀ (q : List (Ev σ)) (d : Cpu Q), Going q → (loopC (σ := σ) n l d).wp fun u r =>
        ∀ e c', r = some (e, c') → match e with
        | .irq => Going (q ++ u)
        | .limitReached | .enableInt => Left l (q ++ u) .ok c'
        | .halt => Left l (q ++ u) .halt c'
        | .writeIo o => Left l (q ++ u) (.writeIo o) c'
        | .reti o => Left l (q ++ u) (.reti o) c'
        | .ub => False := by
      intro q d hq
      refine Prog.wp_mono ?_ (ih d)
      rintro u r h e c' rfl
      have h := h e c' rfl
      cases e <;> first | exact hq.append h | exact .pre hq h | exact h
    cases e with
    | cont =>
      have hg := go rfl
      intro past
      cases past with
      | true => rintro e c' ⟨⟩; exact .last hg
      | false =>
        refine wp_askIrq (fun hb => ?_) fun ts a hb => ?_
        · refine Prog.wp_mono ?_ (rest _ d (hg.append (noPast_false (l := l))))
          rintro u r h e c' rfl
          have h := h e c' rfl
          rwa [List.append_assoc] at h
        · cases a with
          | true =>
            rintro e c' ⟨⟩
            exact hg.append (noPast_false.append (noPast_query (ts := ts)))
          | false =>
            refine Prog.wp_mono ?_ (rest _ d (hg.append ((noPast_false (l := l)).append
              (noPast_query (ts := ts) (a := false)))))
            rintro u r h e c' rfl
            have h := h e c' rfl
            rwa [List.append_assoc] at h
    | enableInt =>
      have hg := go rfl
      intro past
      cases past with
      | true => rintro e c' ⟨⟩; exact .last hg
      | false =>
        refine Prog.wp_mono ?_ (rest _ { d with lastEi := false } (hg.append (noPast_false (l := l))))
        rintro u r h e c' rfl
        have h := h e c' rfl
        rwa [List.append_assoc] at h
    | halt => rintro e c' ⟨⟩; rw [List.append_nil]; exact .stop h1 h2 nofun h3 h4
    | writeIo o => rintro e c' ⟨⟩; rw [List.append_nil]; exact .stop h1 h2 nofun h3 h4
    | reti o => rintro e c' ⟨⟩; rw [List.append_nil]; exact .stop h1 h2 nofun h3 h4
    | ub => exact absurd rfl h4

/-- What is shown of the parts of `execute_with_limit`. -/
def LimitLeft (l : σ.L) (t : List (Ev σ)) (r : Option (Res σ × Cpu Q)) : Prop :=
  ∀ e c', r = some (e, c') → Left l t e c'

theorem irqThen_left (l : σ.L) (c : Cpu Q) (k : Cpu Q → Prog σ (Option (Res σ × Cpu Q)))
    (hk : ∀ d, (k d).wp (LimitLeft l)) :
    ((irqNoCheck (σ := σ) false c).bind fun r =>
      (match r.1 with
      | .ok => do
        let past ← ask (.isPastLimit l)
        if past then pure (some (.ok, r.2))
        else k r.2
      | e => pure (some (e, r.2)) : Prog σ _)).wp (LimitLeft l) := by
  refine (Prog.wp_bind _ _ _).2 ((Prog.wp_iff _ _).2 ?_)
  rintro t ⟨e, d⟩ hr
  obtain ⟨h1, h2, h3, h4⟩ := end_irq hr
  cases e with
  | ok =>
    have hg : Going t := ⟨h1.1, h2⟩
    intro past
    cases past with
    | true => rintro e c' ⟨⟩; exact .last hg
    | false =>
      refine Prog.wp_mono ?_ (hk d)
      rintro u r h e c' rfl
      exact .pre hg (.pre noPast_false (h e c' rfl))
  | ub => exact absurd rfl h4
  | _ => rintro e c' ⟨⟩; rw [List.append_nil]; exact .stop h1 h2 nofun h3 h4

theorem outer_left (n : Nat) (l : σ.L) (k : Nat) (c : Cpu Q) :
    (limitOuter (σ := σ) n l k c).wp (LimitLeft l) := by
  induction k generalizing c with
  | zero => exact fun e c' h => nomatch h
  | succ k ih =>
    rw [limitOuter, loop_eq]
    refine (Prog.wp_bind _ _ _).2 (Prog.wp_mono ?_ (loop_left n l c))
    intro t r h
    cases r with
    | none => exact fun e c' h => nomatch h
    | some x =>
      obtain ⟨e, d⟩ := x
      have h := h e d rfl
      cases e with
      | irq =>
        refine Prog.wp_mono ?_ (irqThen_left l d (limitOuter n l k) ih)
        rintro u r h' e c' rfl
        exact .pre h (h' e c' rfl)
      | ub => exact h.elim
      | _ =>
        rintro e c' ⟨⟩
        rw [List.append_nil]
        exact h

theorem start_left (n : Nat) (l : σ.L) (c : Cpu Q) :
    (limitStart (σ := σ) n l c).wp (LimitLeft l) := by
  unfold limitStart
  by_cases he : c.lastEi = true
  · rw [if_pos he]
    exact outer_left n l n _
  · rw [if_neg he]
    refine wp_askIrq (fun hb => outer_left n l n c) fun ts a hb => ?_
    cases a with
    | true =>
      refine Prog.wp_mono ?_ (irqThen_left l c (limitOuter n l n) (outer_left n l n))
      rintro u r h e c' rfl
      exact (h e c' rfl).pre noPast_query
    | false =>
      refine Prog.wp_mono ?_ (outer_left n l n c)
      rintro u r h e c' rfl
      exact (h e c' rfl).pre noPast_query

theorem halted_left (n : Nat) (l : σ.L) (m : Nat) (c : Cpu Q) :
    (limitHalted (σ := σ) n l m c).wp (LimitLeft l) := by
  induction m generalizing c with
  | zero => exact fun e c' h => nomatch h
  | succ m ih =>
    intro past
    cases past with
    | true => rintro e c' ⟨⟩; exact .last (t := []) ⟨rfl, fun _ h => absurd h List.not_mem_nil⟩
    | false =>
      have more : ((haltStep c).bind fun c => limitHalted n l m c).wp (LimitLeft l) := by
        intro ts
        refine Prog.wp_mono ?_ (ih c.incR)
        rintro u r h e c' rfl
        refine (h e c' rfl).pre (t := [_]) ⟨rfl, fun v hv k h => ?_⟩
        subst h
        simp at hv
      refine wp_askIrq (fun hb => ?_) fun ts a hb => ?_
      · refine Prog.wp_mono ?_ more
        rintro u r h e c' rfl
        exact (h e c' rfl).pre noPast_false
      · cases a with
        | true =>
          refine Prog.wp_mono ?_ (start_left n l c)
          rintro u r h e c' rfl
          exact ((h e c' rfl).pre noPast_query).pre noPast_false
        | false =>
          refine Prog.wp_mono ?_ more
          rintro u r h e c' rfl
          exact ((h e c' rfl).pre noPast_query).pre noPast_false

theorem limit_left (n : Nat) (l : σ.L) (c : Cpu Q) :
    (executeWithLimit (σ := σ) n l c).wp (LimitLeft l) := by
  unfold executeWithLimit
  by_cases hh : c.halt = true
  · rw [if_pos hh]; exact halted_left n l n c
  · rw [if_neg hh]
    intro past
    cases past with
    | true => rintro e c' ⟨⟩; exact .last (t := []) ⟨rfl, fun _ h => absurd h List.not_mem_nil⟩
    | false =>
      refine Prog.wp_mono ?_ (start_left n l c)
      rintro u r h e c' rfl
      exact (h e c' rfl).pre noPast_false

end
end Z80
