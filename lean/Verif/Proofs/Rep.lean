import Verif.Proofs.Quiet
import Verif.Spec.Asm
import Verif.Proofs.Decode
import Verif.Model.Host
import Verif.Proofs.Abs
import Verif.Proofs.Runs
import Verif.Proofs.Api

/-!
# Code that calls the debugger once
-/

namespace Z80
open Ex

variable {σ : Sig} {Q α β : Type}

/-- A call that reads memory is answered from `m`. -/
def Ev.readsOk (m : Mem) : Ev σ → Prop
  | ⟨.readOpcode a _ _, v⟩ => v = m a
  | ⟨.readMem a _, v⟩ => v = m a
  | ⟨.readDebug a, v⟩ => v = m a
  | ⟨.readMem16 a _, v⟩ => v = m.get16 a
  | _ => True

/-- All memory reads are answered from `m`. -/
def Reads (m : Mem) (t : List (Ev σ)) : Prop := ∀ e ∈ t, e.readsOk m

/-- The memory holds the bytes `l` from address `a` on. -/
def Holds (m : Mem) (a : U16) : List U8 → Prop
  | [] => True
  | b :: l => b = m a ∧ Holds m (a + 1#16) l

theorem holds_append {m : Mem} {a : U16} {l l' : List U8} :
    Holds m a (l ++ l') ↔ Holds m a l ∧ Holds m (a + BitVec.ofNat 16 l.length) l' := by
  induction l generalizing a with
  | nil => simp [Holds]
  | cons b l ih =>
    rw [List.cons_append, Holds, Holds, ih, and_assoc]
    have : a + 1#16 + BitVec.ofNat 16 l.length = a + BitVec.ofNat 16 (b :: l).length := by
      rw [BitVec.add_assoc, List.length_cons, Nat.add_comm l.length 1, BitVec.ofNat_add]
    rw [this]

/-- The byte of a prefix, if any. -/
def pfxBytes : Option Prefix → List U8
  | some p => [p.toCode]
  | none => []

/-- The address an operand stands for. -/
def DbgAddr.opd : DbgAddr → Spec.Opd
  | .immAddr nn => .mem nn
  | .regAddr r => .ind (match r with | .BC => "BC" | .DE => "DE" | .HL => "HL" | .SP => "SP")
  | .indexAddr .xdd (some d) => .idx "IX" d
  | .indexAddr .yfd (some d) => .idx "IY" d
  | .indexAddr .xdd none => .ind "IX"
  | .indexAddr .yfd none => .ind "IY"

/-- The operand an argument of a record stands for, as documented (`/repo/src/cpu/debug.rs` 72-121). -/
def DbgArg.opd : DbgArg → Spec.Opd
  | .imm8 n => .byte n
  | .bit b => .num b
  | .intMode m => .num (match m with | .mode0 => 0 | .mode1 => 1 | .mode2 => 2)
  | .reg8 p r => .name (match r, p with
    | .B, _ => "B" | .C, _ => "C" | .D, _ => "D" | .E, _ => "E" | .A, _ => "A"
    | .H, none => "H" | .H, some .xdd => "IXH" | .H, some .yfd => "IYH"
    | .L, none => "L" | .L, some .xdd => "IXL" | .L, some .yfd => "IYL")
  | .imm16 nn => .word nn
  | .reg16 p r => .name (match r, p with
    | .BC, _ => "BC" | .DE, _ => "DE" | .SP, _ => "SP"
    | .HL, none => "HL" | .HL, some .xdd => "IX" | .HL, some .yfd => "IY")
  | .stk16 r => .name (match r with | .BC => "BC" | .DE => "DE" | .HL => "HL" | .AF => "AF")
  | .addr a => a.opd
  | .port (.immPort n) => .port n
  | .port .regPort => .ind "C"
  | .cond c => .name (match c with
    | .NZ => "NZ" | .Z => "Z" | .NC => "NC" | .C => "C" | .PO => "PO" | .PE => "PE" | .P => "P"
    | .M => "M")
  | .regI => .name "I"
  | .regR => .name "R"

/-- The operands that the arguments of a record stand for. -/
def DbgArgs.opds : DbgArgs → List Spec.Opd
  | .none => []
  | .single a => [a.opd]
  | .double (.stk16 .AF) (.stk16 .AF) => [.name "AF", .name "AF'"]
  | .double a b => [a.opd, b.opd]
  | .bitOpExt b a r => [.num b, a.opd, DbgArg.opd (.reg8 Option.none r)]

/-- A record of the bytes `l` satisfying `P` from `a` on, preceded by the byte of prefix `p`. -/
structure Recorded (P : List U8 → String → DbgArgs → Prop) (a : U16) (p : Option Prefix) (l : List U8) (d : CpuDebug) :
    Prop where
  pfx : d.pfx = p
  pc : d.pc = a - BitVec.ofNat 16 (pfxBytes p).length
  code : d.code = pfxBytes p ++ l
  ok : P l d.mnemonic d.args

/-- Calls of the debugger and writes to memory. -/
def Req.isLoud : Req σ → Bool
  | .debug _ | .writeMem _ _ _ => true
  | _ => false

/-- Number of calls of the debugger and of writes to memory. -/
def louds (t : List (Ev σ)) : Nat := t.countP fun e => e.req.isLoud

theorem louds_append (t u : List (Ev σ)) : louds (t ++ u) = louds t + louds u :=
  List.countP_append

theorem louds_one {r : Req σ} (h : r.isLoud = false) (a : r.Ans) :
    louds ([⟨r, a⟩] : List (Ev σ)) = 0 := by
  rw [louds, List.countP_cons_of_neg (by rw [h]; exact Bool.false_ne_true)]
  rfl

theorem debugs_of_louds {t : List (Ev σ)} (h : louds t = 0) : debugs t = 0 := by
  rw [louds, List.countP_eq_zero] at h
  rw [debugs, List.countP_eq_zero]
  intro e he hd
  refine h e he ?_
  obtain ⟨r, a⟩ := e
  cases r <;> first | rfl | exact absurd hd Bool.false_ne_true

/-- The code calls the debugger once with a record of bytes satisfying `P` from `a` on and prefix
`p`, after the bytes `l` were read. -/
def Rep (ok : α → Prop) (P : List U8 → String → DbgArgs → Prop) (a : U16) (p : Option Prefix) (l : List U8) (x : Ex σ Q α) :
    Prop :=
  ∀ s, s.deb = true → s.pc = a + BitVec.ofNat 16 l.length → s.pfx = p →
    (x s).wp fun t r => ok r.1 → ∃ u d v l', t = u ++ ⟨.debug d, ()⟩ :: v ∧ louds u = 0 ∧
      debugs v = 0 ∧ Recorded P a p l' d ∧ ∀ m, Reads m u → Holds m a l → Holds m a l'

/-- Code before the record: no record, local variables unchanged. -/
def Flat (x : Ex σ Q α) : Prop := ∀ s, (x s).wp fun t r => louds t = 0 ∧ r.2.deb = s.deb ∧
  r.2.pc = s.pc ∧ r.2.pfx = s.pfx

namespace Flat

theorem bind {x : Ex σ Q α} {f : α → Ex σ Q β} (hx : Flat x) (hf : ∀ a, Flat (f a)) :
    Flat (x >>= f) := by
  intro s
  refine (Prog.wp_bind _ _ _).2 (Prog.wp_mono ?_ (hx s))
  intro t r h
  refine Prog.wp_mono ?_ (hf r.1 r.2)
  intro u r' h'
  rw [louds_append, h.1, h'.1]
  exact ⟨rfl, h'.2.1.trans h.2.1, h'.2.2.1.trans h.2.2.1, h'.2.2.2.trans h.2.2.2⟩
theorem pure {a : β} : Flat (pure a : Ex σ Q β) := fun _ => ⟨rfl, rfl, rfl, rfl⟩
theorem getC : Flat (Ex.getC : Ex σ Q _) := fun _ => ⟨rfl, rfl, rfl, rfl⟩
theorem getF : Flat (Ex.getF : Ex σ Q _) := fun _ => ⟨rfl, rfl, rfl, rfl⟩
theorem getPc : Flat (Ex.getPc : Ex σ Q _) := fun _ => ⟨rfl, rfl, rfl, rfl⟩
theorem setF (v) : Flat (Ex.setF v : Ex σ Q _) := fun _ => ⟨rfl, rfl, rfl, rfl⟩
theorem modC (f) : Flat (Ex.modC f : Ex σ Q _) := fun _ => ⟨rfl, rfl, rfl, rfl⟩
theorem call {r : Req σ} (h : r.isLoud = false) : Flat (Ex.call r : Ex σ Q _) :=
  fun _ a => ⟨louds_one h a, rfl, rfl, rfl⟩

end Flat

namespace Rep

variable {ok : β → Prop} {P : List U8 → String → DbgArgs → Prop} {a : U16} {p : Option Prefix} {l : List U8}

theorem bind {x : Ex σ Q α} {f : α → Ex σ Q β} (hx : Flat x) (hf : ∀ b, Rep ok P a p l (f b)) :
    Rep ok P a p l (x >>= f) := by
  intro s h1 h2 h3
  refine (Prog.wp_bind _ _ _).2 (Prog.wp_mono ?_ (hx s))
  rintro t r ⟨ht, r1, r2, r3⟩
  refine Prog.wp_mono ?_ (hf r.1 r.2 (r1.trans h1) (r2.trans h2) (r3.trans h3))
  intro t' r' h hok
  obtain ⟨u, d, v, l', rfl, hu, hv, hd, hm⟩ := h hok
  refine ⟨t ++ u, d, v, l', by rw [List.append_assoc], ?_, hv, hd, fun m hr => hm m fun e he =>
    hr e (List.mem_append_right _ he)⟩
  rw [louds_append, ht, hu]

/-- A step of reading the bytes `l'`. -/
theorem read {x : Ex σ Q α} {f : α → Ex σ Q β} {g : α → List U8}
    (hx : ∀ s, s.pc = a + BitVec.ofNat 16 l.length → (x s).wp fun t r => louds t = 0 ∧
      r.2.deb = s.deb ∧ r.2.pc = s.pc + BitVec.ofNat 16 (g r.1).length ∧ r.2.pfx = s.pfx ∧
        ∀ m, Reads m t → Holds m s.pc (g r.1))
    (hf : ∀ b, Rep ok P a p (l ++ g b) (f b)) : Rep ok P a p l (x >>= f) := by
  intro s h1 h2 h3
  refine (Prog.wp_bind _ _ _).2 (Prog.wp_mono ?_ (hx s h2))
  rintro t r ⟨ht, r1, r2, r3, r4⟩
  refine Prog.wp_mono ?_ (hf r.1 r.2 (r1.trans h1) ?_ (r3.trans h3))
  · intro t' r' h hok
    obtain ⟨u, d, v, l', rfl, hu, hv, hd, hm⟩ := h hok
    refine ⟨t ++ u, d, v, l', by rw [List.append_assoc], ?_, hv, hd, fun m hr hl => hm m (fun e he =>
      hr e (List.mem_append_right _ he)) (holds_append.2 ⟨hl, ?_⟩)⟩
    · rw [louds_append, ht, hu]
    · rw [← h2]
      exact r4 m fun e he => hr e (List.mem_append_left _ he)
  · rw [r2, h2, List.length_append, BitVec.ofNat_add, BitVec.add_assoc]

theorem bind_fetchOpcode {f : U8 → Ex σ Q β} (hf : ∀ b, Rep ok P a p (l ++ [b]) (f b)) :
    Rep ok P a p l (Z80.fetchOpcode >>= f) := by
  refine read (g := fun b => [b]) ?_ hf
  intro s _ ts (code : U8)
  exact ⟨rfl, rfl, rfl, rfl, fun m hr => ⟨hr _ (.tail _ (.head _)), trivial⟩⟩

theorem bind_fetchImm8 {x : U8} {f : U8 → Ex σ Q β} (hf : ∀ b, Rep ok P a p (l ++ [b]) (f b)) :
    Rep ok P a p l (Z80.fetchImm8 x >>= f) := by
  refine read (g := fun b => [b]) ?_ hf
  intro s _ ts (code : U8)
  show (((addNoMreqOpt s.pc x >>= fun _ => _) : Ex σ Q U8) s).wp _
  unfold addNoMreqOpt
  cases (x != 0#8)
  · exact ⟨rfl, rfl, rfl, rfl, fun m hr => ⟨hr _ (.tail _ (.head _)), trivial⟩⟩
  · exact fun _ => ⟨rfl, rfl, rfl, rfl, fun m hr => ⟨hr _ (.tail _ (.head _)), trivial⟩⟩

theorem bind_fetchImm16 {x : U8} {f : U16 → Ex σ Q β}
    (hf : ∀ b, Rep ok P a p (l ++ [lo8 b, hi8 b]) (f b)) :
    Rep ok P a p l (Z80.fetchImm16 x >>= f) := by
  refine read (g := fun b => [lo8 b, hi8 b]) ?_ hf
  intro s _ ts (nn : U16) ts2
  have key : ∀ (m : Mem), nn = m.get16 s.pc → Holds m s.pc [lo8 nn, hi8 nn] := by
    rintro m rfl
    exact ⟨lo8_word _ _, hi8_word _ _, trivial⟩
  show (((addNoMreqOpt (s.pc + 1#16) x >>= fun _ => _) : Ex σ Q U16) s).wp _
  unfold addNoMreqOpt
  cases (x != 0#8)
  · exact ⟨rfl, rfl, rfl, rfl, fun m hr => key m (hr _ (.tail _ (.head _)))⟩
  · exact fun _ => ⟨rfl, rfl, rfl, rfl, fun m hr => key m (hr _ (.tail _ (.head _)))⟩

theorem bind_dbg {name args codes} {f : Unit → Ex σ Q β} (hl : codes = l) (hn : P codes name args)
    (hf : ∀ b, Silent (f b)) : Rep ok P a p l (Z80.dbg codes name args >>= f) := by
  subst hl
  intro s h1 h2 h3
  show (Prog.bind (Z80.dbg codes name args s) _).wp _
  unfold Z80.dbg
  rw [h1]
  refine fun _ => Prog.wp_mono ?_ (hf () s)
  intro t r ht _
  refine ⟨[], _, t, codes, rfl, rfl, ht, ⟨h3, ?_, ?_, hn⟩, fun m _ hm => hm⟩
  · show s.pc - _ = _
    rw [h2, h3]
    cases p with
    | none =>
      show a + BitVec.ofNat 16 codes.length - BitVec.ofNat 16 ([] ++ codes).length = a - 0#16
      rw [List.nil_append, BitVec.add_sub_cancel, BitVec.sub_zero]
    | some q =>
      show a + BitVec.ofNat 16 codes.length - BitVec.ofNat 16 (codes.length + 1) = a - 1#16
      rw [BitVec.ofNat_add]
      generalize BitVec.ofNat 16 codes.length = k
      show a + k - (k + 1#16) = a - 1#16
      bv_omega
  · show (match s.pfx with | some p => [p.toCode] | none => []) ++ codes = _
    rw [h3]
    cases p <;> rfl

theorem pure {b : β} (h : ¬ ok b) : Rep ok P a p l (Pure.pure b : Ex σ Q β) :=
  fun _ _ _ _ hok => absurd hok h

theorem dbg {name args codes} (hl : codes = l) (hn : P codes name args) :
    Rep (fun _ => True) P a p l (Z80.dbg codes name args : Ex σ Q _) := by
  intro s h1 h2 h3
  have h := bind_dbg (σ := σ) (Q := Q) (ok := fun _ => True) (name := name) (args := args) (a := a)
    (p := p) (f := fun _ => (Pure.pure ())) hl hn (fun _ => Silent.pure) s h1 h2 h3
  refine (Prog.wp_iff _ _).2 fun t r hr => ?_
  refine (Prog.wp_iff _ _).1 h t ((), r.2) (Prog.runs_bind.2 ⟨t, [], r, by simp, hr, .ret _⟩)

theorem then_silent {ok : β → Prop} {x : Ex σ Q α} {f : α → Ex σ Q β}
    (hx : Rep (fun _ => True) P a p l x) (hf : ∀ a, Silent (f a)) : Rep ok P a p l (x >>= f) := by
  intro s h1 h2 h3
  refine (Prog.wp_bind _ _ _).2 (Prog.wp_mono ?_ (hx s h1 h2 h3))
  intro t r h
  obtain ⟨u, d, v, l', rfl, hu, hv, hd, hm⟩ := h trivial
  refine Prog.wp_mono ?_ (hf r.1 r.2)
  intro t' r' ht _
  refine ⟨u, d, v ++ t', l', by simp, hu, ?_, hd, hm⟩
  rw [debugs_append, hv, ht]

theorem bind_ifElse {c : Bool} {x y : Ex σ Q α} {f : α → Ex σ Q β}
    (hx : c = true → Rep (fun _ => True) P a p l x)
    (hy : c = false → Rep (fun _ => True) P a p l y)
    (hf : ∀ a, Silent (f a)) : Rep ok P a p l (Ex.ifElse c x y >>= f) := by
  refine then_silent ?_ hf
  cases c
  · exact hy rfl
  · exact hx rfl

theorem bind_getPc {f : U16 → Ex σ Q β} (hf : Rep ok P a p l (f (a + BitVec.ofNat 16 l.length))) :
    Rep ok P a p l (Ex.getPc >>= f) := by
  intro s h1 h2 h3
  have h := hf s h1 h2 h3
  rw [← h2] at h
  exact h

theorem relAddress_target (a : U16) (e : U8) : relAddress (a + 2#16) e = Spec.target a e := rfl

theorem takeRel {c name args} (hl : l = [c]) (hn : ∀ e, P [c, e] name (args (Spec.target a e))) :
    Rep (fun _ => True) P a p l (Z80.takeRel c name args : Ex σ Q _) := by
  subst hl
  walk Z80.Rep
  all_goals first
    | rfl
    | exact hn _
    | (walk Z80.Flat <;> rfl; done)
    | (walk Z80.Silent <;> rfl; done)

theorem bind_takeRel {c name args} {f : Unit → Ex σ Q β} (hl : l = [c])
    (hn : ∀ e, P [c, e] name (args (Spec.target a e)))
    (hf : ∀ a, Silent (f a)) : Rep ok P a p l (Z80.takeRel c name args >>= f) :=
  then_silent (takeRel hl hn) hf

theorem skipRel {c name args} (hl : l = [c]) (hn : ∀ e, P [c, e] name (args (Spec.target a e))) :
    Rep (fun _ => True) P a p l (Z80.skipRel c name args : Ex σ Q _) := by
  subst hl
  refine bind_getPc ?_
  have h := read (σ := σ) (Q := Q) (ok := fun _ => True) (P := P) (a := a) (p := p) (l := [c])
    (x := (do
      let _ ← addMreq (a + 1#16)
      let e ← readDebug (a + 1#16)
      setPc (a + 1#16 + 1#16)
      Pure.pure e)) (g := fun e => [e])
    (f := fun e => Z80.dbg [c, e] name (args (relAddress (a + 1#16 + 1#16) e))) (by
      intro s hs ts (e : U8)
      refine ⟨rfl, rfl, ?_, rfl, fun m hr => ⟨?_, trivial⟩⟩
      · exact congrArg (· + 1#16) hs.symm
      · rw [hs]
        exact hr _ (.tail _ (.head _)))
    (fun e => dbg rfl (by
      rw [BitVec.add_assoc]
      exact hn e))
  exact h

/-- The bytes `l` start with `c` and have the length expected after prefix `p`. -/
def Sized (p : Option Prefix) (c : U8) (l : List U8) : Prop :=
  l.length = Spec.length p.isSome c (l.getD 1 0) ∧ ∃ l', l = c :: l'

/-- The bytes `l` at `a` start with `c` and have the length expected after prefix `p`, and the
mnemonic and the arguments are those of the instruction. -/
def Text (p : Option Prefix) (a : U16) (c : U8) (l : List U8) (n : String) (args : DbgArgs) : Prop :=
  Sized p c l ∧ (n, args.opds) = Spec.asm (ixOf p) a l

end Rep

end Z80
