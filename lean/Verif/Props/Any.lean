import Verif.Model.Any
import Verif.Props.Variant

/-!
# C36: conversions between flavours and the dynamic wrapper
-/

set_option linter.constructorNameAsVariable false

namespace Z80
open Spec
variable {Q Q' : Type} [FlavourSpec Q] [FlavourSpec Q'] {σ : Sig}

/-! ### Every method of the wrapper is the method of the CPU inside -/

/-- The methods of the `Cpu` trait and of `Z80Any`, with their arguments. -/
inductive Method
  | getMemptr
  | getPc
  | getSp
  | getAcc
  | getFlags
  | getR
  | getI
  | getIr
  | getIffs
  | isHalt
  | getIm
  | getReg (reg : Reg8) (p : Option Prefix)
  | getReg2 (src : StkReg16)
  | getAltReg2 (src : StkReg16)
  | getReg16 (src : StkReg16)
  | getAltReg16 (src : StkReg16)
  | getIndex2 (p : Prefix)
  | getIndex16 (p : Prefix)
  | isIrqAllowed
  | isNmiAllowed
  | isAfterEi
  | isAfterPrefix
  | getPrefix
  | setMemptr (v : U16)
  | normalizeR
  | reset
  | setPc (v : U16)
  | setSp (v : U16)
  | setAcc (v : U8)
  | setFlags (f : U8)
  | incR
  | addR (delta : BitVec 32)
  | setR (v : U8)
  | setI (v : U8)
  | setIffs (a b : Bool)
  | doHalt
  | setIm (m : IntMode)
  | exAfAf
  | exx
  | setReg (dst : Reg8) (p : Option Prefix) (v : U8)
  | setReg2 (src : StkReg16) (hi lo : U8)
  | setReg16 (src : StkReg16) (v : U16)
  | setIndex2 (p : Prefix) (hi lo : U8)
  | setIndex16 (p : Prefix) (v : U16)
  | restoreIff1
  | disableInterrupts
  | enableInterrupts
  | irq (deb : Bool)
  | nmi
  | executeInstruction (deb : Bool) (code : U8)
  | executeNext (deb : Bool)

/-- The value returned by a method. -/
inductive Value (σ : Sig)
  | unit | byte (v : U8) | word (v : U16) | bool (b : Bool) | bools (a b : Bool) | bytes (a b : U8)
  | im (m : IntMode) | pfx (p : Option Prefix) | res (r : Res σ) | irq (r : Option (Res σ))

/-- A call of a method of the typed CPU: the calls made to the host, the value returned and the new
state. -/
def Method.onCpu (m : Method) (c : Cpu Q) : Prog σ (Value σ × Cpu Q) :=
  match m with
  | .getMemptr => .ret (.word (c.getMemptr), c)
  | .getPc => .ret (.word (c.getPc), c)
  | .getSp => .ret (.word (c.getSp), c)
  | .getAcc => .ret (.byte (c.getAcc), c)
  | .getFlags => .ret (.byte (c.getFlags), c)
  | .getR => .ret (.byte (c.getR), c)
  | .getI => .ret (.byte (c.getI), c)
  | .getIr => .ret (.word (c.getIr), c)
  | .getIffs => .ret (.bools (c.getIffs).1 (c.getIffs).2, c)
  | .isHalt => .ret (.bool (c.isHalt), c)
  | .getIm => .ret (.im (c.getIm), c)
  | .getReg reg p => .ret (.byte (c.getReg reg p), c)
  | .getReg2 src => .ret (.bytes (c.getReg2 src).1 (c.getReg2 src).2, c)
  | .getAltReg2 src => .ret (.bytes (c.getAltReg2 src).1 (c.getAltReg2 src).2, c)
  | .getReg16 src => .ret (.word (c.getReg16 src), c)
  | .getAltReg16 src => .ret (.word (c.getAltReg16 src), c)
  | .getIndex2 p => .ret (.bytes (c.getIndex2 p).1 (c.getIndex2 p).2, c)
  | .getIndex16 p => .ret (.word (c.getIndex16 p), c)
  | .isIrqAllowed => .ret (.bool (c.isIrqAllowed), c)
  | .isNmiAllowed => .ret (.bool (c.isNmiAllowed), c)
  | .isAfterEi => .ret (.bool (c.isAfterEi), c)
  | .isAfterPrefix => .ret (.bool (c.isAfterPrefix), c)
  | .getPrefix => .ret (.pfx (c.getPrefix), c)
  | .setMemptr v => .ret (.unit, c.setMemptr v)
  | .normalizeR => .ret (.unit, c.normalizeR)
  | .reset => .ret (.unit, c.reset)
  | .setPc v => .ret (.unit, c.setPc v)
  | .setSp v => .ret (.unit, c.setSp v)
  | .setAcc v => .ret (.unit, c.setAcc v)
  | .setFlags f => .ret (.unit, c.setFlags f)
  | .incR => .ret (.unit, c.incR)
  | .addR delta => .ret (.unit, c.addR delta)
  | .setR v => .ret (.unit, c.setR v)
  | .setI v => .ret (.unit, c.setI v)
  | .setIffs a b => .ret (.unit, c.setIffs a b)
  | .doHalt => .ret (.unit, c.doHalt)
  | .setIm m => .ret (.unit, c.setIm m)
  | .exAfAf => .ret (.unit, c.exAfAf)
  | .exx => .ret (.unit, c.exx)
  | .setReg dst p v => .ret (.unit, c.setReg dst p v)
  | .setReg2 src hi lo => .ret (.unit, c.setReg2 src hi lo)
  | .setReg16 src v => .ret (.unit, c.setReg16 src v)
  | .setIndex2 p hi lo => .ret (.unit, c.setIndex2 p hi lo)
  | .setIndex16 p v => .ret (.unit, c.setIndex16 p v)
  | .restoreIff1 => .ret (.unit, c.restoreIff1)
  | .disableInterrupts => .ret (.unit, c.disableInterrupts)
  | .enableInterrupts => .ret (.unit, c.enableInterrupts)
  | .irq deb => (Z80.irq deb c).map fun r => (.irq r.1, r.2)
  | .nmi => (Z80.nmi c).map fun r => (.bool r.1, r.2)
  | .executeInstruction deb code => (Z80.executeInstruction deb code c).map fun r => (.res r.1, r.2)
  | .executeNext deb => (Z80.executeNext deb c).map fun r => (.res r.1, r.2)

/-- A call of the method of the same name of the wrapper. -/
def Method.onAny (m : Method) (z : Any) : Prog σ (Value σ × Any) :=
  match m with
  | .getMemptr => .ret (.word (z.getMemptr), z)
  | .getPc => .ret (.word (z.getPc), z)
  | .getSp => .ret (.word (z.getSp), z)
  | .getAcc => .ret (.byte (z.getAcc), z)
  | .getFlags => .ret (.byte (z.getFlags), z)
  | .getR => .ret (.byte (z.getR), z)
  | .getI => .ret (.byte (z.getI), z)
  | .getIr => .ret (.word (z.getIr), z)
  | .getIffs => .ret (.bools (z.getIffs).1 (z.getIffs).2, z)
  | .isHalt => .ret (.bool (z.isHalt), z)
  | .getIm => .ret (.im (z.getIm), z)
  | .getReg reg p => .ret (.byte (z.getReg reg p), z)
  | .getReg2 src => .ret (.bytes (z.getReg2 src).1 (z.getReg2 src).2, z)
  | .getAltReg2 src => .ret (.bytes (z.getAltReg2 src).1 (z.getAltReg2 src).2, z)
  | .getReg16 src => .ret (.word (z.getReg16 src), z)
  | .getAltReg16 src => .ret (.word (z.getAltReg16 src), z)
  | .getIndex2 p => .ret (.bytes (z.getIndex2 p).1 (z.getIndex2 p).2, z)
  | .getIndex16 p => .ret (.word (z.getIndex16 p), z)
  | .isIrqAllowed => .ret (.bool (z.isIrqAllowed), z)
  | .isNmiAllowed => .ret (.bool (z.isNmiAllowed), z)
  | .isAfterEi => .ret (.bool (z.isAfterEi), z)
  | .isAfterPrefix => .ret (.bool (z.isAfterPrefix), z)
  | .getPrefix => .ret (.pfx (z.getPrefix), z)
  | .setMemptr v => .ret (.unit, z.setMemptr v)
  | .normalizeR => .ret (.unit, z.normalizeR)
  | .reset => .ret (.unit, z.reset)
  | .setPc v => .ret (.unit, z.setPc v)
  | .setSp v => .ret (.unit, z.setSp v)
  | .setAcc v => .ret (.unit, z.setAcc v)
  | .setFlags f => .ret (.unit, z.setFlags f)
  | .incR => .ret (.unit, z.incR)
  | .addR delta => .ret (.unit, z.addR delta)
  | .setR v => .ret (.unit, z.setR v)
  | .setI v => .ret (.unit, z.setI v)
  | .setIffs a b => .ret (.unit, z.setIffs a b)
  | .doHalt => .ret (.unit, z.doHalt)
  | .setIm m => .ret (.unit, z.setIm m)
  | .exAfAf => .ret (.unit, z.exAfAf)
  | .exx => .ret (.unit, z.exx)
  | .setReg dst p v => .ret (.unit, z.setReg dst p v)
  | .setReg2 src hi lo => .ret (.unit, z.setReg2 src hi lo)
  | .setReg16 src v => .ret (.unit, z.setReg16 src v)
  | .setIndex2 p hi lo => .ret (.unit, z.setIndex2 p hi lo)
  | .setIndex16 p v => .ret (.unit, z.setIndex16 p v)
  | .restoreIff1 => .ret (.unit, z.restoreIff1)
  | .disableInterrupts => .ret (.unit, z.disableInterrupts)
  | .enableInterrupts => .ret (.unit, z.enableInterrupts)
  | .irq deb => (Any.irq deb z).map fun r => (.irq r.1, r.2)
  | .nmi => (Any.nmi z).map fun r => (.bool r.1, r.2)
  | .executeInstruction deb code => (Any.executeInstruction deb code z).map fun r => (.res r.1, r.2)
  | .executeNext deb => (Any.executeNext deb z).map fun r => (.res r.1, r.2)

/-- C36: every method of the wrapper makes the calls, returns the value and changes the state that the
method of the CPU inside does, and the variant stays. -/
theorem C36_method (m : Method) (z : Any) : Method.onAny (σ := σ) m z =
    match z with
    | .nmos c => Any.back .nmos (m.onCpu c)
    | .cmos c => Any.back .cmos (m.onCpu c)
    | .bm1 c => Any.back .bm1 (m.onCpu c) := by
  cases m <;> cases z <;> first
    | rfl
    | (refine (map_map _ _ _).trans (Eq.symm ?_); exact map_map _ _ _)

/-- A sequence of calls of the typed CPU. -/
def runMethods : List Method → Cpu Q → Prog σ (List (Value σ) × Cpu Q)
  | [], c => .ret ([], c)
  | m :: l, c => (m.onCpu c).bind fun r => (runMethods l r.2).map fun s => (r.1 :: s.1, s.2)
/-- A sequence of calls of the wrapper. -/
def runMethodsAny : List Method → Any → Prog σ (List (Value σ) × Any)
  | [], z => .ret ([], z)
  | m :: l, z => (m.onAny z).bind fun r => (runMethodsAny l r.2).map fun s => (r.1 :: s.1, s.2)

theorem map_bind' {α β γ : Type} (p : Prog σ α) (f : α → β) (k : β → Prog σ γ) :
    (p.map f).bind k = p.bind fun a => k (f a) := by
  induction p with
  | ret a => rfl
  | call r g ih => exact congrArg _ (funext ih)

/-- C36: any sequence of calls of methods. -/
theorem C36_methods (l : List Method) (z : Any) : runMethodsAny (σ := σ) l z =
    match z with
    | .nmos c => Any.back .nmos (runMethods l c)
    | .cmos c => Any.back .cmos (runMethods l c)
    | .bm1 c => Any.back .bm1 (runMethods l c) := by
  have key : ∀ {Q : Type} [FlavourSpec Q] (f : Cpu Q → Any),
      (∀ (m : Method) c, Method.onAny (σ := σ) m (f c) = Any.back f (m.onCpu c)) →
      ∀ l c, runMethodsAny (σ := σ) l (f c) = Any.back f (runMethods l c) := by
    intro Q _ f hf l
    induction l with
    | nil => intro c; rfl
    | cons m l ih =>
      intro c
      unfold runMethodsAny runMethods Any.back
      rw [hf, Any.back, map_bind']
      generalize m.onCpu c = p
      induction p with
      | call r k ih2 => exact congrArg _ (funext ih2)
      | ret a =>
        show (runMethodsAny l (f a.2)).map _ = _
        rw [ih, Any.back]
        refine (map_map _ _ _).trans (Eq.symm ?_)
        exact map_map _ _ _
  cases z with
  | nmos c => exact key .nmos (fun m c => C36_method m (.nmos c)) l c
  | cmos c => exact key .cmos (fun m c => C36_method m (.cmos c)) l c
  | bm1 c => exact key .bm1 (fun m c => C36_method m (.bm1 c)) l c

/-- C36: `execute_with_limit`. -/
theorem C36_execute_with_limit (n : Nat) (l : σ.L) (z : Any) : Any.executeWithLimit n l z =
    match z with
    | .nmos c => (executeWithLimit n l c).map fun r => r.map fun r => (r.1, Any.nmos r.2)
    | .cmos c => (executeWithLimit n l c).map fun r => r.map fun r => (r.1, Any.cmos r.2)
    | .bm1 c => (executeWithLimit n l c).map fun r => r.map fun r => (r.1, Any.bm1 r.2) := by
  cases z <;> rfl

/-! ### Conversions -/

/-- The methods that call the host. -/
def Method.calling : Method → Bool
  | .irq _ | .nmi | .executeInstruction _ _ | .executeNext _ => true
  | _ => false

/-- C36: a conversion keeps every register and all of the control state, and converts the memory of
flag changes. -/
theorem C36_conversion (f : Q → Q') (c : Cpu Q) :
    Corr c (c.intoFlavour f) ∧ (c.intoFlavour f).ir = c.ir ∧ (c.intoFlavour f).r = c.r ∧
      (c.intoFlavour f).flavour = f c.flavour :=
  ⟨rfl, rfl, rfl, rfl⟩

/-- C36: conversions commute with all methods that do not call the host: getters return the same,
setters change the same. -/
theorem C36_commute {f : Q → Q'} (hf : ∀ q, f (Flavour.reset q) = Flavour.reset (f q)) (m : Method)
    (hm : m.calling = false) (c : Cpu Q) :
    Method.onCpu (σ := σ) m (c.intoFlavour f) =
      (Method.onCpu (σ := σ) m c).map fun r => (r.1, r.2.intoFlavour f) := by
  have hr : (c.intoFlavour f).reset = c.reset.intoFlavour f := by
    unfold Cpu.reset Cpu.intoFlavour
    dsimp only
    rw [hf]
  cases m with
  | irq | nmi | executeInstruction | executeNext => cases hm
  | reset => exact congrArg (fun x => Prog.ret (Value.unit, x)) hr
  | setReg r p v => cases r <;> rcases p with _ | _ | _ <;> rfl
  | setReg2 r | setReg16 r => cases r <;> rfl
  | setIndex2 p | setIndex16 p => cases p <;> rfl
  | getReg r p => cases r <;> rcases p with _ | _ | _ <;> rfl
  | getReg2 r | getReg16 r | getAltReg2 r | getAltReg16 r => cases r <;> rfl
  | getIndex2 p | getIndex16 p => cases p <;> rfl
  | _ => rfl

/-- The hypothesis of `C36_commute` holds for the conversions of the crate. -/
theorem C36_commute_hyp : (∀ q, NMOS.ofCMOS (Flavour.reset q) = Flavour.reset (NMOS.ofCMOS q)) ∧
    (∀ q, NMOS.ofBM1 (Flavour.reset q) = Flavour.reset (NMOS.ofBM1 q)) ∧
    (∀ q, CMOS.ofNMOS (Flavour.reset q) = Flavour.reset (CMOS.ofNMOS q)) ∧
    (∀ q, CMOS.ofBM1 (Flavour.reset q) = Flavour.reset (CMOS.ofBM1 q)) ∧
    (∀ q, BM1.ofNMOS (Flavour.reset q) = Flavour.reset (BM1.ofNMOS q)) ∧
    (∀ q, BM1.ofCMOS (Flavour.reset q) = Flavour.reset (BM1.ofCMOS q)) :=
  ⟨fun _ => rfl, fun _ => rfl, fun _ => rfl, fun _ => rfl, fun _ => rfl, fun _ => rfl⟩

/-- C36: NMOS to BM1 and back, and BM1 to NMOS and back, change nothing. -/
theorem C36_round_trip (c : Cpu NMOS) (d : Cpu BM1) :
    (c.intoFlavour BM1.ofNMOS).intoFlavour NMOS.ofBM1 = c ∧
    (d.intoFlavour NMOS.ofBM1).intoFlavour BM1.ofNMOS = d := ⟨rfl, rfl⟩

/-- C36: by way of CMOS only the memory of flag changes is lost; CMOS to another flavour and back
changes nothing. -/
theorem C36_by_cmos (c : Cpu NMOS) (d : Cpu BM1) (e : Cpu CMOS) :
    (c.intoFlavour CMOS.ofNMOS).intoFlavour NMOS.ofCMOS = { c with flavour := ⟨false, false⟩ } ∧
    (d.intoFlavour CMOS.ofBM1).intoFlavour BM1.ofCMOS = { d with flavour := ⟨false, false⟩ } ∧
    (e.intoFlavour NMOS.ofCMOS).intoFlavour CMOS.ofNMOS = e ∧
    (e.intoFlavour BM1.ofCMOS).intoFlavour CMOS.ofBM1 = e := ⟨rfl, rfl, rfl, rfl⟩

/-- C36: converted CPUs go on as before: programs without the instructions on which the variants differ
make the same calls with the same results. -/
theorem C36_goes_on (f : Q → Q') {c c' : Cpu Q} {l : List (List (Ev σ) × Res σ)} (h : Plain c l c') :
    ∃ d', Plain (c.intoFlavour f) l d' ∧ Corr c' d' :=
  C34_program h (C36_conversion f c).1

/-! ### Wrapping and unwrapping -/

/-- C36: a CPU put into the wrapper is given back by `unwrap_*` of its own flavour and by conversion,
and `unwrap_*` of another flavour panics; `into_*` makes the wanted variant by conversion. -/
theorem C36_wrap (c : Cpu NMOS) (d : Cpu CMOS) (e : Cpu BM1) :
    ((AnyFlavour.toAny c).unwrapNmos = some c ∧ (AnyFlavour.toAny c).unwrapCmos = none ∧
      (AnyFlavour.toAny c).unwrapBm1 = none ∧ (AnyFlavour.toAny c).toCpu = c) ∧
    ((AnyFlavour.toAny d).unwrapCmos = some d ∧ (AnyFlavour.toAny d).unwrapNmos = none ∧
      (AnyFlavour.toAny d).unwrapBm1 = none ∧ (AnyFlavour.toAny d).toCpu = d) ∧
    ((AnyFlavour.toAny e).unwrapBm1 = some e ∧ (AnyFlavour.toAny e).unwrapNmos = none ∧
      (AnyFlavour.toAny e).unwrapCmos = none ∧ (AnyFlavour.toAny e).toCpu = e) :=
  ⟨⟨rfl, rfl, rfl, rfl⟩, ⟨rfl, rfl, rfl, rfl⟩, ⟨rfl, rfl, rfl, rfl⟩⟩

/-- C36: `into_*` of any variant. -/
theorem C36_into (z : Any) : z.intoNmos = .nmos z.toCpu ∧ z.intoCmos = .cmos z.toCpu ∧
    z.intoBm1 = .bm1 z.toCpu := by
  cases z <;> exact ⟨rfl, rfl, rfl⟩

/-- C36: `is_*` and the tag tell the variant; methods keep it by `C36_method`. -/
theorem C36_is (z : Any) : (z.isNmos = true ↔ ∃ c, z = .nmos c) ∧ (z.isCmos = true ↔ ∃ c, z = .cmos c) ∧
    (z.isBm1 = true ↔ ∃ c, z = .bm1 c) ∧ (z.isNmos = true ↔ z.tag = "NMOS") ∧
    (z.isCmos = true ↔ z.tag = "CMOS") ∧ (z.isBm1 = true ↔ z.tag = "BM1") := by
  cases z <;> simp [Any.isNmos, Any.isCmos, Any.isBm1, Any.tag, Flavour.tag]

/-! ### Tags -/

/-- Letters alike but for the case of ASCII letters. -/
def alike (a b : Char) : Prop :=
  a = b ∨ ('A' ≤ a ∧ a ≤ 'Z' ∧ b.toNat = a.toNat + 32) ∨ ('A' ≤ b ∧ b ≤ 'Z' ∧ a.toNat = b.toNat + 32)

/-- Texts alike but for the case of ASCII letters. -/
def alikeText : List Char → List Char → Prop
  | [], [] => True
  | a :: l, b :: m => alike a b ∧ alikeText l m
  | _, _ => False

theorem toLower_nat (c : Char) :
    c.toLower.toNat = if 65 ≤ c.toNat ∧ c.toNat ≤ 90 then c.toNat + 32 else c.toNat := by
  have h65 : 'A'.val.toNat = 65 := rfl
  have h90 : 'Z'.val.toNat = 90 := rfl
  unfold Char.toLower
  split
  · rename_i h
    obtain ⟨h1, h2⟩ := h
    have h1 : 65 ≤ c.val.toNat := by simpa [UInt32.le_iff_toNat_le] using h1
    have h2 : c.val.toNat ≤ 90 := by simpa [UInt32.le_iff_toNat_le] using h2
    rw [if_pos ⟨h1, h2⟩]
    show (c.val + ('a'.val - 'A'.val)).toNat = _
    rw [UInt32.toNat_add, show ('a'.val - 'A'.val).toNat = 32 from rfl]
    show _ = c.val.toNat + 32
    omega
  · rename_i h
    rw [if_neg]
    intro ⟨h1, h2⟩
    refine h ⟨?_, ?_⟩
    · rw [ge_iff_le, UInt32.le_iff_toNat_le]; exact h1
    · rw [UInt32.le_iff_toNat_le]; exact h2

theorem toLower_alike (a b : Char) : a.toLower = b.toLower ↔ alike a b := by
  have hc : ∀ a b : Char, a = b ↔ a.toNat = b.toNat := fun a b =>
    ⟨fun h => by rw [h], fun h => Char.ext (UInt32.toNat_inj.1 h)⟩
  have hl : ∀ a b : Char, a ≤ b ↔ a.toNat ≤ b.toNat := fun a b => by
    rw [Char.le_def, UInt32.le_iff_toNat_le]; rfl
  unfold alike
  rw [hc, toLower_nat, toLower_nat, hc a b, hl, hl, hl, hl, show 'A'.toNat = 65 from rfl,
    show 'Z'.toNat = 90 from rfl]
  split <;> split <;> omega

theorem lower_alike (l m : List Char) : l.map Char.toLower = m.map Char.toLower ↔ alikeText l m := by
  induction l generalizing m with
  | nil => cases m <;> simp [alikeText]
  | cons a l ih => cases m with
    | nil => simp [alikeText]
    | cons b m => simp [alikeText, ih, toLower_alike]

/-- C36: `with_tag` accepts exactly the three tags in upper or lower case letters and makes a new CPU of
that flavour. -/
theorem C36_with_tag (s : String) (z : Any) : Any.withTag s = some z ↔
    (alikeText s.toList "NMOS".toList ∧ z = .nmos Cpu.new) ∨
    (alikeText s.toList "CMOS".toList ∧ z = .cmos Cpu.new) ∨
    (alikeText s.toList "BM1".toList ∧ z = .bm1 Cpu.new) := by
  have h : ∀ t : String, Any.eqIgnoreAsciiCase s t = true ↔ alikeText s.toList t.toList := fun t => by
    unfold Any.eqIgnoreAsciiCase; rw [beq_iff_eq, lower_alike]
  have hx : ∀ t u : String, t.toList.map Char.toLower ≠ u.toList.map Char.toLower →
      alikeText s.toList t.toList → ¬ alikeText s.toList u.toList := fun t u hn h1 h2 =>
    hn (by rw [← (lower_alike _ _).2 h1, ← (lower_alike _ _).2 h2])
  have n1 := hx "NMOS" "CMOS" (by decide)
  have n2 := hx "NMOS" "BM1" (by decide)
  have n3 := hx "CMOS" "BM1" (by decide)
  rw [← h, ← h] at n1 n2 n3
  rw [← h, ← h, ← h]
  unfold Any.withTag Any.newNmos Any.newCmos Any.newBm1
  generalize Any.eqIgnoreAsciiCase s "NMOS" = x at *
  generalize Any.eqIgnoreAsciiCase s "CMOS" = y at *
  generalize Any.eqIgnoreAsciiCase s "BM1" = w at *
  generalize Any.nmos Cpu.new = a, Any.cmos Cpu.new = b, Any.bm1 Cpu.new = c at *
  cases x <;> cases y <;> cases w <;> first | contradiction | simp [eq_comm] | simp_all

/-- C36: tags round-trip. -/
theorem C36_tags (z : Any) : ∃ y, Any.withTag z.tag = some y ∧ y.tag = z.tag := by
  cases z
  · exact ⟨Any.newNmos, (by decide +kernel : Any.withTag "NMOS" = some Any.newNmos), rfl⟩
  · exact ⟨Any.newCmos, (by decide +kernel : Any.withTag "CMOS" = some Any.newCmos), rfl⟩
  · exact ⟨Any.newBm1, (by decide +kernel : Any.withTag "BM1" = some Any.newBm1), rfl⟩

/-! ### Concrete cases -/

example : Any.withTag "nMoS" = some (.nmos Cpu.new) ∧ Any.withTag "Z80" = none ∧
    Any.withTag "bm1" = some (.bm1 Cpu.new) := by decide +kernel
/-- A conversion by way of CMOS loses the memory of flag changes. -/
example : let c : Cpu NMOS := { (Cpu.new : Cpu NMOS) with flavour := ⟨true, false⟩ }
    (c.intoFlavour CMOS.ofNMOS).intoFlavour NMOS.ofCMOS ≠ c := by decide

end Z80
