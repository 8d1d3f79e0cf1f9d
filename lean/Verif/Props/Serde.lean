import Verif.Proofs.Serde
import Verif.Proofs.Alu

/-!
# C40: serialization

For every format (see `Format`): structures as maps or as sequences, human readable or not, with or
without the length of a sequence known in advance.
-/

namespace Z80.Serde

/-! ### Simple values -/

theorem dePair_word (fmt : Format) (w : U16) : dePair fmt (.int w.toNat) = .ok (.of16 w) := by
  have h1 : (0 : Int) ≤ w.toNat := Int.natCast_nonneg _
  have h2 : (w.toNat : Int) ≤ 65535 := by have := w.isLt; omega
  have h3 : (w.toNat : Int) < 65536 := by omega
  have h4 : BitVec.ofInt 16 (w.toNat : Int) = w := by simp
  unfold dePair
  split
  · simp only [if_pos h1, if_pos h2, h4]
  · simp only [if_pos (And.intro h1 h3), h4]

theorem dePair_pair (fmt : Format) (p : RegPair) : dePair fmt (serPair p) = .ok p := by
  rw [serPair, dePair_word, get16_of16]

theorem deU8_byte (b : U8) : deU8 (.int b.toNat) = .ok b := by
  have h1 : (0 : Int) ≤ b.toNat := Int.natCast_nonneg _
  have h2 : (b.toNat : Int) < 256 := by have := b.isLt; omega
  have h4 : BitVec.ofInt 8 (b.toNat : Int) = b := by simp
  rw [deU8, if_pos ⟨h1, h2⟩, h4]

theorem deMode_ser (fmt : Format) (m : IntMode) : deMode (serMode fmt m) = .ok m := by
  cases m <;> unfold serMode Format.variant <;> cases fmt.human <;> rfl

theorem dePrefix_ser (fmt : Format) (p : Option Prefix) : dePrefix (serPrefix fmt p) = .ok p := by
  rcases p with _ | _ | _ <;> unfold serPrefix Format.variant <;> cases fmt.human <;> rfl

theorem ok_bind {α β : Type} (x : α) (f : α → De β) : ((.ok x : De α) >>= f) = f x := rfl

theorem next_ok {α : Type} {parse : Val → De α} {v : Val} {x : α} (h : parse v = .ok x) (n : Nat)
    (l : List Val) : next parse n (v :: l) = .ok (x, l) := by
  rw [next, h]
  rfl

theorem deGen_ser (fmt : Format) (g : RegPair × RegPair × RegPair) : deGen fmt (serGen fmt g) = .ok g := by
  obtain ⟨a, b, c⟩ := g
  unfold serGen Format.struct
  cases fmt.named with
  | true =>
    simp only [if_true, deGen]
    have h : collect (Ty := fun _ => RegPair) genKeys (fun _ => dePair fmt)
        [("bc", serPair a), ("de", serPair b), ("hl", serPair c)] (fun _ => none) =
        .ok fun | .bc => some a | .de => some b | .hl => some c := by
      rw [collect_iff]
      refine ⟨nofun, (by decide : [GenField.bc, .de, .hl].Nodup), fun _ _ => rfl, fun f => ?_⟩
      cases f
      · exact ⟨a, dePair_pair fmt a, rfl⟩
      · exact ⟨b, dePair_pair fmt b, rfl⟩
      · exact ⟨c, dePair_pair fmt c, rfl⟩
    rw [h]
    rfl
  | false =>
    simp only [Bool.false_eq_true, if_false, deGen, List.map, next_ok (dePair_pair fmt _), ok_bind]
    rfl

theorem deIdx_ser (fmt : Format) (g : RegPair × RegPair) : deIdx fmt (serIdx fmt g) = .ok g := by
  obtain ⟨a, b⟩ := g
  unfold serIdx Format.struct
  cases fmt.named with
  | true =>
    simp only [if_true, deIdx]
    have h : collect (Ty := fun _ => RegPair) idxKeys (fun _ => dePair fmt)
        [("ix", serPair a), ("iy", serPair b)] (fun _ => none) =
        .ok fun | .ix => some a | .iy => some b := by
      rw [collect_iff]
      refine ⟨nofun, (by decide : [IdxField.ix, .iy].Nodup), fun _ _ => rfl, fun f => ?_⟩
      cases f
      · exact ⟨a, dePair_pair fmt a, rfl⟩
      · exact ⟨b, dePair_pair fmt b, rfl⟩
    rw [h]
    rfl
  | false =>
    simp only [Bool.false_eq_true, if_false, deIdx, List.map, next_ok (dePair_pair fmt _), ok_bind]
    rfl

theorem deHist_ser (fmt : Format) (h : Bool × Bool) : deHist (serHist fmt h) = .ok h := by
  obtain ⟨a, b⟩ := h
  unfold serHist Format.struct
  cases fmt.named <;> rfl

/-! ### The CPU -/

/-- No panic. -/
def Calm {α : Type} (x : De α) : Prop := x ≠ .error .panic

theorem calm_ok {α : Type} (x : α) : Calm (.ok x) := nofun

theorem calm_error {α : Type} {e : DeErr} (h : e ≠ .panic) : Calm (.error e : De α) :=
  fun he => h (Except.error.inj he)

theorem calm_bind {α β : Type} {x : De α} {f : α → De β} (hx : Calm x) (hf : ∀ a, Calm (f a)) :
    Calm (x >>= f) := by
  cases x with
  | ok a => exact hf a
  | error e => exact calm_error fun he => hx (congrArg _ he)

theorem calm_map {α β : Type} {x : De α} {f : α → β} (hx : Calm x) : Calm (x.map f) := by
  cases x with
  | ok a => exact calm_ok _
  | error e => exact calm_error fun he => hx (congrArg _ he)

theorem calm_bool (v : Val) : Calm (deBool v) := by
  cases v <;> first | exact calm_ok _ | exact calm_error nofun

theorem calm_str (v : Val) : Calm (deStr v) := by
  cases v <;> first | exact calm_ok _ | exact calm_error nofun

theorem calm_u8 (v : Val) : Calm (deU8 v) := by
  unfold deU8
  split
  · split
    · exact calm_ok _
    · exact calm_error nofun
  · exact calm_error nofun

theorem calm_pair (fmt : Format) (v : Val) : Calm (dePair fmt v) := by
  unfold dePair
  repeat' split
  all_goals first
    | exact calm_ok _
    | exact calm_error nofun
    | exact calm_bind (calm_u8 _) fun _ => calm_error nofun
    | exact calm_bind (calm_u8 _) fun _ => calm_bind (calm_u8 _) fun _ => calm_ok _
    | exact calm_bind (calm_u8 _) fun _ => calm_bind (calm_u8 _) fun _ => calm_bind (calm_u8 _) fun _ =>
        calm_error nofun

theorem calm_variant {α : Type} (l : List (String × α)) (v : Val) : Calm (deVariant l v) := by
  unfold deVariant
  repeat' split
  all_goals first
    | exact calm_ok _
    | exact calm_error nofun

theorem calm_prefix (v : Val) : Calm (dePrefix v) := by
  unfold dePrefix
  split
  · exact calm_ok _
  · exact calm_map (calm_variant _ _)

theorem calm_collect {F : Type} [DecidableEq F] {Ty : F → Type} {k : Keys F}
    {parse : (f : F) → Val → De (Ty f)} (hp : ∀ f v, Calm (parse f v)) (l : List (String × Val))
    (p : Slots Ty) : Calm (collect k parse l p) := by
  induction l generalizing p with
  | nil => exact calm_ok _
  | cons e l ih =>
    unfold collect
    split
    · split
      · exact calm_error nofun
      · exact ih _
    · split
      · exact calm_error nofun
      · exact calm_bind (hp _ _) fun x => ih _

theorem calm_need {α : Type} (s : String) (o : Option α) : Calm (need s o) := by
  cases o
  · exact calm_error nofun
  · exact calm_ok _

theorem calm_next {α : Type} {parse : Val → De α} (hp : ∀ v, Calm (parse v)) (n : Nat) (l : List Val) :
    Calm (next parse n l) := by
  cases l
  · exact calm_error nofun
  · exact calm_bind (hp _) fun _ => calm_ok _

theorem calm_nextOr {α : Type} {parse : Val → De α} (hp : ∀ v, Calm (parse v)) (d : α) (l : List Val) :
    Calm (nextOr parse d l) := by
  cases l
  · exact calm_ok _
  · exact calm_bind (hp _) fun _ => calm_ok _

theorem calm_finish {α : Type} (n : Nat) (x : α) (l : List Val) : Calm (finish n x l) := by
  cases l
  · exact calm_ok _
  · exact calm_error nofun

theorem calm_gen (fmt : Format) (v : Val) : Calm (deGen fmt v) := by
  unfold deGen
  split
  · exact calm_bind (calm_collect (fun _ => calm_pair fmt) _ _) fun _ => calm_bind (calm_need _ _) fun _ =>
      calm_bind (calm_need _ _) fun _ => calm_bind (calm_need _ _) fun _ => calm_ok _
  · exact calm_bind (calm_next (calm_pair fmt) _ _) fun _ => calm_bind (calm_next (calm_pair fmt) _ _) fun _ =>
      calm_bind (calm_next (calm_pair fmt) _ _) fun _ => calm_finish _ _ _
  · exact calm_error nofun

theorem calm_idx (fmt : Format) (v : Val) : Calm (deIdx fmt v) := by
  unfold deIdx
  split
  · exact calm_bind (calm_collect (fun _ => calm_pair fmt) _ _) fun _ => calm_bind (calm_need _ _) fun _ =>
      calm_bind (calm_need _ _) fun _ => calm_ok _
  · exact calm_bind (calm_next (calm_pair fmt) _ _) fun _ => calm_bind (calm_next (calm_pair fmt) _ _) fun _ =>
      calm_finish _ _ _
  · exact calm_error nofun

theorem calm_hist (v : Val) : Calm (deHist v) := by
  unfold deHist
  split
  · exact calm_bind (calm_collect (fun _ => calm_bool) _ _) fun _ => calm_ok _
  · exact calm_bind (calm_nextOr calm_bool _ _) fun _ => calm_bind (calm_nextOr calm_bool _ _) fun _ =>
      calm_finish _ _ _
  · exact calm_error nofun

/-- What the three flavours have in common: each is made from the history of flag changes that `NMOS`
stores, nothing stored meaning that no flag was changed. -/
class Lawful (Q : Type) extends Flavour Q, AnyFlavour Q, SerFlavour Q where
  calm : ∀ v, SerFlavour.de (Q := Q) v ≠ .error .panic
  de_hist : ∀ fmt (h : NMOS), SerFlavour.de (SerFlavour.ser fmt h) = .ok (AnyFlavour.ofNMOS h : Q)
  build_tag : ∀ c : Cpu (Option NMOS), build (Flavour.tag Q) c =
    .ok (AnyFlavour.toAny (c.intoFlavour fun h => (AnyFlavour.ofNMOS (h.getD ⟨false, false⟩) : Q)))
  unwrap_toAny : ∀ c : Cpu Q, AnyFlavour.unwrap (AnyFlavour.toAny c) = some c
  of_CMOS : ∀ q, (AnyFlavour.ofNMOS (NMOS.ofCMOS q) : Q) = AnyFlavour.ofCMOS q
  of_BM1 : ∀ q, (AnyFlavour.ofNMOS (NMOS.ofBM1 q) : Q) = AnyFlavour.ofBM1 q
  toCpu_toAny : ∀ c : Cpu Q, (AnyFlavour.toAny c).toCpu = c
  ser_toAny : ∀ fmt (c : Cpu Q), serAny fmt (AnyFlavour.toAny c) = serCpu fmt c

theorem de_hist_NMOS (fmt : Format) (h : NMOS) :
    SerFlavour.de (SerFlavour.ser fmt h) = .ok h := by
  show (deHist (serHist fmt _)).map _ = _
  rw [deHist_ser]
  rfl

instance : Lawful NMOS where
  calm v := calm_map (calm_hist v)
  de_hist := de_hist_NMOS
  build_tag c := by
    unfold build
    rw [if_pos (by decide)]
    rfl
  unwrap_toAny _ := rfl
  of_CMOS _ := rfl
  of_BM1 _ := rfl
  toCpu_toAny _ := rfl
  ser_toAny _ _ := rfl

instance : Lawful CMOS where
  calm v := calm_map (calm_map (calm_hist v))
  de_hist fmt h := by
    show (SerFlavour.de (SerFlavour.ser fmt h)).map CMOS.ofNMOS = _
    rw [de_hist_NMOS]
    rfl
  build_tag c := by
    unfold build
    rw [if_neg (by decide), if_pos (by decide)]
    rfl
  unwrap_toAny _ := rfl
  of_CMOS _ := rfl
  of_BM1 _ := rfl
  toCpu_toAny _ := rfl
  ser_toAny _ _ := rfl

instance : Lawful BM1 where
  calm v := calm_map (calm_hist v)
  de_hist fmt h := by
    show (deHist (serHist fmt _)).map _ = _
    rw [deHist_ser]
    rfl
  build_tag c := by
    unfold build
    rw [if_neg (by decide), if_neg (by decide), if_pos (by decide)]
    rcases c with ⟨⟩
    rename_i o
    cases o <;> rfl
  unwrap_toAny _ := rfl
  of_CMOS _ := rfl
  of_BM1 _ := rfl
  toCpu_toAny _ := rfl
  ser_toAny _ _ := rfl

/-- The fields of a CPU, its flavour turned into the one that is stored. -/
def fields (fmt : Format) (tag : String) (c : Cpu NMOS) : List (String × Val) := [
    ("type", .str tag),
    ("af", serPair c.af),
    ("afAlt", serPair c.afAlt),
    ("regs", serGen fmt (c.bc, c.de, c.hl)),
    ("regsAlt", serGen fmt (c.bcAlt, c.deAlt, c.hlAlt)),
    ("index", serIdx fmt (c.ix, c.iy)),
    ("pc", .int c.pc.toNat),
    ("sp", .int c.sp.toNat),
    ("memptr", .int c.memptr.toNat),
    ("lastEi", .bool c.lastEi),
    ("ir", serPair c.ir),
    ("im", serMode fmt c.im),
    ("iff1", .bool c.iff1),
    ("iff2", .bool c.iff2),
    ("halt", .bool c.halt),
    ("prefix", serPrefix fmt c.pfx),
    ("r", .int c.r.toNat),
    ("flavour", SerFlavour.ser fmt c.flavour)]

theorem serAny_eq (fmt : Format) (z : Any) : serAny fmt z = fmt.struct (fields fmt z.tag z.toCpu) := by
  cases z <;> rfl

/-- The variables after reading the fields. -/
def slots (tag : String) (c : Cpu NMOS) : Slots Field.Ty
  | .type => some tag
  | .af => some c.af
  | .afAlt => some c.afAlt
  | .regs => some (c.bc, c.de, c.hl)
  | .regsAlt => some (c.bcAlt, c.deAlt, c.hlAlt)
  | .index => some (c.ix, c.iy)
  | .pc => some (.of16 c.pc)
  | .sp => some (.of16 c.sp)
  | .memptr => some (.of16 c.memptr)
  | .lastEi => some c.lastEi
  | .ir => some c.ir
  | .im => some c.im
  | .iff1 => some c.iff1
  | .iff2 => some c.iff2
  | .halt => some c.halt
  | .pfx => some c.pfx
  | .r => some c.r
  | .flavour => some c.flavour

theorem collect_fields (fmt : Format) (tag : String) (c : Cpu NMOS) :
    collect cpuKeys (Field.parse fmt) (fields fmt tag c) (fun _ => none) = .ok (slots tag c) := by
  rw [collect_iff]
  refine ⟨fun _ e he => ?_, (by decide : [Field.type, .af, .afAlt, .regs, .regsAlt, .index, .pc, .sp,
    .memptr, .lastEi, .ir, .im, .iff1, .iff2, .halt, .pfx, .r, .flavour].Nodup), fun _ _ => rfl, fun f => ?_⟩
  · have : ((fields fmt tag c).map (·.1)).all (fun s => (fieldOf s).isSome) = true :=
      (by decide : ["type", "af", "afAlt", "regs", "regsAlt", "index", "pc", "sp", "memptr", "lastEi", "ir",
        "im", "iff1", "iff2", "halt", "prefix", "r", "flavour"].all (fun s => (fieldOf s).isSome) = true)
    rw [List.all_eq_true] at this
    exact this e.1 (List.mem_map_of_mem he)
  · cases f
    · exact ⟨tag, rfl, rfl⟩
    · exact ⟨_, dePair_pair fmt _, rfl⟩
    · exact ⟨_, dePair_pair fmt _, rfl⟩
    · exact ⟨_, deGen_ser fmt _, rfl⟩
    · exact ⟨_, deGen_ser fmt _, rfl⟩
    · exact ⟨_, deIdx_ser fmt _, rfl⟩
    · exact ⟨_, dePair_word fmt _, rfl⟩
    · exact ⟨_, dePair_word fmt _, rfl⟩
    · exact ⟨_, dePair_word fmt _, rfl⟩
    · exact ⟨_, rfl, rfl⟩
    · exact ⟨_, dePair_pair fmt _, rfl⟩
    · exact ⟨_, deMode_ser fmt _, rfl⟩
    · exact ⟨_, rfl, rfl⟩
    · exact ⟨_, rfl, rfl⟩
    · exact ⟨_, rfl, rfl⟩
    · exact ⟨_, dePrefix_ser fmt _, rfl⟩
    · exact ⟨c.r, deU8_byte c.r, rfl⟩
    · exact ⟨_, de_hist_NMOS fmt _, rfl⟩

theorem assemble_slots (tag : String) (c : Cpu NMOS) :
    assemble (slots tag c) = .ok (c.intoFlavour some, some tag) := by
  unfold assemble slots
  simp only [need, ok_bind, Option.getD, of16_get16]
  rfl

theorem visitSeq_fields {Q : Type} [Lawful Q] (fmt : Format) (n : Nat) (tag : String) (c : Cpu NMOS) :
    visitSeq fmt n ((fields fmt tag c).tail.map (·.2)) =
      .ok (c.intoFlavour (AnyFlavour.ofNMOS : NMOS → Q)) := by
  unfold visitSeq fields
  simp only [List.tail, List.map, next_ok (dePair_pair fmt _), next_ok (dePair_word fmt _), ok_bind,
    next_ok (deGen_ser fmt _), next_ok (deIdx_ser fmt _), next_ok (deMode_ser fmt _),
    next_ok (dePrefix_ser fmt _), next_ok (deU8_byte _), next_ok (Lawful.de_hist fmt _), of16_get16,
    next_ok (show deBool (.bool _) = .ok _ from rfl), finish]
  rfl

theorem hint_fields (fmt : Format) (tag : String) (c : Cpu NMOS) :
    fmt.sizeHint ((fields fmt tag c).map (·.2)) ≠ some 17 := by
  unfold Format.sizeHint
  split
  · exact fun h => absurd (Option.some.inj h) (by decide : (18 : Nat) ≠ 17)
  · nofun

theorem tag_known (z : Any) : z.tag = "NMOS" ∨ z.tag = "CMOS" ∨ z.tag = "BM1" := by
  cases z
  · exact .inl rfl
  · exact .inr (.inl rfl)
  · exact .inr (.inr rfl)

/-! ### Round trips -/

/-- C40: a CPU of any flavour that was stored and loaded as `Z80Any` is the same as before: its
flavour, all registers, flip-flops, the state between instructions and the history of flag changes. -/
theorem C40_round_trip_any (fmt : Format) (z : Any) : deAny fmt (serAny fmt z) = .ok z := by
  rw [serAny_eq]
  unfold Format.struct
  split
  · show visitMap fmt _ none = _
    unfold visitMap
    rw [collect_fields, ok_bind, assemble_slots]
    cases z
    · exact Lawful.build_tag (Q := NMOS) _
    · exact Lawful.build_tag (Q := CMOS) _
    · exact Lawful.build_tag (Q := BM1) _
  · show (if _ then _ else _) = _
    rw [if_neg (hint_fields fmt _ _)]
    show (next deStr 0 (.str z.tag :: (fields fmt z.tag z.toCpu).tail.map (·.2)) >>= _) = _
    rw [next_ok (show deStr (.str z.tag) = .ok z.tag from rfl), ok_bind]
    dsimp only
    rw [visitSeq_fields, visitSeq_fields, visitSeq_fields]
    cases z <;> rfl

theorem toCpu_by {Q : Type} [Lawful Q] (z : Any) :
    (z.toCpu : Cpu NMOS).intoFlavour (AnyFlavour.ofNMOS : NMOS → Q) = z.toCpu := by
  cases z with
  | nmos c => rfl
  | cmos c =>
    unfold Any.toCpu Cpu.intoFlavour
    dsimp only
    congr 1
    exact Lawful.of_CMOS c.flavour
  | bm1 c =>
    unfold Any.toCpu Cpu.intoFlavour
    dsimp only
    congr 1
    exact Lawful.of_BM1 c.flavour

/-- C40: whatever flavour was stored, it can be loaded as any other: the result is that of converting
the CPU. -/
theorem C40_convert {Q : Type} [Lawful Q] (fmt : Format) (z : Any) :
    deCpu fmt (serAny fmt z) = .ok (z.toCpu : Cpu Q) := by
  rw [serAny_eq]
  unfold Format.struct
  split
  · show (visitMap fmt _ (some (Flavour.tag Q)) >>= _) = _
    unfold visitMap
    rw [collect_fields, ok_bind, assemble_slots, ok_bind]
    dsimp only [Option.getD]
    rw [Lawful.build_tag, ok_bind, Lawful.unwrap_toAny]
    show Except.ok (z.toCpu.intoFlavour (AnyFlavour.ofNMOS : NMOS → Q)) = _
    rw [toCpu_by]
  · show (if _ then _ else _) = _
    rw [if_neg (hint_fields fmt _ _)]
    show (next deStr 0 (.str z.tag :: (fields fmt z.tag z.toCpu).tail.map (·.2)) >>= _) = _
    rw [next_ok (show deStr (.str z.tag) = .ok z.tag from rfl), ok_bind]
    dsimp only
    rw [visitSeq_fields, if_pos (tag_known z), toCpu_by]

/-- C40: a CPU that was stored and loaded as `Z80<Q>` is the same as before. -/
theorem C40_round_trip {Q : Type} [Lawful Q] (fmt : Format) (c : Cpu Q) :
    deCpu fmt (serCpu fmt c) = .ok c := by
  rw [← Lawful.ser_toAny, C40_convert, Lawful.toCpu_toAny]

/-- The theorems apply to the three flavours. -/
example (fmt : Format) (a : Cpu NMOS) (b : Cpu CMOS) (c : Cpu BM1) :
    deCpu fmt (serCpu fmt a) = .ok a ∧ deCpu fmt (serCpu fmt b) = .ok b ∧
      deCpu fmt (serCpu fmt c) = .ok c :=
  ⟨C40_round_trip fmt a, C40_round_trip fmt b, C40_round_trip fmt c⟩

/-! ### Maps -/

/-- The map has a key for the field, with the value `x`. -/
def Has (fmt : Format) (l : List (String × Val)) (f : Field) (x : f.Ty) : Prop :=
  ∃ s v, (s, v) ∈ l ∧ fieldOf s = some f ∧ f.parse fmt v = .ok x

/-- The map has no key for the field. -/
def Lacks (l : List (String × Val)) (f : Field) : Prop := ∀ s v, (s, v) ∈ l → fieldOf s ≠ some f

/-- The map has the value `x` for the field, or no value and `x` is the default. -/
def HasOr (fmt : Format) (l : List (String × Val)) (f : Field) (d x : f.Ty) : Prop :=
  Has fmt l f x ∨ Lacks l f ∧ x = d

/-- The map describes the CPU `c` of the flavour named `t`: every key is known, none is there twice, those
of the required fields have these values, and those of the others have them or are left out. -/
structure Describes (fmt : Format) (l : List (String × Val)) (t : String) (c : Cpu NMOS) : Prop where
  known : ∀ e ∈ l, (fieldOf e.1).isSome
  once : (l.filterMap fun e => fieldOf e.1).Nodup
  type : HasOr fmt l .type "NMOS" t
  af : Has fmt l .af c.af
  afAlt : Has fmt l .afAlt c.afAlt
  regs : Has fmt l .regs (c.bc, c.de, c.hl)
  regsAlt : Has fmt l .regsAlt (c.bcAlt, c.deAlt, c.hlAlt)
  index : Has fmt l .index (c.ix, c.iy)
  pc : Has fmt l .pc (.of16 c.pc)
  sp : Has fmt l .sp (.of16 c.sp)
  memptr : HasOr fmt l .memptr ⟨0, 0⟩ (.of16 c.memptr)
  lastEi : Has fmt l .lastEi c.lastEi
  ir : Has fmt l .ir c.ir
  im : Has fmt l .im c.im
  iff1 : Has fmt l .iff1 c.iff1
  iff2 : Has fmt l .iff2 c.iff2
  halt : Has fmt l .halt c.halt
  pfx : Has fmt l .pfx c.pfx
  r : HasOr fmt l .r c.ir.lo c.r
  flavour : HasOr fmt l .flavour ⟨false, false⟩ c.flavour

/-- The variables after reading a map whose values can all be read. -/
def got (fmt : Format) (l : List (String × Val)) : Slots Field.Ty := fun f =>
  match value cpuKeys f l with
  | none => none
  | some v => match f.parse fmt v with | .ok x => some x | .error _ => none

theorem value_mem {f : Field} {l : List (String × Val)} {v : Val} (h : value cpuKeys f l = some v) :
    ∃ s, (s, v) ∈ l ∧ fieldOf s = some f := by
  unfold value at h
  rw [Option.map_eq_some_iff] at h
  obtain ⟨e, he, rfl⟩ := h
  have hd := List.find?_some he
  exact ⟨e.1, List.mem_of_find?_eq_some he, of_decide_eq_true hd⟩

theorem mem_value {f : Field} {l : List (String × Val)} (hn : (fieldsOf cpuKeys l).Nodup) {s : String}
    {v : Val} (h : (s, v) ∈ l) (hs : fieldOf s = some f) : value cpuKeys f l = some v := by
  induction l with
  | nil => nomatch h
  | cons e l ih =>
    rw [value_cons]
    rcases List.mem_cons.1 h with rfl | h
    · exact if_pos hs
    · have hm : f ∈ fieldsOf cpuKeys l := by
        unfold fieldsOf
        exact List.mem_filterMap.2 ⟨_, h, hs⟩
      unfold fieldsOf at hn hm
      rw [List.filterMap_cons] at hn
      cases he : fieldOf e.1 with
      | none =>
        rw [show cpuKeys.of e.1 = none from he] at hn
        rw [if_neg (by rw [show cpuKeys.of e.1 = none from he]; nofun)]
        exact ih hn h
      | some g =>
        rw [show cpuKeys.of e.1 = some g from he] at hn
        rw [if_neg]
        · exact ih (List.nodup_cons.1 hn).2 h
        · rw [show cpuKeys.of e.1 = some g from he]
          intro hg
          exact (List.nodup_cons.1 hn).1 ((Option.some.inj hg) ▸ hm)

theorem got_has {fmt : Format} {f : Field} {l : List (String × Val)} (hn : (fieldsOf cpuKeys l).Nodup)
    {x : f.Ty} (h : Has fmt l f x) : got fmt l f = some x := by
  obtain ⟨s, v, hm, hs, hp⟩ := h
  unfold got
  rw [mem_value hn hm hs]
  dsimp only
  rw [hp]

theorem got_lacks {fmt : Format} {f : Field} {l : List (String × Val)} (h : Lacks l f) :
    got fmt l f = none := by
  unfold got
  cases hv : value cpuKeys f l with
  | none => rfl
  | some v =>
    obtain ⟨s, hm, hs⟩ := value_mem hv
    exact absurd hs (h s v hm)

theorem has_got {fmt : Format} {f : Field} {l : List (String × Val)} {x : f.Ty}
    (h : got fmt l f = some x) : Has fmt l f x := by
  unfold got at h
  cases hv : value cpuKeys f l with
  | none => rw [hv] at h; nomatch h
  | some v =>
    obtain ⟨s, hm, hs⟩ := value_mem hv
    rw [hv] at h
    dsimp only at h
    cases hp : f.parse fmt v with
    | error e => rw [hp] at h; nomatch h
    | ok y =>
      rw [hp] at h
      exact ⟨s, v, hm, hs, by rw [hp, Option.some.inj h]⟩

/-- Every value of the map can be read. -/
def Readable (fmt : Format) (l : List (String × Val)) : Prop :=
  ∀ f v, value cpuKeys f l = some v → ∃ x, f.parse fmt v = .ok x

theorem lacks_got {fmt : Format} {f : Field} {l : List (String × Val)} (hr : Readable fmt l)
    (h : got fmt l f = none) : Lacks l f := by
  unfold got at h
  cases hv : value cpuKeys f l with
  | none =>
    intro s v hm hs
    rw [value_none] at hv
    exact hv (List.mem_filterMap.2 ⟨_, hm, hs⟩)
  | some v =>
    obtain ⟨x, hx⟩ := hr f v hv
    rw [hv] at h
    dsimp only at h
    rw [hx] at h
    nomatch h

theorem collect_got (fmt : Format) (l : List (String × Val)) (p : Slots Field.Ty) :
    collect cpuKeys (Field.parse fmt) l (fun _ => none) = .ok p ↔
      (∀ e ∈ l, (fieldOf e.1).isSome) ∧ (fieldsOf cpuKeys l).Nodup ∧ Readable fmt l ∧ p = got fmt l := by
  rw [collect_iff]
  constructor
  · rintro ⟨h1, h2, -, h4⟩
    refine ⟨h1 rfl, h2, fun f v hv => ?_, funext fun f => ?_⟩
    · have := h4 f
      rw [hv] at this
      obtain ⟨y, hy, -⟩ := this
      exact ⟨y, hy⟩
    · have := h4 f
      unfold got
      cases hv : value cpuKeys f l with
      | none => rw [hv] at this; exact this
      | some v =>
        rw [hv] at this
        obtain ⟨y, hy, e⟩ := this
        dsimp only
        rw [hy, e]
  · rintro ⟨h1, h2, h3, rfl⟩
    refine ⟨fun _ => h1, h2, fun _ _ => rfl, fun f => ?_⟩
    unfold got
    cases hv : value cpuKeys f l with
    | none => rfl
    | some v =>
      obtain ⟨x, hx⟩ := h3 f v hv
      dsimp only
      rw [hx]
      exact ⟨x, hx, rfl⟩

theorem need_iff {α β : Type} {s : String} {o : Option α} {f : α → De β} {y : β} :
    (need s o >>= f) = .ok y ↔ ∃ x, o = some x ∧ f x = .ok y := by
  cases o with
  | none => exact ⟨nofun, fun ⟨_, h, _⟩ => nomatch h⟩
  | some x => exact ⟨fun h => ⟨x, rfl, h⟩, fun ⟨_, h, h'⟩ => by cases h; exact h'⟩

theorem ok_inj {α : Type} {x y : α} (h : (.ok x : De α) = .ok y) : x = y := Except.ok.inj h

theorem describes_iff (fmt : Format) (l : List (String × Val)) (t : String) (c : Cpu NMOS) :
    (∃ p c' t', collect cpuKeys (Field.parse fmt) l (fun _ => none) = .ok p ∧ assemble p = .ok (c', t') ∧
      t'.getD "NMOS" = t ∧ c'.intoFlavour (fun h => h.getD ⟨false, false⟩) = c) ↔ Describes fmt l t c := by
  constructor
  · rintro ⟨p, c', t', hp, ha, rfl, rfl⟩
    obtain ⟨h1, h2, h3, rfl⟩ := (collect_got fmt l p).1 hp
    have opt : ∀ (f : Field) (d : f.Ty), HasOr fmt l f d ((got fmt l f).getD d) := by
      intro f d
      cases h : got fmt l f with
      | none => exact .inr ⟨lacks_got h3 h, rfl⟩
      | some x => exact .inl (has_got h)
    unfold assemble at ha
    simp only [need_iff] at ha
    obtain ⟨af, e1, afAlt, e2, regs, e3, regsAlt, e4, index, e5, pc, e6, sp, e7, lastEi, e8, ir, e9, im, e10,
      iff1, e11, iff2, e12, halt, e13, pfx, e14, e⟩ := ha
    cases ok_inj e
    exact {
      known := h1, once := h2, type := opt .type "NMOS", af := has_got e1, afAlt := has_got e2
      regs := has_got e3, regsAlt := has_got e4, index := has_got e5
      pc := has_got (by rw [e6]; exact congrArg some (get16_of16 _).symm)
      sp := has_got (by rw [e7]; exact congrArg some (get16_of16 _).symm)
      memptr := by
        have := opt .memptr ⟨0, 0⟩
        rw [← get16_of16 ((got fmt l .memptr).getD ⟨0, 0⟩)] at this
        exact this
      lastEi := has_got e8, ir := has_got e9, im := has_got e10, iff1 := has_got e11
      iff2 := has_got e12, halt := has_got e13, pfx := has_got e14, r := opt .r ir.lo
      flavour := opt .flavour ⟨false, false⟩ }
  · intro h
    have hn : (fieldsOf cpuKeys l).Nodup := h.once
    have rd : ∀ f x, Has fmt l f x → ∀ v, value cpuKeys f l = some v → ∃ x, f.parse fmt v = .ok x := by
      rintro f x ⟨s, v', hm, hs, hp⟩ v hv
      rw [mem_value hn hm hs] at hv
      cases hv
      exact ⟨x, hp⟩
    have rd' : ∀ f d x, HasOr fmt l f d x → ∀ v, value cpuKeys f l = some v → ∃ x, f.parse fmt v = .ok x := by
      rintro f d x (hx | ⟨hx, -⟩) v hv
      · exact rd f x hx v hv
      · obtain ⟨s, hm, hs⟩ := value_mem hv
        exact absurd hs (hx s v hm)
    have hr : Readable fmt l := by
      intro f
      cases f
      · exact rd' _ _ _ h.type
      · exact rd _ _ h.af
      · exact rd _ _ h.afAlt
      · exact rd _ _ h.regs
      · exact rd _ _ h.regsAlt
      · exact rd _ _ h.index
      · exact rd _ _ h.pc
      · exact rd _ _ h.sp
      · exact rd' _ _ _ h.memptr
      · exact rd _ _ h.lastEi
      · exact rd _ _ h.ir
      · exact rd _ _ h.im
      · exact rd _ _ h.iff1
      · exact rd _ _ h.iff2
      · exact rd _ _ h.halt
      · exact rd _ _ h.pfx
      · exact rd' _ _ _ h.r
      · exact rd' _ _ _ h.flavour
    have opt : ∀ (f : Field) (d x : f.Ty), HasOr fmt l f d x → (got fmt l f).getD d = x := by
      rintro f d x (hx | ⟨hx, rfl⟩)
      · rw [got_has hn hx]
        rfl
      · rw [got_lacks hx]
        rfl
    refine ⟨got fmt l, { c with flavour := got fmt l .flavour }, got fmt l .type,
      (collect_got fmt l _).2 ⟨h.known, hn, hr, rfl⟩, ?_, opt .type _ _ h.type, ?_⟩
    · unfold assemble
      rw [got_has hn h.af, got_has hn h.afAlt, got_has hn h.regs, got_has hn h.regsAlt, got_has hn h.index,
        got_has hn h.pc, got_has hn h.sp, got_has hn h.lastEi, got_has hn h.ir, got_has hn h.im,
        got_has hn h.iff1, got_has hn h.iff2, got_has hn h.halt, got_has hn h.pfx, opt .memptr _ _ h.memptr]
      simp only [need, ok_bind, of16_get16]
      rw [opt .r _ _ h.r]
    · unfold Cpu.intoFlavour
      dsimp only
      rw [opt .flavour _ _ h.flavour]

theorem visitMap_iff (fmt : Format) (l : List (String × Val)) (force : Option String) (z : Any) :
    visitMap fmt l force = .ok z ↔ ∃ t c, Describes fmt l t c ∧
      build (force.getD t) (c.intoFlavour some) = .ok z := by
  have hb : ∀ (s : String) (c : Cpu (Option NMOS)),
      build s ((c.intoFlavour fun h => h.getD ⟨false, false⟩).intoFlavour some) = build s c := by
    intro s c
    rcases c with ⟨⟩
    rename_i o
    cases o <;> rfl
  have hd := describes_iff fmt l
  unfold visitMap
  constructor
  · intro h
    cases hp : collect cpuKeys (Field.parse fmt) l (fun _ => none) with
    | error e => rw [hp] at h; nomatch h
    | ok p =>
      rw [hp, ok_bind] at h
      cases ha : assemble p with
      | error e => rw [ha] at h; nomatch h
      | ok r =>
        obtain ⟨c', t'⟩ := r
        rw [ha, ok_bind] at h
        exact ⟨_, _, (hd _ _).1 ⟨p, c', t', hp, ha, rfl, rfl⟩, by rw [hb]; exact h⟩
  · rintro ⟨t, c, h, hz⟩
    obtain ⟨p, c', t', hp, ha, rfl, rfl⟩ := (hd _ _).2 h
    rw [hp, ok_bind, ha, ok_bind]
    rw [hb] at hz
    exact hz

/-- C40: which maps can be loaded as `Z80Any`, and as what. -/
theorem C40_map_any (fmt : Format) (l : List (String × Val)) (z : Any) :
    deAny fmt (.map l) = .ok z ↔ ∃ t c, Describes fmt l t c ∧
      (t = "NMOS" ∧ z = .nmos c ∨ t = "CMOS" ∧ z = .cmos (c.intoFlavour CMOS.ofNMOS) ∨
        t = "BM1" ∧ z = .bm1 (c.intoFlavour BM1.ofNMOS)) := by
  show visitMap fmt l none = _ ↔ _
  rw [visitMap_iff]
  refine exists_congr fun t => exists_congr fun c => and_congr_right fun _ => ?_
  show build t _ = _ ↔ _
  unfold build
  by_cases h1 : t = "NMOS"
  · subst h1
    rw [if_pos rfl]
    exact ⟨fun h => .inl ⟨rfl, (ok_inj h).symm⟩, by
      rintro (⟨-, rfl⟩ | ⟨h, -⟩ | ⟨h, -⟩)
      · rfl
      · exact absurd h (by decide)
      · exact absurd h (by decide)⟩
  rw [if_neg h1]
  by_cases h2 : t = "CMOS"
  · subst h2
    rw [if_pos rfl]
    exact ⟨fun h => .inr (.inl ⟨rfl, (ok_inj h).symm⟩), by
      rintro (⟨h, -⟩ | ⟨-, rfl⟩ | ⟨h, -⟩)
      · exact absurd h (by decide)
      · rfl
      · exact absurd h (by decide)⟩
  rw [if_neg h2]
  by_cases h3 : t = "BM1"
  · subst h3
    rw [if_pos rfl]
    exact ⟨fun h => .inr (.inr ⟨rfl, (ok_inj h).symm⟩), by
      rintro (⟨h, -⟩ | ⟨h, -⟩ | ⟨-, rfl⟩)
      · exact absurd h (by decide)
      · exact absurd h (by decide)
      · rfl⟩
  rw [if_neg h3]
  exact ⟨nofun, by
    rintro (⟨h, -⟩ | ⟨h, -⟩ | ⟨h, -⟩)
    · exact absurd h h1
    · exact absurd h h2
    · exact absurd h h3⟩

/-- C40: which maps can be loaded as `Z80<Q>`, and as what. The name of the flavour in the map may be any
text and is not looked at. -/
theorem C40_map {Q : Type} [Lawful Q] (fmt : Format) (l : List (String × Val)) (c : Cpu Q) :
    deCpu fmt (.map l) = .ok c ↔ ∃ t c', Describes fmt l t c' ∧ c = c'.intoFlavour AnyFlavour.ofNMOS := by
  show (visitMap fmt l (some (Flavour.tag Q)) >>= _) = _ ↔ _
  constructor
  · intro h
    cases hz : visitMap fmt l (some (Flavour.tag Q)) with
    | error e => rw [hz] at h; nomatch h
    | ok z =>
      obtain ⟨t, c', hd, hb⟩ := (visitMap_iff _ _ _ _).1 hz
      refine ⟨t, c', hd, ?_⟩
      rw [hz, ok_bind] at h
      have := ok_inj ((Lawful.build_tag (Q := Q) _).symm.trans hb)
      rw [← this, Lawful.unwrap_toAny] at h
      exact (ok_inj h).symm
  · rintro ⟨t, c', hd, rfl⟩
    rw [(visitMap_iff fmt l (some (Flavour.tag Q)) _).2 ⟨t, c', hd, Lawful.build_tag (Q := Q) _⟩, ok_bind, Lawful.unwrap_toAny]
    rfl

/-! ### Consequences -/

/-- C40: the order of the fields does not matter, nor does which of its names a field is given. -/
theorem C40_order {fmt : Format} {l l' : List (String × Val)} {z : Any}
    (h : deAny fmt (.map l) = .ok z)
    (hl : (l.map fun e => (fieldOf e.1, e.2)).Perm (l'.map fun e => (fieldOf e.1, e.2))) :
    deAny fmt (.map l') = .ok z := by
  change visitMap fmt l none = _ at h
  show visitMap fmt l' none = _
  unfold visitMap at h ⊢
  cases hp : collect cpuKeys (Field.parse fmt) l (fun _ => none) with
  | error e => rw [hp] at h; nomatch h
  | ok p =>
    rw [hp] at h
    rw [collect_perm (k := cpuKeys) hl hp]
    exact h

theorem C40_order_cpu {Q : Type} [Lawful Q] {fmt : Format} {l l' : List (String × Val)} {c : Cpu Q}
    (h : deCpu fmt (.map l) = .ok c)
    (hl : (l.map fun e => (fieldOf e.1, e.2)).Perm (l'.map fun e => (fieldOf e.1, e.2))) :
    deCpu fmt (.map l') = .ok c := by
  change (visitMap fmt l (some (Flavour.tag Q)) >>= _) = _ at h
  show (visitMap fmt l' (some (Flavour.tag Q)) >>= _) = _
  unfold visitMap at h ⊢
  cases hp : collect cpuKeys (Field.parse fmt) l (fun _ => none) with
  | error e => rw [hp] at h; nomatch h
  | ok p =>
    rw [hp] at h
    rw [collect_perm (k := cpuKeys) hl hp]
    exact h

theorem collect_append {fmt : Format} (l m : List (String × Val)) (p : Slots Field.Ty) :
    collect cpuKeys (Field.parse fmt) (l ++ m) p =
      (collect cpuKeys (Field.parse fmt) l p >>= collect cpuKeys (Field.parse fmt) m) := by
  induction l generalizing p with
  | nil => rfl
  | cons e l ih =>
    obtain ⟨s, v⟩ := e
    rw [List.cons_append]
    unfold collect
    split
    · rfl
    · rename_i f _
      split
      · rfl
      · cases hx : f.parse fmt v with
        | error e => rfl
        | ok x => exact ih _

theorem collected {fmt : Format} {l : List (String × Val)} {z : Any} (h : deAny fmt (.map l) = .ok z) :
    collect cpuKeys (Field.parse fmt) l (fun _ => none) = .ok (got fmt l) := by
  change visitMap fmt l none = _ at h
  unfold visitMap at h
  cases hp : collect cpuKeys (Field.parse fmt) l (fun _ => none) with
  | error e => rw [hp] at h; nomatch h
  | ok p => rw [((collect_got fmt l p).1 hp).2.2.2]

/-- C40: a second key for a field is an error, under whichever name, also when its value is the same. -/
theorem C40_duplicate {fmt : Format} {l : List (String × Val)} {z : Any}
    (h : deAny fmt (.map l) = .ok z) {s : String} {f : Field} (hs : fieldOf s = some f)
    (hf : ¬ Lacks l f) (v : Val) (m : List (String × Val)) :
    deAny fmt (.map (l ++ (s, v) :: m)) = .error (.duplicateField f.name) ∧
      ∀ {Q : Type} [Lawful Q], deCpu (Q := Q) fmt (.map (l ++ (s, v) :: m)) =
        .error (.duplicateField f.name) := by
  have hc : collect cpuKeys (Field.parse fmt) (l ++ (s, v) :: m) (fun _ => none) =
      .error (.duplicateField f.name) := by
    rw [collect_append, collected h, ok_bind]
    unfold collect
    rw [show cpuKeys.of s = some f from hs]
    dsimp only
    rw [if_pos]
    · rfl
    · cases hg : got fmt l f with
      | some x => rfl
      | none => exact absurd (lacks_got ((collect_got fmt l _).1 (collected h)).2.2.1 hg) hf
  constructor
  · show visitMap fmt _ none = _
    unfold visitMap
    rw [hc]
    rfl
  · intro Q _
    show (visitMap fmt _ (some (Flavour.tag Q)) >>= _) = _
    unfold visitMap
    rw [hc]
    rfl

/-- C40: an unknown key is an error. -/
theorem C40_unknown {fmt : Format} {l : List (String × Val)} {z : Any}
    (h : deAny fmt (.map l) = .ok z) {s : String} (hs : fieldOf s = none) (v : Val)
    (m : List (String × Val)) :
    deAny fmt (.map (l ++ (s, v) :: m)) = .error (.unknownField s) ∧
      ∀ {Q : Type} [Lawful Q], deCpu (Q := Q) fmt (.map (l ++ (s, v) :: m)) =
        .error (.unknownField s) := by
  have hc : collect cpuKeys (Field.parse fmt) (l ++ (s, v) :: m) (fun _ => none) =
      .error (.unknownField s) := by
    rw [collect_append, collected h, ok_bind]
    unfold collect
    rw [show cpuKeys.of s = none from hs]
    rfl
  constructor
  · show visitMap fmt _ none = _
    unfold visitMap
    rw [hc]
    rfl
  · intro Q _
    show (visitMap fmt _ (some (Flavour.tag Q)) >>= _) = _
    unfold visitMap
    rw [hc]
    rfl

/-- The map without a field. -/
def without (f : Field) (l : List (String × Val)) : List (String × Val) :=
  l.filter fun e => fieldOf e.1 ≠ some f

theorem mem_without {f : Field} {l : List (String × Val)} {e : String × Val} :
    e ∈ without f l ↔ e ∈ l ∧ fieldOf e.1 ≠ some f := by
  unfold without
  rw [List.mem_filter]
  exact and_congr_right fun _ => decide_eq_true_iff

theorem has_without {fmt : Format} {f g : Field} {l : List (String × Val)} {x : g.Ty} (hg : g ≠ f)
    (h : Has fmt l g x) : Has fmt (without f l) g x := by
  obtain ⟨s, v, hm, hs, hp⟩ := h
  exact ⟨s, v, mem_without.2 ⟨hm, by rw [hs]; exact fun e => hg (Option.some.inj e)⟩, hs, hp⟩

theorem lacks_without (f : Field) (l : List (String × Val)) : Lacks (without f l) f :=
  fun _ _ h => (mem_without.1 h).2

theorem hasOr_without {fmt : Format} {f g : Field} {l : List (String × Val)} {d x : g.Ty} (hg : g ≠ f)
    (h : HasOr fmt l g d x) : HasOr fmt (without f l) g d x := by
  rcases h with h | ⟨h, e⟩
  · exact .inl (has_without hg h)
  · exact .inr ⟨fun s v hm => h s v (mem_without.1 hm).1, e⟩

theorem once_without {f : Field} {l : List (String × Val)}
    (h : (l.filterMap fun e => fieldOf e.1).Nodup) : ((without f l).filterMap fun e => fieldOf e.1).Nodup :=
  h.sublist (List.filter_sublist.filterMap _)

/-- C40: a required field that is missing is an error that names it. -/
theorem C40_missing {fmt : Format} {l : List (String × Val)} {z : Any}
    (h : deAny fmt (.map l) = .ok z) {f : Field} (hf : f ∉ [Field.type, .memptr, .r, .flavour]) :
    deAny fmt (.map (without f l)) = .error (.missingField f.name) ∧
      ∀ {Q : Type} [Lawful Q], deCpu (Q := Q) fmt (.map (without f l)) = .error (.missingField f.name) := by
  have hv : ∀ g, g ≠ f → ∀ v, value cpuKeys g (without f l) = some v → value cpuKeys g l = some v := by
    intro g hg v hv
    obtain ⟨s, hm, hs⟩ := value_mem hv
    exact mem_value ((collect_got fmt l _).1 (collected h)).2.1 (mem_without.1 hm).1 hs
  obtain ⟨h1, h2, h3, -⟩ := (collect_got fmt l _).1 (collected h)
  have hc : collect cpuKeys (Field.parse fmt) (without f l) (fun _ => none) = .ok (got fmt (without f l)) := by
    refine (collect_got fmt _ _).2 ⟨fun e he => h1 e (mem_without.1 he).1, once_without h2, ?_, rfl⟩
    intro g v hgv
    by_cases hg : g = f
    · subst hg
      obtain ⟨s, hm, hs⟩ := value_mem hgv
      exact absurd hs (lacks_without g l s v hm)
    · exact h3 g v (hv g hg v hgv)
  obtain ⟨t, c, hd, -⟩ := (C40_map_any fmt l z).1 h
  have hn := once_without (f := f) h2
  have ha : assemble (got fmt (without f l)) = .error (.missingField f.name) := by
    have key : ∀ {g : Field} {x : g.Ty}, Has fmt l g x → g ≠ f → got fmt (without f l) g = some x :=
      fun hh hg => got_has hn (has_without hg hh)
    have no : got fmt (without f l) f = none := got_lacks (lacks_without f l)
    have k1 := @key _ _ hd.af
    have k2 := @key _ _ hd.afAlt
    have k3 := @key _ _ hd.regs
    have k4 := @key _ _ hd.regsAlt
    have k5 := @key _ _ hd.index
    have k6 := @key _ _ hd.pc
    have k7 := @key _ _ hd.sp
    have k8 := @key _ _ hd.lastEi
    have k9 := @key _ _ hd.ir
    have k10 := @key _ _ hd.im
    have k11 := @key _ _ hd.iff1
    have k12 := @key _ _ hd.iff2
    have k13 := @key _ _ hd.halt
    have k14 := @key _ _ hd.pfx
    have bad : ∀ (n : String) {α β : Type} (o : Option α) (k : α → De β), o = none →
        (need n o >>= k) = .error (.missingField n) := by
      rintro n α β _ k rfl
      rfl
    have good : ∀ (n : String) {α β : Type} (o : Option α) (k : α → De β) (x : α), o = some x →
        (need n o >>= k) = k x := by
      rintro n α β _ k x rfl
      rfl
    unfold assemble
    cases f
    case type => exact absurd hf (by decide)
    case memptr => exact absurd hf (by decide)
    case r => exact absurd hf (by decide)
    case flavour => exact absurd hf (by decide)
    all_goals
      (try rw [good _ _ _ _ (k1 (by decide))])
      (try rw [good _ _ _ _ (k2 (by decide))])
      (try rw [good _ _ _ _ (k3 (by decide))])
      (try rw [good _ _ _ _ (k4 (by decide))])
      (try rw [good _ _ _ _ (k5 (by decide))])
      (try rw [good _ _ _ _ (k6 (by decide))])
      (try rw [good _ _ _ _ (k7 (by decide))])
      (try rw [good _ _ _ _ (k8 (by decide))])
      (try rw [good _ _ _ _ (k9 (by decide))])
      (try rw [good _ _ _ _ (k10 (by decide))])
      (try rw [good _ _ _ _ (k11 (by decide))])
      (try rw [good _ _ _ _ (k12 (by decide))])
      (try rw [good _ _ _ _ (k13 (by decide))])
      (try rw [good _ _ _ _ (k14 (by decide))])
      exact bad _ _ _ no
  constructor
  · show visitMap fmt _ none = _
    unfold visitMap
    rw [hc, ok_bind, ha]
    rfl
  · intro Q _
    show (visitMap fmt _ (some (Flavour.tag Q)) >>= _) = _
    unfold visitMap
    rw [hc, ok_bind, ha]
    rfl

/-- The value of a field that may be left out, when it is. -/
def defaulted (f : Field) (c : Cpu NMOS) : Cpu NMOS :=
  match f with
  | .memptr => { c with memptr := 0 }
  | .r => { c with r := c.ir.lo }
  | .flavour => { c with flavour := ⟨false, false⟩ }
  | _ => c

theorem describes_without {fmt : Format} {l : List (String × Val)} {t : String} {c : Cpu NMOS}
    (h : Describes fmt l t c) {f : Field} (hf : f ∈ [Field.type, .memptr, .r, .flavour]) :
    Describes fmt (without f l) (if f = .type then "NMOS" else t) (defaulted f c) := by
  have key : ∀ {g : Field} {x : g.Ty}, g ≠ f → Has fmt l g x → Has fmt (without f l) g x :=
    fun hg hh => has_without hg hh
  have key' : ∀ {g : Field} {d x : g.Ty}, g ≠ f → HasOr fmt l g d x → HasOr fmt (without f l) g d x :=
    fun hg hh => hasOr_without hg hh
  have hn := once_without (f := f) h.once
  have hk : ∀ e ∈ without f l, (fieldOf e.1).isSome := fun e he => h.known e (mem_without.1 he).1
  have no := lacks_without f l
  simp only [List.mem_cons, List.not_mem_nil, or_false] at hf
  rcases hf with rfl | rfl | rfl | rfl
  · exact ⟨hk, hn, .inr ⟨no, rfl⟩, key (by decide) h.af, key (by decide) h.afAlt, key (by decide) h.regs,
      key (by decide) h.regsAlt, key (by decide) h.index, key (by decide) h.pc, key (by decide) h.sp,
      key' (by decide) h.memptr, key (by decide) h.lastEi, key (by decide) h.ir, key (by decide) h.im,
      key (by decide) h.iff1, key (by decide) h.iff2, key (by decide) h.halt, key (by decide) h.pfx,
      key' (by decide) h.r, key' (by decide) h.flavour⟩
  · exact ⟨hk, hn, key' (by decide) h.type, key (by decide) h.af, key (by decide) h.afAlt,
      key (by decide) h.regs, key (by decide) h.regsAlt, key (by decide) h.index, key (by decide) h.pc,
      key (by decide) h.sp, .inr ⟨no, (by decide : RegPair.of16 0 = ⟨0, 0⟩)⟩, key (by decide) h.lastEi, key (by decide) h.ir,
      key (by decide) h.im, key (by decide) h.iff1, key (by decide) h.iff2, key (by decide) h.halt,
      key (by decide) h.pfx, key' (by decide) h.r, key' (by decide) h.flavour⟩
  · exact ⟨hk, hn, key' (by decide) h.type, key (by decide) h.af, key (by decide) h.afAlt,
      key (by decide) h.regs, key (by decide) h.regsAlt, key (by decide) h.index, key (by decide) h.pc,
      key (by decide) h.sp, key' (by decide) h.memptr, key (by decide) h.lastEi, key (by decide) h.ir,
      key (by decide) h.im, key (by decide) h.iff1, key (by decide) h.iff2, key (by decide) h.halt,
      key (by decide) h.pfx, .inr ⟨no, rfl⟩, key' (by decide) h.flavour⟩
  · exact ⟨hk, hn, key' (by decide) h.type, key (by decide) h.af, key (by decide) h.afAlt,
      key (by decide) h.regs, key (by decide) h.regsAlt, key (by decide) h.index, key (by decide) h.pc,
      key (by decide) h.sp, key' (by decide) h.memptr, key (by decide) h.lastEi, key (by decide) h.ir,
      key (by decide) h.im, key (by decide) h.iff1, key (by decide) h.iff2, key (by decide) h.halt,
      key (by decide) h.pfx, key' (by decide) h.r, .inr ⟨no, rfl⟩⟩

theorem describes_fields (fmt : Format) (t : String) (c : Cpu NMOS) :
    Describes fmt (fields fmt t c) t c :=
  (describes_iff fmt _ t c).1
    ⟨_, _, _, collect_fields fmt t c, assemble_slots t c, rfl, rfl⟩

/-- C40: fields that may be left out. Let a stored CPU of any flavour lose one of them; loaded as `Z80<Q>` it
is the same but for that field: MEMPTR becomes zero, R the low byte of the pair `ir`, the history of flag
changes empty. -/
theorem C40_default {Q : Type} [Lawful Q] {fmt : Format} {z : Any} {l : List (String × Val)}
    (hz : serAny fmt z = .map l) {f : Field} (hf : f ∈ [Field.type, .memptr, .r, .flavour]) :
    deCpu fmt (.map (without f l)) =
      .ok ((defaulted f z.toCpu).intoFlavour (AnyFlavour.ofNMOS : NMOS → Q)) := by
  rw [serAny_eq] at hz
  unfold Format.struct at hz
  split at hz
  · cases hz
    exact (C40_map fmt _ _).2 ⟨_, _, describes_without (describes_fields fmt z.tag z.toCpu) hf, rfl⟩
  · nomatch hz

/-- C40: the same, loaded as `Z80Any`: without the name of the flavour it becomes NMOS. -/
theorem C40_default_any {fmt : Format} {z : Any} {l : List (String × Val)}
    (hz : serAny fmt z = .map l) {f : Field} (hf : f ∈ [Field.type, .memptr, .r, .flavour]) :
    deAny fmt (.map (without f l)) = .ok (match f, z with
      | .type, z => .nmos z.toCpu
      | f, .nmos c => .nmos (defaulted f c)
      | f, .cmos c => .cmos ((defaulted f (c.intoFlavour NMOS.ofCMOS)).intoFlavour CMOS.ofNMOS)
      | f, .bm1 c => .bm1 ((defaulted f (c.intoFlavour NMOS.ofBM1)).intoFlavour BM1.ofNMOS)) := by
  rw [serAny_eq] at hz
  unfold Format.struct at hz
  split at hz
  · cases hz
    refine (C40_map_any fmt _ _).2 ⟨_, _, describes_without (describes_fields fmt z.tag z.toCpu) hf, ?_⟩
    simp only [List.mem_cons, List.not_mem_nil, or_false] at hf
    rcases hf with rfl | rfl | rfl | rfl
    · exact .inl ⟨rfl, rfl⟩
    all_goals
      cases z
      · exact .inl ⟨rfl, rfl⟩
      · exact .inr (.inl ⟨rfl, rfl⟩)
      · exact .inr (.inr ⟨rfl, rfl⟩)
  · nomatch hz

/-! ### Sequences -/

theorem seq_fields {fmt : Format} {z : Any} {v : Val} {l : List Val} (hz : serAny fmt z = .seq (v :: l)) :
    l = (fields fmt z.tag z.toCpu).tail.map (·.2) := by
  rw [serAny_eq] at hz
  unfold Format.struct at hz
  split at hz
  · nomatch hz
  · exact (List.cons.inj (Val.seq.inj hz)).2.symm

/-- C40: sequences written before the name of the flavour was stored have 17 elements. If the format tells
the length, they are loaded, as `Z80Any` always as NMOS. -/
theorem C40_legacy {Q : Type} [Lawful Q] {fmt : Format} {z : Any} {v : Val} {l : List Val}
    (hz : serAny fmt z = .seq (v :: l)) (hh : fmt.hint = true) :
    deAny fmt (.seq l) = .ok (.nmos z.toCpu) ∧ deCpu fmt (.seq l) = .ok (z.toCpu : Cpu Q) := by
  have hl : fmt.sizeHint l = some 17 := by
    unfold Format.sizeHint
    rw [if_pos hh, seq_fields hz]
    rfl
  constructor
  · show (if _ then _ else _) = _
    rw [if_pos hl, seq_fields hz, visitSeq_fields]
    rfl
  · show (if _ then _ else _) = _
    rw [if_pos hl, seq_fields hz, visitSeq_fields, toCpu_by]

/-- C40: in other formats they cannot be loaded. -/
theorem C40_legacy_unknown {Q : Type} [Lawful Q] {fmt : Format} {z : Any} {v : Val} {l : List Val}
    (hz : serAny fmt z = .seq (v :: l)) (hh : fmt.hint = false) :
    deAny fmt (.seq l) = .error .invalidType ∧ deCpu (Q := Q) fmt (.seq l) = .error .invalidType := by
  have hl : fmt.sizeHint l ≠ some 17 := by
    unfold Format.sizeHint
    rw [if_neg (by rw [hh]; decide)]
    nofun
  constructor
  · show (if _ then _ else _) = _
    rw [if_neg hl, seq_fields hz]
    rfl
  · show (if _ then _ else _) = _
    rw [if_neg hl, seq_fields hz]
    rfl

theorem next_iff {α β : Type} {parse : Val → De α} {n : Nat} {l : List Val} {k : α × List Val → De β} {y : β} :
    (next parse n l >>= k) = .ok y ↔ ∃ v m x, l = v :: m ∧ parse v = .ok x ∧ k (x, m) = .ok y := by
  cases l with
  | nil => exact ⟨nofun, fun ⟨_, _, _, h, _⟩ => nomatch h⟩
  | cons v m =>
    cases hp : parse v with
    | error e =>
      constructor
      · intro h
        rw [show next parse n (v :: m) = .error e by rw [next, hp]; rfl] at h
        nomatch h
      · rintro ⟨v', m', x, e', hx, -⟩
        cases e'
        rw [hp] at hx
        nomatch hx
    | ok x =>
      rw [next_ok hp, ok_bind]
      constructor
      · intro h
        exact ⟨v, m, x, rfl, hp, h⟩
      · rintro ⟨v', m', x', e', hx, h⟩
        cases e'
        rw [hp] at hx
        cases hx
        exact h

theorem visitSeq_length {Q : Type} [Lawful Q] {fmt : Format} {n : Nat} {l : List Val} {c : Cpu Q}
    (h : visitSeq fmt n l = .ok c) : l.length = 17 := by
  unfold visitSeq at h
  obtain ⟨_, m, _, rfl, -, h⟩ := next_iff.1 h
  obtain ⟨_, m, _, rfl, -, h⟩ := next_iff.1 h
  obtain ⟨_, m, _, rfl, -, h⟩ := next_iff.1 h
  obtain ⟨_, m, _, rfl, -, h⟩ := next_iff.1 h
  obtain ⟨_, m, _, rfl, -, h⟩ := next_iff.1 h
  obtain ⟨_, m, _, rfl, -, h⟩ := next_iff.1 h
  obtain ⟨_, m, _, rfl, -, h⟩ := next_iff.1 h
  obtain ⟨_, m, _, rfl, -, h⟩ := next_iff.1 h
  obtain ⟨_, m, _, rfl, -, h⟩ := next_iff.1 h
  obtain ⟨_, m, _, rfl, -, h⟩ := next_iff.1 h
  obtain ⟨_, m, _, rfl, -, h⟩ := next_iff.1 h
  obtain ⟨_, m, _, rfl, -, h⟩ := next_iff.1 h
  obtain ⟨_, m, _, rfl, -, h⟩ := next_iff.1 h
  obtain ⟨_, m, _, rfl, -, h⟩ := next_iff.1 h
  obtain ⟨_, m, _, rfl, -, h⟩ := next_iff.1 h
  obtain ⟨_, m, _, rfl, -, h⟩ := next_iff.1 h
  obtain ⟨_, m, _, rfl, -, h⟩ := next_iff.1 h
  dsimp only at h
  cases m with
  | nil => rfl
  | cons _ _ => nomatch h

/-- C40: a sequence that can be loaded has 18 elements, or 17 if the format tells the length: nothing is
ignored and nothing is made up. -/
theorem C40_length {Q : Type} [Lawful Q] {fmt : Format} {l : List Val} {c : Cpu Q}
    (h : deCpu fmt (.seq l) = .ok c) : l.length = 18 ∨ fmt.hint = true ∧ l.length = 17 := by
  change (if _ then _ else _) = _ at h
  split at h
  · rename_i hl
    unfold Format.sizeHint at hl
    split at hl
    · rename_i hh
      exact .inr ⟨hh, Option.some.inj hl⟩
    · nomatch hl
  · left
    rw [next_iff] at h
    obtain ⟨v, m, x, rfl, -, h⟩ := h
    dsimp only at h
    split at h
    · rw [List.length_cons, visitSeq_length h]
    · nomatch h

theorem map_ok {α β : Type} {x : De α} {f : α → β} {y : β} (h : x.map f = .ok y) : ∃ a, x = .ok a := by
  cases x with
  | ok a => exact ⟨a, rfl⟩
  | error e => nomatch h

theorem C40_length_any {fmt : Format} {l : List Val} {z : Any}
    (h : deAny fmt (.seq l) = .ok z) : l.length = 18 ∨ fmt.hint = true ∧ l.length = 17 := by
  change (if _ then _ else _) = _ at h
  split at h
  · rename_i hl
    unfold Format.sizeHint at hl
    split at hl
    · rename_i hh
      exact .inr ⟨hh, Option.some.inj hl⟩
    · nomatch hl
  · left
    rw [next_iff] at h
    obtain ⟨v, m, x, rfl, -, h⟩ := h
    dsimp only at h
    split at h
    · obtain ⟨c, hc⟩ := map_ok h
      rw [List.length_cons, visitSeq_length hc]
    split at h
    · obtain ⟨c, hc⟩ := map_ok h
      rw [List.length_cons, visitSeq_length hc]
    split at h
    · obtain ⟨c, hc⟩ := map_ok h
      rw [List.length_cons, visitSeq_length hc]
    · nomatch h

/-- The hypotheses of the theorems above can be met: a stored CPU is a map that has every field, or a
sequence. -/
example (z : Any) (human hint : Bool) :
    (∃ l, serAny ⟨true, human, hint⟩ z = .map l ∧ deAny ⟨true, human, hint⟩ (.map l) = .ok z ∧
      ∀ f, ¬ Lacks l f) ∧ ∃ v l, serAny ⟨false, human, hint⟩ z = .seq (v :: l) := by
  refine ⟨⟨fields ⟨true, human, hint⟩ z.tag z.toCpu, serAny_eq _ z, ?_, fun f => ?_⟩, _, _, serAny_eq _ z⟩
  · have := C40_round_trip_any ⟨true, human, hint⟩ z
    rw [serAny_eq] at this
    exact this
  · intro h
    have := got_lacks (fmt := ⟨true, human, hint⟩) h
    have e := ((collect_got _ _ _).1 (collect_fields ⟨true, human, hint⟩ z.tag z.toCpu)).2.2.2
    rw [← e] at this
    cases f <;> nomatch this

/-! ### Any input -/

theorem calm_visitSeq {Q : Type} [Lawful Q] (fmt : Format) (n : Nat) (l : List Val) :
    Calm (visitSeq (Q := Q) fmt n l) := by
  unfold visitSeq
  iterate 17
    refine calm_bind (calm_next ?_ _ _) fun _ => ?_
    · first
      | exact calm_pair fmt
      | exact calm_gen fmt
      | exact calm_idx fmt
      | exact calm_bool
      | exact calm_u8
      | exact calm_prefix
      | exact calm_variant _
      | exact Lawful.calm
  exact calm_finish _ _ _

theorem calm_assemble (p : Slots Field.Ty) : Calm (assemble p) := by
  unfold assemble
  iterate 14 refine calm_bind (calm_need _ _) fun _ => ?_
  exact calm_ok _

theorem calm_parse (fmt : Format) (f : Field) (v : Val) : Calm (f.parse fmt v) := by
  cases f <;> first
    | exact calm_str v
    | exact calm_pair fmt v
    | exact calm_gen fmt v
    | exact calm_idx fmt v
    | exact calm_bool v
    | exact calm_variant _ v
    | exact calm_prefix v
    | exact calm_u8 v
    | exact Lawful.calm (Q := NMOS) v

theorem calm_visitMap (fmt : Format) (l : List (String × Val)) (force : Option String) :
    Calm (visitMap fmt l force) := by
  unfold visitMap
  refine calm_bind (calm_collect (calm_parse fmt) _ _) fun p => calm_bind (calm_assemble p) fun _ => ?_
  unfold build
  repeat' split
  all_goals first
    | exact calm_ok _
    | exact calm_error nofun

/-- C40: whatever is loaded, there is a CPU or an error, and never a panic. -/
theorem C40_no_panic {Q : Type} [Lawful Q] (fmt : Format) (v : Val) :
    deCpu (Q := Q) fmt v ≠ .error .panic ∧ deAny fmt v ≠ .error .panic := by
  constructor
  · show Calm _
    unfold deCpu
    split
    · split
      · exact calm_visitSeq fmt _ _
      · refine calm_bind (calm_next calm_str _ _) fun _ => ?_
        dsimp only
        split
        · exact calm_visitSeq fmt _ _
        · exact calm_error nofun
    · rename_i l
      cases hz : visitMap fmt l (some (Flavour.tag Q)) with
      | error e =>
        exact calm_error fun he => calm_visitMap fmt l _ (hz.trans (congrArg _ he))
      | ok z =>
        obtain ⟨t, c', -, hb⟩ := (visitMap_iff _ _ _ _).1 hz
        rw [← ok_inj ((Lawful.build_tag (Q := Q) _).symm.trans hb), ok_bind, Lawful.unwrap_toAny]
        exact calm_ok _
    · exact calm_error nofun
  · show Calm _
    unfold deAny
    split
    · split
      · exact calm_map (calm_visitSeq fmt _ _)
      · refine calm_bind (calm_next calm_str _ _) fun _ => ?_
        dsimp only
        repeat' split
        · exact calm_map (calm_visitSeq fmt _ _)
        · exact calm_map (calm_visitSeq fmt _ _)
        · exact calm_map (calm_visitSeq fmt _ _)
        · exact calm_error nofun
    · exact calm_visitMap fmt _ _
    · exact calm_error nofun

/-! ### Register pairs -/

/-- C40: a register pair is stored as its 16-bit value. In human readable formats it may also be given as a
negative number, as a sequence of two bytes, or as hexadecimal text; numbers out of range are errors. -/
theorem C40_pair_int (fmt : Format) (i : Int) (p : RegPair) : dePair fmt (.int i) = .ok p ↔
    (if fmt.human then -32768 ≤ i else 0 ≤ i) ∧ i ≤ 65535 ∧ (p.get16.toNat : Int) = i % 65536 := by
  have hw : ∀ i : Int, dePair fmt (.int i) = .ok p → dePair fmt (.int i) = .ok (.of16 (BitVec.ofInt 16 i)) := by
    intro i h
    unfold dePair at h ⊢
    split at h
    · rw [if_pos ‹_›]
      dsimp only at h ⊢
      split at h
      · rw [if_pos ‹_›]
        split at h
        · rw [if_pos ‹_›]
        · nomatch h
      · rw [if_neg ‹_›]
        split at h
        · rw [if_pos ‹_›]
        · nomatch h
    · rw [if_neg ‹_›]
      dsimp only at h ⊢
      split at h
      · rw [if_pos ‹_›]
      · nomatch h
  have hm : ((BitVec.ofInt 16 i).toNat : Int) = i % 65536 := by
    rw [BitVec.toNat_ofInt]
    omega
  constructor
  · intro h
    have e := hw i h
    rw [h] at e
    have e := ok_inj e
    have hp : p.get16 = BitVec.ofInt 16 i := by rw [e, of16_get16]
    refine ⟨?_, ?_, by rw [hp, hm]⟩
    · unfold dePair at h
      split at h
      · rw [if_pos ‹_›]
        dsimp only at h
        split at h
        · omega
        · split at h
          · assumption
          · nomatch h
      · rw [if_neg ‹_›]
        dsimp only at h
        split at h
        · omega
        · nomatch h
    · unfold dePair at h
      split at h
      · dsimp only at h
        split at h
        · split at h
          · assumption
          · nomatch h
        · omega
      · dsimp only at h
        split at h
        · omega
        · nomatch h
  · rintro ⟨h1, h2, h3⟩
    have e : RegPair.of16 (BitVec.ofInt 16 i) = p := by
      rw [← get16_of16 p]
      congr 1
      apply BitVec.eq_of_toNat_eq
      have := hm
      omega
    unfold dePair
    split at h1
    · rw [if_pos ‹_›]
      dsimp only
      by_cases h0 : 0 ≤ i
      · rw [if_pos h0, if_pos h2, e]
      · rw [if_neg h0, if_pos h1, e]
    · rw [if_neg ‹_›]
      dsimp only
      rw [if_pos ⟨h1, by omega⟩, e]

/-- C40: two bytes, the low one first. -/
theorem C40_pair_seq {fmt : Format} (h : fmt.human = true) (lo hi : U8) :
    dePair fmt (.seq [.int lo.toNat, .int hi.toNat]) = .ok ⟨hi, lo⟩ := by
  unfold dePair
  rw [if_pos h]
  simp only [deU8_byte, ok_bind]

/-- The value of hexadecimal digits, the most significant first. -/
def hexValue : List Nat → Nat := fun l => l.foldl (fun a d => a * 16 + d) 0

theorem hexDigits_eq {l : List Char} {ds : List Nat} (hd : l.map hexDigit = ds.map some) (a : Nat)
    (hv : ds.foldl (fun a d => a * 16 + d) a < 65536) :
    hexDigits a l = some (ds.foldl (fun a d => a * 16 + d) a) := by
  induction l generalizing ds a with
  | nil =>
    cases ds with
    | nil => rfl
    | cons d ds => nomatch hd
  | cons c l ih =>
    cases ds with
    | nil => nomatch hd
    | cons d ds =>
      rw [List.map_cons, List.map_cons] at hd
      obtain ⟨h1, h2⟩ := List.cons.inj hd
      have mono : ∀ (ds : List Nat) (a : Nat), a ≤ ds.foldl (fun a d => a * 16 + d) a := by
        intro ds
        induction ds with
        | nil => exact fun a => Nat.le_refl a
        | cons d ds ih =>
          intro a
          rw [List.foldl_cons]
          exact Nat.le_trans (by omega) (ih _)
      rw [List.foldl_cons] at hv ⊢
      unfold hexDigits
      rw [h1]
      dsimp only
      rw [if_pos (Nat.lt_of_le_of_lt (mono ds _) hv)]
      exact ih h2 _ hv

/-- C40: hexadecimal text, with no prefix or with `$` or `0x`. -/
theorem C40_pair_hex {fmt : Format} (h : fmt.human = true) {l : List Char} {ds : List Nat}
    (hd : l.map hexDigit = ds.map some) (hn : ds ≠ []) (hv : hexValue ds < 65536) (pre : String)
    (hp : pre = "" ∨ pre = "$" ∨ pre = "0x") :
    dePair fmt (.str (pre ++ String.ofList l)) = .ok (.of16 (BitVec.ofNat 16 (hexValue ds))) := by
  have hl : l ≠ [] := by
    rintro rfl
    cases ds with
    | nil => exact hn rfl
    | cons d ds => nomatch hd
  have hc : ∀ c ∈ l, ∃ d, hexDigit c = some d := by
    intro c hcl
    have : hexDigit c ∈ ds.map some := hd ▸ List.mem_map_of_mem hcl
    obtain ⟨d, -, hd⟩ := List.mem_map.1 this
    exact ⟨d, hd.symm⟩
  have not : ∀ c, hexDigit c = none → c ∉ l := by
    intro c h0 hcl
    obtain ⟨d, hd⟩ := hc c hcl
    rw [h0] at hd
    nomatch hd
  have n1 := not '+' (by decide)
  have n2 := not '$' (by decide)
  have n3 := not 'x' (by decide)
  have hf : fromStrRadix16 l = some (hexValue ds) := by
    have : fromStrRadix16 l = hexDigits 0 l := by
      unfold fromStrRadix16
      split
      · exact absurd rfl hl
      · exact absurd (List.mem_cons_self) n1
      · exact absurd (List.mem_cons_self) n1
      · rfl
    rw [this]
    exact hexDigits_eq hd 0 hv
  have hs : stripHex (pre ++ String.ofList l).toList = l := by
    rw [String.toList_append, String.toList_ofList]
    rcases hp with rfl | rfl | rfl
    · show stripHex l = l
      unfold stripHex
      split
      · exact absurd (List.mem_cons_self) n2
      · exact absurd (List.mem_cons_of_mem _ List.mem_cons_self) n3
      · rfl
    · rfl
    · rfl
  unfold dePair
  rw [if_pos h]
  dsimp only
  rw [hs, hf]

/-- The hypotheses of `C40_pair_hex` can be met. -/
example : ∃ (l : List Char) (ds : List Nat), l.map hexDigit = ds.map some ∧ ds ≠ [] ∧
    hexValue ds = 0xBEEF := ⟨['b', 'E', 'e', 'F'], [11, 14, 14, 15], by decide⟩

end Z80.Serde
