import Verif.Proofs.Alike
import Verif.Props.Bus
import Verif.Model.Clock

/-!
# The way a host keeps time does not matter (C77)
-/

namespace Z80
open Spec

/-- What the CPU can be told to do. -/
inductive Order
  | next
  | instruction (op : U8)
  | irq
  | nmi

section
variable {σ : Sig} {S Q : Type} [FlavourSpec Q]

/-- It does so without a debugger. What is reported, `none` if an interrupt was refused, and the CPU and the host
afterwards. -/
def obey (H : Handler σ S) (o : Order) (c : Cpu Q) (s : S) : Option (Option (Out σ.O σ.R)) × Cpu Q × S :=
  match o with
  | .next => let r := (executeNext false c).run H s; (some (outS r.1.1), r.1.2, r.2)
  | .instruction op => let r := (executeInstruction false op c).run H s; (some (outS r.1.1), r.1.2, r.2)
  | .irq => let r := (Z80.irq false c).run H s; (r.1.1.map outS, r.1.2, r.2)
  | .nmi => let r := (Z80.nmi c).run H s; (if r.1.1 then some (some .ok) else none, r.1.2, r.2)

/-- One after the other. -/
def obeyAll (H : Handler σ S) : List Order → Cpu Q → S → List (Option (Option (Out σ.O σ.R))) × Cpu Q × S
  | [], c, s => ([], c, s)
  | o :: l, c, s => let r := obey H o c s; let q := obeyAll H l r.2.1 r.2.2; (r.1 :: q.1, q.2)

end

section
variable {Ts Ts' O R L L' S S' Q : Type} [FlavourSpec Q] {H : Handler ⟨Ts, O, R, L⟩ S}
  {H' : Handler ⟨Ts', O, R, L'⟩ S'} {E : Ts → Ts' → Prop} {A : S → S' → Prop}

theorem alike_drives (h : HostsAlike H H' E A) {p : Prog ⟨Ts, O, R, L⟩ (Res ⟨Ts, O, R, L⟩ × Cpu Q)}
    {p' : Prog ⟨Ts', O, R, L'⟩ (Res ⟨Ts', O, R, L'⟩ × Cpu Q)} {b : Cycles O R} (hd : DrivesP p b)
    (hd' : DrivesP p' b) (hp : p.erase = p) (hp' : p'.erase = p') {s : S} {s' : S'} (hs : A s s') :
    outS (p.run H s).1.1 = outS (p'.run H' s').1.1 ∧ abs (p.run H s).1.2 = abs (p'.run H' s').1.2 ∧
      A (p.run H s).2 (p'.run H' s').2 := by
  obtain ⟨h1, h2, h3⟩ := run_drives hd hp H s
  obtain ⟨h1', h2', h3'⟩ := run_drives hd' hp' H' s'
  have ht := alike_tree h b s s' hs
  rw [h1, h2, h3, h1', h2', h3', ht.1]
  exact ⟨rfl, rfl, ht.2⟩

theorem obey_alike (h : HostsAlike H H' E A) (o : Order) {c d : Cpu Q} (hc : abs c = abs d) {s : S} {s' : S'}
    (hs : A s s') : (obey H o c s).1 = (obey H' o d s').1 ∧ abs (obey H o c s).2.1 = abs (obey H' o d s').2.1 ∧
      A (obey H o c s).2.2 (obey H' o d s').2.2 := by
  cases o with
  | next =>
    have := alike_drives h (drive_step false c) (hc ▸ drive_step false d) (erase_quiet_next c)
      (erase_quiet_next d) hs
    exact ⟨congrArg some this.1, this.2⟩
  | instruction op =>
    have := alike_drives h (drive_instruction false op c) (hc ▸ drive_instruction false op d)
      (erase_quiet_instruction op c) (erase_quiet_instruction op d) hs
    exact ⟨congrArg some this.1, this.2⟩
  | irq =>
    have e := irqAllowed_eq c
    have e' := irqAllowed_eq d
    rw [← hc] at e'
    have q : ∀ {σ : Sig} (c : Cpu Q), (irqNoCheck false c : Prog σ _).erase = irqNoCheck false c := by
      intro σ c
      rw [← erase_irq, erase_erase]
    unfold obey Z80.irq
    rw [e, e']
    cases hi : irqOk (abs c) with
    | true =>
      have hi' : irqOk (abs d) = true := hc ▸ hi
      have := alike_drives h (drive_interrupt false c (irq_pre hi).1 (irq_pre hi).2)
        (hc ▸ drive_interrupt false d (irq_pre hi').1 (irq_pre hi').2) (q c) (q d) hs
      have m1 := (run_map (h := H) (irqNoCheck false c) (fun r => (some r.1, r.2)) s).1
      have m2 := (run_map (h := H') (irqNoCheck false d) (fun r => (some r.1, r.2)) s').1
      simp only [if_true]
      change (((irqNoCheck false c).map fun r => (some r.1, r.2)).run H s).1.1.map outS =
          (((irqNoCheck false d).map fun r => (some r.1, r.2)).run H' s').1.1.map outS ∧
        abs (((irqNoCheck false c).map fun r => (some r.1, r.2)).run H s).1.2 =
          abs (((irqNoCheck false d).map fun r => (some r.1, r.2)).run H' s').1.2 ∧
        A (((irqNoCheck false c).map fun r => (some r.1, r.2)).run H s).2
          (((irqNoCheck false d).map fun r => (some r.1, r.2)).run H' s').2
      rw [m1, m2]
      exact ⟨congrArg some this.1, this.2⟩
    | false => exact ⟨rfl, hc, hs⟩
  | nmi =>
    have q : ∀ {σ : Sig} (c : Cpu Q), (nmi c : Prog σ _).erase = nmi c := by
      intro σ c
      unfold nmi
      split <;> rfl
    cases hn : nmiOk (abs c) with
    | true =>
      have e := C45_nmi (σ := ⟨Ts, O, R, L⟩) c hn
      have e' := C45_nmi (σ := ⟨Ts', O, R, L'⟩) d (hc ▸ hn)
      rw [q, ] at e e'
      have f := congrArg (fun p => p.run H s) e
      have f' := congrArg (fun p => p.run H' s') e'
      simp only [(run_map _ _ _).1] at f f'
      have ht := alike_tree h (nmiCycles (abs c)) s s' hs
      rw [← hc] at f'
      rw [Prod.mk.injEq, Prod.mk.injEq] at f f'
      unfold obey
      dsimp only
      rw [f.1.1, f.1.2, f.2, f'.1.1, f'.1.2, f'.2, ht.1]
      exact ⟨rfl, rfl, ht.2⟩
    | false =>
      have k : ∀ c : Cpu Q, nmiOk (abs c) = isIntAllowed c.pfx c.lastEi := by
        intro c
        simp only [isIntAllowed, nmiOk, abs, absS, Cpu.load]
        cases c.lastEi <;> rcases c.pfx with _ | _ | _ <;> rfl
      unfold obey nmi
      rw [← k c, ← k d, ← hc, hn]
      exact ⟨rfl, hc, hs⟩

/-- C77: hosts that behave alike cannot be told apart by what the CPU does: whatever it is told to do, in whatever
order, from states that correspond, it reports the same, ends in the same state, and leaves states that correspond. -/
theorem C77_alike (h : HostsAlike H H' E A) (l : List Order) (c : Cpu Q) {s : S} {s' : S'} (hs : A s s') :
    (obeyAll H l c s).1 = (obeyAll H' l c s').1 ∧ (obeyAll H l c s).2.1.obs = (obeyAll H' l c s').2.1.obs ∧
      A (obeyAll H l c s).2.2 (obeyAll H' l c s').2.2 := by
  have : ∀ (l : List Order) (c d : Cpu Q) (s : S) (s' : S'), abs c = abs d → A s s' →
      (obeyAll H l c s).1 = (obeyAll H' l d s').1 ∧
      abs (obeyAll H l c s).2.1 = abs (obeyAll H' l d s').2.1 ∧
      A (obeyAll H l c s).2.2 (obeyAll H' l d s').2.2 := by
    intro l
    induction l with
    | nil => exact fun c d s s' hc hs => ⟨rfl, hc, hs⟩
    | cons o l ih =>
      intro c d s s' hc hs
      obtain ⟨h1, h2, h3⟩ := obey_alike h o hc hs
      have := ih _ _ _ _ h2 h3
      exact ⟨congr (congrArg _ h1) this.1, this.2⟩
  obtain ⟨h1, h2, h3⟩ := this l c c s s' rfl hs
  exact ⟨h1, by rw [obs_shown, obs_shown, h2], h3⟩

end

section
variable {O R I Q : Type} [FlavourSpec Q]

/-- 64 KiB of memory, devices, and a `TsCounter` of `w` bits. -/
def machine (d : Devices O R I) (w : Nat) : Handler (tsSig w O R) (BitVec w × Mem × I) := tsHost (ramBus (d.on w))

/-- The same memory and devices, and counters in that relation. -/
def Apace {w w' : Nat} (E : BitVec w → BitVec w' → Prop) (x : BitVec w × Mem × I) (y : BitVec w' × Mem × I) : Prop :=
  E x.1 y.1 ∧ x.2 = y.2

theorem machines_alike (d : Devices O R I) {w w' : Nat} (E : BitVec w → BitVec w' → Prop)
    (hE : ∀ t t', E t t' → ∀ n : Nat, n < 65536 → E (t + BitVec.ofNat w n) (t' + BitVec.ofNat w' n)) :
    HostsAlike (machine d w) (machine d w') E (Apace E) := by
  have hn : ∀ (v w : Nat) (n : BitVec v), n.setWidth w = BitVec.ofNat w n.toNat := fun v w n =>
    BitVec.eq_of_toNat_eq (by rw [BitVec.toNat_setWidth, BitVec.toNat_ofNat])
  constructor
  · rintro pc ⟨t, m⟩ ⟨t', m'⟩ ⟨h, rfl⟩; exact ⟨hE _ _ h 2 (by decide), hE _ _ h 6 (by decide), rfl⟩
  · rintro a n ⟨t, m⟩ ⟨t', m'⟩ ⟨h, rfl⟩
    have := hE _ _ h n.toNat (Nat.lt_trans n.isLt (by decide))
    rw [← hn, ← hn] at this
    exact ⟨this, rfl⟩
  · rintro a ⟨t, m⟩ ⟨t', m'⟩ ⟨h, rfl⟩; exact ⟨hE _ _ h 4 (by decide), hE _ _ h 4 (by decide), rfl⟩
  · rintro a ⟨t, m⟩ ⟨t', m'⟩ ⟨h, rfl⟩; exact ⟨hE _ _ h 3 (by decide), hE _ _ h 3 (by decide), rfl⟩
  · rintro a ⟨t, m⟩ ⟨t', m'⟩ ⟨h, rfl⟩; exact ⟨hE _ _ h 1 (by decide), hE _ _ h 4 (by decide), rfl⟩
  · rintro a n ⟨t, m⟩ ⟨t', m'⟩ ⟨h, rfl⟩
    have := hE _ _ h n.toNat n.isLt
    rw [← hn, ← hn] at this
    exact ⟨this, rfl⟩
  · rintro ⟨t, m⟩ ⟨t', m'⟩ ⟨h, rfl⟩; exact ⟨h, h, rfl⟩
  · rintro p _ _ ⟨t, m⟩ ⟨t', m'⟩ - ⟨h, rfl⟩; exact ⟨rfl, h, rfl⟩
  · rintro p v _ _ ⟨t, m⟩ ⟨t', m'⟩ - ⟨h, rfl⟩; exact ⟨rfl, h, rfl⟩
  · rintro _ _ ⟨t, m⟩ ⟨t', m'⟩ - ⟨h, rfl⟩; exact ⟨rfl, h, rfl⟩
  · rintro p _ _ ⟨t, m⟩ ⟨t', m'⟩ - ⟨h, rfl⟩; exact ⟨rfl, h, rfl⟩
  · rintro p _ _ ⟨t, m⟩ ⟨t', m'⟩ - ⟨h, rfl⟩; exact ⟨rfl, h, rfl⟩
  · rintro p _ _ ⟨t, m⟩ ⟨t', m'⟩ - ⟨h, rfl⟩; exact ⟨rfl, h, rfl⟩
  · rintro p _ _ ⟨t, m⟩ ⟨t', m'⟩ - ⟨h, rfl⟩; exact ⟨rfl, h, rfl⟩
  · rintro p ir _ _ ⟨t, m⟩ ⟨t', m'⟩ - ⟨h, rfl⟩; exact ⟨rfl, h, rfl⟩
  · rintro a v _ _ ⟨t, m⟩ ⟨t', m'⟩ - ⟨h, rfl⟩; exact ⟨h, rfl⟩
  · rintro a ⟨t, m⟩ ⟨t', m'⟩ ⟨h, rfl⟩; exact ⟨h, rfl⟩

/-- C77: the time at which the emulation begins does not matter: with a counter that is ahead by `k`, wherever it
wraps around, everything is the same, and the counter is ahead by `k` at the end. -/
theorem C77_shift (d : Devices O R I) {w : Nat} (k : BitVec w) (l : List Order) (c : Cpu Q) (t : BitVec w) (m : Mem)
    (i : I) :
    let r := obeyAll (machine d w) l c (t, m, i)
    let q := obeyAll (machine d w) l c (t + k, m, i)
    q.1 = r.1 ∧ q.2.1.obs = r.2.1.obs ∧ q.2.2 = (r.2.2.1 + k, r.2.2.2) := by
  intro r q
  obtain ⟨h1, h2, h3, h4⟩ := C77_alike (machines_alike d (fun t t' : BitVec w => t' = t + k)
    (by rintro t _ rfl n -; rw [BitVec.add_assoc, BitVec.add_comm k, BitVec.add_assoc])) l c
    (s := (t, m, i)) (s' := (t + k, m, i)) ⟨rfl, rfl⟩
  exact ⟨h1.symm, h2.symm, Prod.ext h3 h4.symm⟩

/-- C77: the width of the counter does not matter: with fewer bits everything is the same, and the counter has the
lower bits of the other. -/
theorem C77_width (d : Devices O R I) {w w' : Nat} (hw : w' ≤ w) (l : List Order) (c : Cpu Q) (t : BitVec w) (m : Mem)
    (i : I) :
    let r := obeyAll (machine d w) l c (t, m, i)
    let q := obeyAll (machine d w') l c (t.setWidth w', m, i)
    q.1 = r.1 ∧ q.2.1.obs = r.2.1.obs ∧ q.2.2 = (r.2.2.1.setWidth w', r.2.2.2) := by
  intro r q
  obtain ⟨h1, h2, h3, h4⟩ := C77_alike (machines_alike d (fun (t : BitVec w) (t' : BitVec w') => t' = t.setWidth w')
    (by rintro t _ rfl n -; rw [BitVec.setWidth_add _ _ hw, BitVec.setWidth_ofNat_of_le hw])) l c
    (s := (t, m, i)) (s' := (t.setWidth w', m, i)) ⟨rfl, rfl⟩
  exact ⟨h1.symm, h2.symm, Prod.ext h3 h4.symm⟩

/-- C77: nor does it matter whether the counter is signed, unless a limit is given. -/
theorem C77_signed (d : Devices O R I) {w : Nat} (l : List Order) (c : Cpu Q) (s : BitVec w × Mem × I) :
    let r := obeyAll (machine d w) l c s
    let q := obeyAll (tsHostSigned (ramBus (d.on w))) l c s
    q.1 = r.1 ∧ q.2.1.obs = r.2.1.obs ∧ q.2.2 = r.2.2 := by
  intro r q
  have ha : HostsAlike (machine d w) (tsHostSigned (ramBus (d.on w))) Eq Eq := by
    constructor <;> intros <;> subst_vars <;> first | exact ⟨rfl, rfl⟩ | rfl
  obtain ⟨h1, h2, h3⟩ := C77_alike ha l c (s := s) rfl
  exact ⟨h1.symm, h2.symm, h3.symm⟩

end

/-- Devices that remember what was written, ask for wait states, and always want an interrupt. -/
def alike_devices : Devices U8 Unit (List U8) where
  readIo _ i := ((i.headD 0, some 3), i)
  writeIo _ v i := ((some v, some 300), v :: i)
  isIrq i := (true, i)
  irqData _ i := ((0xFF, none), i)
  reti _ i := (none, i)

/-- `LD A,5`, `OUT (7),A`, `EI`, `INC A` and an interrupt in mode 0, and an NMI: a counter of 8 bits that begins at 250
and one of 32 bits that begins at 1018. -/
def alike_case (w : Nat) (t : BitVec w) : Nat × List U8 × U8 × U16 × List Bool :=
  let r := obeyAll (machine alike_devices w) [.next, .next, .next, .next, .next, .nmi, .irq] (Cpu.new : Cpu NMOS)
    (t, Z80.program [0x3E, 5, 0xD3, 7, 0xFB, 0x3C], [])
  (r.2.2.1.toNat, r.2.2.2.2, r.2.1.obs.a, r.2.1.obs.pc, r.1.map Option.isSome)

example : alike_case 32 1018 = (1368, [5], 6, 0x66, [true, true, true, true, true, true, false]) ∧
    alike_case 8 250 = (1368 % 256, [5], 6, 0x66, [true, true, true, true, true, true, false]) := by decide +kernel

end Z80
