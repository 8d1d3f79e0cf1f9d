import Verif.Spec.Clock
import Verif.Model.Clock
import Verif.Proofs.Demo

/-!
# C42: the host clock counter

Any program of host calls, run with a `TsCounter` of any width next to any memory and devices. The
program may be `execute_next`, any other method of the CPU, or any sequence of calls a user makes.
-/

set_option linter.constructorNameAsVariable false

namespace Z80
open Spec
variable {w : Nat} {O R B α : Type}

/-- `H` behaves as a counter that adds what the calls say, modulo 2^w. -/
def Counts (H : Handler (tsSig w O R) (BitVec w × B)) : Prop :=
  ∀ r t b, (H r (t, b)).2.1.toNat = (t.toNat + passes r) % 2 ^ w ∧
    ∀ x, stamp? ⟨r, (H r (t, b)).1⟩ = some x → x.toNat = (t.toNat + reports r) % 2 ^ w

/-- What is said about the counter itself, whatever is answered. -/
def Adds (H : Handler (tsSig w O R) (BitVec w × B)) : Prop :=
  ∀ r t b, (H r (t, b)).2.1.toNat = (t.toNat + passes r) % 2 ^ w

theorem Counts.adds {H : Handler (tsSig w O R) (BitVec w × B)} (h : Counts H) : Adds H := fun r t b => (h r t b).1

theorem counts (bus : Bus (tsSig w O R) B) : Counts (tsHost bus) := by
  intro r t b
  have h0 : ∀ x : BitVec w, x.toNat = (x.toNat + 0) % 2 ^ w := fun x =>
    (Nat.mod_eq_of_lt x.isLt).symm
  have h1 : ∀ n, (t + BitVec.ofNat w n).toNat = (t.toNat + n) % 2 ^ w := fun n => by
    rw [BitVec.toNat_add, BitVec.toNat_ofNat, Nat.add_mod_mod]
  have h2 : ∀ {m} (n : BitVec m), (t + n.setWidth w).toNat = (t.toNat + n.toNat) % 2 ^ w := fun n => by
    rw [BitVec.toNat_add, BitVec.toNat_setWidth, Nat.add_mod_mod]
  cases r with
  | addM1 a => exact ⟨h1 4, fun x h => by cases h; exact h1 4⟩
  | addMreq a => exact ⟨h1 3, fun x h => by cases h; exact h1 3⟩
  | addIo a => exact ⟨h1 4, fun x h => by cases h; exact h1 1⟩
  | addIrq a => exact ⟨h1 6, fun x h => by cases h; exact h1 2⟩
  | addNoMreq a n => exact ⟨h2 n, fun x h => by cases h⟩
  | addWait a n => exact ⟨h2 n, fun x h => by cases h⟩
  | asTimestamp => exact ⟨h0 t, fun x h => by cases h; exact h0 t⟩
  | _ => exact ⟨h0 t, fun x h => by cases h⟩

theorem counts_signed (bus : Bus (tsSig w O R) B) : Counts (tsHostSigned bus) := by
  intro r t b
  cases r with
  | isPastLimit l => exact ⟨(Nat.mod_eq_of_lt t.isLt).symm, fun x h => by cases h⟩
  | _ => exact counts bus _ t b

theorem counts_trace {H : Handler (tsSig w O R) (BitVec w × B)} (hH : Adds H)
    (p : Prog (tsSig w O R) α) (t : BitVec w) (b : B) {u v : List (Ev (tsSig w O R))}
    {e : Ev (tsSig w O R)} (h : p.trace H (t, b) = u ++ e :: v) :
    ∃ s : BitVec w × B, s.1.toNat = (t.toNat + elapsed u) % 2 ^ w ∧ e = ⟨e.req, (H e.req s).1⟩ := by
  induction p generalizing t b u with
  | ret a => cases u <;> cases h
  | call r k ih =>
    cases u with
    | nil =>
      injection h with h1 h2
      subst h1
      exact ⟨(t, b), (Nat.mod_eq_of_lt t.isLt).symm, rfl⟩
    | cons f u =>
      injection h with h1 h2
      subst h1
      obtain ⟨s, h3, h4⟩ := ih _ (H r (t, b)).2.1 (H r (t, b)).2.2 h2
      refine ⟨s, ?_, h4⟩
      rw [h3, hH r t b]
      show _ = (t.toNat + (passes r + elapsed u)) % 2 ^ w
      rw [Nat.mod_add_mod, Nat.add_assoc]

/-- The counter after a program, modulo 2^w. -/
theorem counts_run {H : Handler (tsSig w O R) (BitVec w × B)} (hH : Adds H)
    (p : Prog (tsSig w O R) α) (t : BitVec w) (b : B) :
    (p.run H (t, b)).2.1.toNat = (t.toNat + elapsed (p.trace H (t, b))) % 2 ^ w := by
  induction p generalizing t b with
  | ret a => exact (Nat.mod_eq_of_lt t.isLt).symm
  | call r k ih =>
    refine (ih (H r (t, b)).1 (H r (t, b)).2.1 (H r (t, b)).2.2).trans ?_
    rw [hH r t b, Nat.mod_add_mod, Nat.add_assoc]
    rfl

/-- C42: after any calls the counter has advanced by the documented T-states of the calls, modulo
2^w. -/
theorem C42_counter (bus : Bus (tsSig w O R) B) (p : Prog (tsSig w O R) α) (t : BitVec w) (b : B) :
    (p.run (tsHost bus) (t, b)).2.1.toNat =
      (t.toNat + elapsed (p.trace (tsHost bus) (t, b))) % 2 ^ w :=
  counts_run (counts bus).adds p t b

/-- C42: every timestamp given is the time when the call was made, plus the documented offset within
the cycle, modulo 2^w. -/
theorem C42_timestamps (bus : Bus (tsSig w O R) B) (p : Prog (tsSig w O R) α) (t : BitVec w) (b : B)
    {u v : List (Ev (tsSig w O R))} {e : Ev (tsSig w O R)}
    (h : p.trace (tsHost bus) (t, b) = u ++ e :: v) {x : BitVec w} (hx : stamp? e = some x) :
    x.toNat = (t.toNat + elapsed u + reports e.req) % 2 ^ w := by
  obtain ⟨s, h1, h2⟩ := counts_trace (counts bus).adds p t b h
  rw [h2] at hx
  rw [(counts bus e.req s.1 s.2).2 x hx, h1, Nat.mod_add_mod]

/-- C42: the limit test compares the time when it is made, modulo 2^w, with the limit. -/
theorem C42_limit (bus : Bus (tsSig w O R) B) (p : Prog (tsSig w O R) α) (t : BitVec w) (b : B)
    {u v : List (Ev (tsSig w O R))} {l : BitVec w} {x : Bool}
    (h : p.trace (tsHost bus) (t, b) = u ++ ⟨.isPastLimit l, x⟩ :: v) :
    x = true ↔ l.toNat ≤ (t.toNat + elapsed u) % 2 ^ w := by
  obtain ⟨s, h1, h2⟩ := counts_trace (counts bus).adds p t b h
  have h3 : x = decide (l ≤ s.1) := congrArg (fun e : Ev (tsSig w O R) =>
    match e with | ⟨.isPastLimit _, y⟩ => y | _ => false) h2
  rw [h3, ← h1]
  exact decide_eq_true_iff

/-- C42: without wrapping, time is the plain sum. -/
theorem C42_no_wrap (bus : Bus (tsSig w O R) B) (p : Prog (tsSig w O R) α) (t : BitVec w) (b : B)
    (h : t.toNat + elapsed (p.trace (tsHost bus) (t, b)) < 2 ^ w) :
    (p.run (tsHost bus) (t, b)).2.1.toNat = t.toNat + elapsed (p.trace (tsHost bus) (t, b)) := by
  rw [C42_counter, Nat.mod_eq_of_lt h]

theorem signed_of {x t : BitVec w} {n : Nat} (h : x.toNat = (t.toNat + n) % 2 ^ w) :
    x.toInt = (t.toInt + n).bmod (2 ^ w) := by
  rw [BitVec.toInt_eq_toNat_bmod, h, BitVec.toInt_eq_toNat_bmod, Int.bmod_add_bmod,
    Int.natCast_emod, Int.natCast_add]
  exact Int.emod_bmod ..

/-- C42: signed counters: the same, in two's complement. -/
theorem C42_counter_signed (bus : Bus (tsSig w O R) B) (p : Prog (tsSig w O R) α) (t : BitVec w)
    (b : B) : (p.run (tsHostSigned bus) (t, b)).2.1.toInt =
      (t.toInt + elapsed (p.trace (tsHostSigned bus) (t, b))).bmod (2 ^ w) :=
  signed_of (counts_run (counts_signed bus).adds p t b)

/-- C42: the limit test of a signed counter compares signed values. -/
theorem C42_limit_signed (bus : Bus (tsSig w O R) B) (p : Prog (tsSig w O R) α) (t : BitVec w) (b : B)
    {u v : List (Ev (tsSig w O R))} {l : BitVec w} {x : Bool}
    (h : p.trace (tsHostSigned bus) (t, b) = u ++ ⟨.isPastLimit l, x⟩ :: v) :
    x = true ↔ l.toInt ≤ (t.toInt + elapsed u).bmod (2 ^ w) := by
  obtain ⟨s, h1, h2⟩ := counts_trace (counts_signed bus).adds p t b h
  have h3 : x = l.sle s.1 := congrArg (fun e : Ev (tsSig w O R) =>
    match e with | ⟨.isPastLimit _, y⟩ => y | _ => false) h2
  rw [h3, ← signed_of h1, BitVec.sle_iff_toInt_le]

/-- C42: signed counters: timestamps. -/
theorem C42_timestamps_signed (bus : Bus (tsSig w O R) B) (p : Prog (tsSig w O R) α) (t : BitVec w)
    (b : B) {u v : List (Ev (tsSig w O R))} {e : Ev (tsSig w O R)}
    (h : p.trace (tsHostSigned bus) (t, b) = u ++ e :: v) {x : BitVec w} (hx : stamp? e = some x) :
    x.toInt = (t.toInt + (elapsed u + reports e.req : Nat)).bmod (2 ^ w) := by
  obtain ⟨s, h1, h2⟩ := counts_trace (counts_signed bus).adds p t b h
  rw [h2] at hx
  refine signed_of ?_
  rw [(counts_signed bus e.req s.1 s.2).2 x hx, h1, Nat.mod_add_mod, Nat.add_assoc]

/-- An M1 cycle, a port cycle with 3 wait states and a limit test, from 65530 on: the counter wraps
to 5, the port was accessed at time 65535, and the limit 5 is reached but 6 is not; as signed
integers −6 becomes 5, past the limit −1. -/
example :
    let p : Prog (tsSig 16 Unit Unit) (BitVec 16 × Bool × Bool) :=
      .call (.addM1 0) fun _ => .call (.addIo 7) fun (x : BitVec 16) => .call (.addWait 7 3) fun _ =>
        .call (.isPastLimit 5#16) fun (y : Bool) => .call (.isPastLimit 6#16) fun (z : Bool) => .ret (x, y, z)
    (p.run (tsHost (demoIo false 0 none none)) (65530#16, ())).1 = (65535#16, true, false) ∧
      (p.run (tsHost (demoIo false 0 none none)) (65530#16, ())).2.1 = 5#16 ∧
      elapsed (p.trace (tsHost (demoIo false 0 none none)) (65530#16, ())) = 11 ∧
      ((Prog.call (.isPastLimit (-1#16)) fun (x : Bool) => .ret x : Prog (tsSig 16 Unit Unit) Bool).run
        (tsHostSigned (demoIo false 0 none none)) (5#16, ())).1 = true := by decide +kernel

end Z80
