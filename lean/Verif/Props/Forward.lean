import Verif.Model.Forward
import Verif.Model.Disasm
import Verif.Proofs.Deaf
import Verif.Proofs.Demo

/-!
# C50: wrapped hosts

A host wrapped with the forwarding macros behaves as the host itself, a wrapper may watch the
calls, and methods left out are the default ones. `p` stands for any call of the CPU: `executeNext`,
`executeInstruction`, `executeWithLimit`, `irq` and `nmi` are such trees of host calls.
-/

namespace Z80
open Forward

variable {σ : Sig} {Q W S X α : Type}

/-- The macros forward every method: those of the three traits together are all methods, and the
parts `@ref` and `@mut` together are the whole, without overlap. -/
theorem C50_groups :
    (∀ m, (clock ++ io ++ memory).count m = 1) ∧ (clockRef ++ clockMut).Perm clock ∧
      (memoryRef ++ memoryMut).Perm memory := by
  refine ⟨fun m => by cases m <;> rfl, by decide +kernel, by decide +kernel⟩

/-- A wrapper that forwards every method, for any host and any call of the CPU: the result is the
one obtained with the wrapped host, the wrapped host ends in the same state after the same calls with
the same answers, and nothing else in the wrapper is changed. -/
theorem C50_transparent (l : Place W S) (H : Handler σ S) {ms : List Meth}
    (hms : ∀ m ∈ clock ++ io ++ memory, m ∈ ms) (p : Prog σ α) (w : W) :
    p.run (wrap l H ms .none) w = ((p.run H (l.get w)).1, l.set (p.run H (l.get w)).2 w) ∧
      p.trace (wrap l H ms .none) w = p.trace H (l.get w) := by
  have hw : ∀ r w, wrap l H ms .none r w = via l H r w := by
    intro r w
    have hm : ∀ m : Meth, ms.contains m = true := fun m =>
      List.contains_iff_mem.2 (hms m (by
        have := C50_groups.1 m
        exact List.count_pos_iff.1 (by omega)))
    unfold wrap
    cases r <;> first | exact if_pos (hm _) | rfl
  induction p generalizing w with
  | ret a => exact ⟨by rw [Prog.run, Prog.run, l.set_get], rfl⟩
  | call r k ih =>
    obtain ⟨h1, h2⟩ := ih (H r (l.get w)).1 (l.set (H r (l.get w)).2 w)
    rw [l.get_set] at h1 h2
    rw [l.set_set] at h1
    constructor
    · show (k (wrap l H ms .none r w).1).run _ (wrap l H ms .none r w).2 = _
      rw [hw]
      exact h1
    · show (⟨r, (wrap l H ms .none r w).1⟩ : Ev σ) ::
        (k (wrap l H ms .none r w).1).trace _ (wrap l H ms .none r w).2 = _
      rw [hw]
      exact congrArg _ h2

/-- Wrappers of wrappers: forwarding twice is forwarding from the inner place. -/
theorem C50_nested {V : Type} (l : Place W S) (l' : Place V W) (H : Handler σ S) {ms ms' : List Meth}
    (hms : ∀ m ∈ clock ++ io ++ memory, m ∈ ms) (hms' : ∀ m ∈ clock ++ io ++ memory, m ∈ ms')
    (p : Prog σ α) (v : V) :
    (p.run (wrap l' (wrap l H ms .none) ms' .none) v).1 = (p.run H (l.get (l'.get v))).1 ∧
      l.get (l'.get (p.run (wrap l' (wrap l H ms .none) ms' .none) v).2) =
        (p.run H (l.get (l'.get v))).2 := by
  obtain ⟨h1, -⟩ := C50_transparent l' (wrap l H ms .none) hms' p v
  obtain ⟨h2, -⟩ := C50_transparent l H hms p (l'.get v)
  rw [h1, h2]
  refine ⟨rfl, ?_⟩
  show l.get (l'.get (l'.set _ v)) = _
  rw [l'.get_set]
  exact l.get_set _ _

/-- The byte of the last call of `irq_data`, or what was there before. -/
def lastData (b : Option U8) : List (Ev σ) → Option U8
  | [] => b
  | ⟨.irqData _ _, a⟩ :: t => lastData (some a.1) t
  | _ :: t => lastData b t

/-- The wrapper of the documentation, which captures the data of interrupting devices: every call of
the CPU has the same result and the same effect on the wrapped host, by the same calls, and the byte
captured is the one of the last `irq_data`. -/
theorem C50_capture (H : Handler σ S) (p : Prog σ α) (s : S) (b : Option U8) :
    p.run (wrap (first S (Option U8)) H captureMs (capture H)) (s, b) =
        ((p.run H s).1, ((p.run H s).2, lastData b (p.trace H s))) ∧
      p.trace (wrap (first S (Option U8)) H captureMs (capture H)) (s, b) = p.trace H s := by
  induction p generalizing s b with
  | ret a => exact ⟨rfl, rfl⟩
  | call r k ih =>
    have hm : captureMs.contains .irqData = false := by decide
    have hall : ∀ m, m ≠ .irqData → captureMs.contains m = true := by
      intro m h; cases m <;> first | rfl | exact absurd rfl h
    have hw : ∃ b', wrap (first S (Option U8)) H captureMs (capture H) r (s, b) =
        ((H r s).1, ((H r s).2, b')) ∧
        lastData b (⟨r, (H r s).1⟩ :: (k (H r s).1).trace H (H r s).2) =
          lastData b' ((k (H r s).1).trace H (H r s).2) := by
      cases r <;> exact ⟨_, rfl, rfl⟩
    obtain ⟨b', h1, h2⟩ := hw
    obtain ⟨h3, h4⟩ := ih (H r s).1 (H r s).2 b'
    constructor
    · show (k (wrap _ H captureMs (capture H) r (s, b)).1).run _
        (wrap _ H captureMs (capture H) r (s, b)).2 = _
      rw [h1]
      refine h3.trans ?_
      rw [Prog.trace, h2]
      rfl
    · show (⟨r, (wrap _ H captureMs (capture H) r (s, b)).1⟩ : Ev σ) ::
        (k (wrap _ H captureMs (capture H) r (s, b)).1).trace _
          (wrap _ H captureMs (capture H) r (s, b)).2 = _
      rw [h1]
      exact congrArg _ h4

section
variable [Flavour Q]

/-- `read_debug` is for debuggers only, as its documentation says: without a debugger, two hosts that
differ in nothing but the bytes answered by `read_debug` cannot be told apart by any call of the
CPU. -/
theorem C50_read_debug {H H' : Handler σ S} (hr : ∀ r, (∀ a, r ≠ .readDebug a) → ∀ s, H r s = H' r s)
    (hd : ∀ a s, (H (.readDebug a) s).2 = (H' (.readDebug a) s).2) (c : Cpu Q) (s : S) :
    (executeNext false c).run H s = (executeNext false c).run H' s ∧
      (∀ code, (executeInstruction false code c).run H s = (executeInstruction false code c).run H' s) ∧
      (irq false c).run H s = (irq false c).run H' s ∧ (nmi c).run H s = (nmi c).run H' s ∧
      (∀ n l, (executeWithLimit n l c).run H s = (executeWithLimit n l c).run H' s) :=
  ⟨Prog.deaf_run (deaf_next c) hr hd s, fun code => Prog.deaf_run (deaf_instruction code c) hr hd s,
    Prog.deaf_run (deaf_irq c) hr hd s, Prog.deaf_run (deaf_nmi c) hr hd s,
    fun n l => Prog.deaf_run (deaf_limit n l c) hr hd s⟩

/-- So a wrapper that forwards every method but `read_debug`, which is then the default one, still
behaves as the wrapped host, if `read_debug` of that host is without effect. -/
theorem C50_without_read_debug (l : Place W S) (H : Handler σ S)
    (hd : ∀ a s, (H (.readDebug a) s).2 = s) {ms : List Meth}
    (hms : ∀ m, m ∈ ms ↔ m ≠ .readDebug) (c : Cpu Q) (w : W) :
    (executeNext false c).run (wrap l H ms .none) w =
        (((executeNext false c).run H (l.get w)).1,
          l.set ((executeNext false c).run H (l.get w)).2 w) ∧
      ∀ n lim, (executeWithLimit n lim c).run (wrap l H ms .none) w =
        (((executeWithLimit n lim c).run H (l.get w)).1,
          l.set ((executeWithLimit n lim c).run H (l.get w)).2 w) := by
  have hr : ∀ r, (∀ a, r ≠ .readDebug a) → ∀ w, wrap l H ms .none r w =
      wrap l H (clock ++ io ++ memory) .none r w := by
    intro r hr w
    have hm : ∀ m, m ≠ .readDebug → ms.contains m = true := fun m h =>
      List.contains_iff_mem.2 ((hms m).2 h)
    unfold wrap
    cases r <;> first
      | exact absurd rfl (hr _)
      | rfl
      | exact (if_pos (hm _ (by decide))).trans (if_pos rfl).symm
  have hd' : ∀ a w, (wrap l H ms .none (.readDebug a) w).2 =
      (wrap l H (clock ++ io ++ memory) .none (.readDebug a) w).2 := by
    intro a w
    have hm : ms.contains .readDebug = false := by
      cases h : ms.contains .readDebug
      · rfl
      · exact absurd rfl ((hms _).1 (List.contains_iff_mem.1 h))
    have h1 : wrap l H ms .none (.readDebug a) w = (0xFF#8, w) := by
      show (if ms.contains .readDebug then _ else _) = _
      rw [hm]
      rfl
    have h2 : wrap l H (clock ++ io ++ memory) .none (.readDebug a) w = via l H (.readDebug a) w := rfl
    rw [h1, h2]
    show w = l.set (H (.readDebug a) (l.get w)).2 w
    rw [hd, l.set_get]
  have h := C50_read_debug (Q := Q) hr hd' c w
  exact ⟨h.1.trans (C50_transparent l H (fun _ h => h) _ w).1,
    fun n lim => (h.2.2.2.2 n lim).trans (C50_transparent l H (fun _ h => h) _ w).1⟩

end

/-- With a debugger the answer does matter: the record of a branch not taken (`JR NZ,e`) contains the
byte answered by `read_debug`. -/
theorem C50_read_debug_seen : ∃ (H H' : Handler (tsSig 16 Unit Unit) (List CpuDebug)) (c : Cpu NMOS),
    (∀ r, (∀ a, r ≠ .readDebug a) → ∀ s, H r s = H' r s) ∧
      (∀ a s, (H (.readDebug a) s).2 = (H' (.readDebug a) s).2) ∧
      (((executeNext true c).run H []).2.map CpuDebug.code,
        ((executeNext true c).run H' []).2.map CpuDebug.code) =
          ([[0x20#8, 1#8]], [[0x20#8, 2#8]]) := by
  let B : U8 → Handler (tsSig 16 Unit Unit) (List CpuDebug) := fun e r s =>
    match r with
    | .readOpcode _ _ _ => (0x20#8, s)
    | .readDebug _ => (e, s)
    | .isPastLimit _ => (false, s)
    | .addIrq _ => (0, s)
    | .addNoMreq _ _ => ((), s)
    | .addM1 _ => (0, s)
    | .addMreq _ => (0, s)
    | .addIo _ => (0, s)
    | .addWait _ _ => ((), s)
    | .asTimestamp => (0, s)
    | .readIo _ _ => ((0, none), s)
    | .writeIo _ _ _ => ((none, none), s)
    | .isIrq _ => (false, s)
    | .irqData _ _ => ((0, none), s)
    | .reti _ _ => (none, s)
    | .readMem _ _ => (0, s)
    | .readMem16 _ _ => (0, s)
    | .writeMem _ _ _ => ((), s)
    | .debug d => ((), d :: s)
  refine ⟨B 1, B 2, { (Cpu.new : Cpu NMOS) with af := ⟨0, 0x40⟩ }, ?_, ?_, ?_⟩
  · intro r hr s
    cases r <;> first | rfl | exact absurd rfl (hr _)
  · intro a s; rfl
  · decide +kernel

/-- What is not forwarded is replaced by the default method: a wrapper that forwards the memory and
the clock only sees no device. Whatever the devices of the wrapped host do, inputs read 0xFF, nothing
is written to them, no interrupt is requested, and no method of `Io` of the wrapped host is called. -/
theorem C50_left_out (l : Place W S) (H : Handler σ S) (w : W) :
    (∀ p ts, wrap l H (clock ++ memory) .none (.readIo p ts) w = ((0xFF#8, none), w)) ∧
      (∀ p v ts, wrap l H (clock ++ memory) .none (.writeIo p v ts) w = ((none, none), w)) ∧
      (∀ ts, wrap l H (clock ++ memory) .none (.isIrq ts) w = (false, w)) ∧
      (∀ pc ts, wrap l H (clock ++ memory) .none (.irqData pc ts) w = ((0xFF#8, none), w)) ∧
      (∀ a ts, wrap l H (clock ++ memory) .none (.reti a ts) w = (none, w)) :=
  ⟨fun _ _ => rfl, fun _ _ _ => rfl, fun _ => rfl, fun _ _ => rfl, fun _ _ => rfl⟩

/-- Such a wrapper never accepts a maskable interrupt, and I/O instructions have no effect on the
wrapped host: all calls the host receives are calls of `Clock` and `Memory`. -/
theorem C50_no_devices (l : Place W S) (H H' : Handler σ S)
    (hH : ∀ r s, (∀ m ∈ r.meth, m ∉ io) → H r s = H' r s) (p : Prog σ α) (w : W) :
    p.run (wrap l H (clock ++ memory) .none) w = p.run (wrap l H' (clock ++ memory) .none) w := by
  have hw : ∀ r w, wrap l H (clock ++ memory) .none r w = wrap l H' (clock ++ memory) .none r w := by
    intro r w
    have : (∀ m ∈ r.meth, m ∉ io) → via l H r w = via l H' r w := fun h => by
      unfold via
      rw [hH r _ h]
    cases r <;> first | rfl | exact this (fun m h => by cases h <;> decide)
  induction p generalizing w with
  | ret a => rfl
  | call r k ih =>
    show (k _).run _ _ = (k _).run _ _
    rw [hw, ih]

/-- A type that implements `read_debug` and `write_mem` over 64K of memory. -/
def ramOwn {I : Type} : Own σ (Mem × I)
  | .readDebug a => some fun w => (w.1 a, w)
  | .writeMem a v _ => some fun w => ((), (w.1.set a v, w.2))
  | _ => none

/-- With these two methods alone, the default methods make the memory the plain one of the other
properties: `read_mem`, `read_mem16` and `read_opcode` return what was written. -/
theorem C50_plain_memory {I : Type} (l : Place (Mem × I) S) (H : Handler σ S) (ios : Handler σ I)
    (r : Req σ) (hr : ∃ m ∈ memory, r.meth = some m) (w : Mem × I) :
    wrap l H [] ramOwn r w = ramBus ios r w := by
  obtain ⟨m, hm, hr⟩ := hr
  cases r <;> first
    | rfl
    | (cases hr <;> exact absurd hm (by decide))

/-- A type that implements `read_debug` alone, like the memory of the disassembler: the default
methods are those of the bus it is modelled with. -/
theorem C50_slice {w : Nat} {O R B : Type} (l : Place B S) (H : Handler (tsSig w O R) S)
    (rd : U16 → U8) (deb : CpuDebug → B → B) (r : Req (tsSig w O R))
    (hr : ∃ m ∈ io ++ memory, r.meth = some m) (b : B) :
    wrap l H [] (fun r => match r with
      | .readDebug a => some fun b => (rd a, b)
      | _ => none) r b = defaultBus rd deb r b := by
  obtain ⟨m, hm, hr⟩ := hr
  cases r <;> first
    | rfl
    | (cases hr <;> exact absurd hm (by decide))

/-- A wrapper around the demo machine: the hypotheses of `C50_transparent`, `C50_without_read_debug`
can be met, and a program that writes to memory runs in it. -/
example :
    ((executeNext false { (Cpu.new : Cpu NMOS) with af := ⟨7, 0⟩ }).run
      (wrap (first _ Nat) demo (clock ++ io ++ memory) .none)
        ((0, program [0x32, 0x00, 0x80], ()), 5)).2.1.2.1 0x8000 = 7 ∧
    (∀ a s, (demo (.readDebug a) s).2 = s) ∧
    (∀ m, m ∈ clock ++ io ++ [.readOpcode, .readMem, .readMem16, .writeMem] ↔ m ≠ .readDebug) := by
  refine ⟨by decide +kernel, fun _ _ => rfl, fun m => ?_⟩
  cases m <;> decide

/-- An interrupt in mode 1 with the byte 0x55 on the bus, captured by the wrapper. -/
example :
    ((executeNext false { (Cpu.new : Cpu NMOS) with iff1 := true, im := .mode1 }).run
      (wrap (first _ _) (ramHost (demoIo true 0x55 none none)) captureMs
        (capture (ramHost (demoIo true 0x55 none none))))
        ((0, program [], ()), none)).2.2 = some 0x55 := by decide +kernel

end Z80
