import Verif.Model.Host

/-!
# Wrapped hosts (`/repo/src/macros.rs`) and the default methods of the host traits

The macros `forward_host_clock_methods!`, `forward_host_io_methods!` and
`forward_host_memory_methods!` write the methods of an `impl` block of a wrapper type: each method
named in the argument of the macro calls the same method of the wrapped object with the same
arguments. What an `impl` block leaves out is taken from the default methods of the trait.
-/

namespace Z80

/-- The methods of the traits `Clock`, `Io` and `Memory` (`/repo/src/host.rs` 174-387). -/
inductive Meth
  | isPastLimit | addIrq | addNoMreq | addM1 | addMreq | addIo | addWaitStates | asTimestamp
  | readIo | writeIo | isIrq | irqData | reti
  | readMem | readMem16 | readOpcode | writeMem | readDebug
deriving DecidableEq, Repr

/-- The method called by a request; none for the debug callback, which is an argument of its own
and not part of the host. -/
def Req.meth {σ : Sig} : Req σ → Option Meth
  | .isPastLimit _ => some .isPastLimit
  | .addIrq _ => some .addIrq
  | .addNoMreq _ _ => some .addNoMreq
  | .addM1 _ => some .addM1
  | .addMreq _ => some .addMreq
  | .addIo _ => some .addIo
  | .addWait _ _ => some .addWaitStates
  | .asTimestamp => some .asTimestamp
  | .readIo _ _ => some .readIo
  | .writeIo _ _ _ => some .writeIo
  | .isIrq _ => some .isIrq
  | .irqData _ _ => some .irqData
  | .reti _ _ => some .reti
  | .readMem _ _ => some .readMem
  | .readMem16 _ _ => some .readMem16
  | .readOpcode _ _ _ => some .readOpcode
  | .writeMem _ _ _ => some .writeMem
  | .readDebug _ => some .readDebug
  | .debug _ => none

namespace Forward

/-- `forward_host_clock_methods! { @ => .. }` (`/repo/src/macros.rs` 175-186). -/
def clock : List Meth :=
  [.isPastLimit, .addIrq, .addNoMreq, .addM1, .addMreq, .addIo, .addWaitStates, .asTimestamp]
/-- `forward_host_clock_methods! { @ref => .. }` (`/repo/src/macros.rs` 188-192). -/
def clockRef : List Meth := [.isPastLimit, .asTimestamp]
/-- `forward_host_clock_methods! { @mut => .. }` (`/repo/src/macros.rs` 194-203). -/
def clockMut : List Meth := [.addIrq, .addNoMreq, .addM1, .addMreq, .addIo, .addWaitStates]
/-- `forward_host_io_methods! { @ => .. }` (`/repo/src/macros.rs` 285-289). -/
def io : List Meth := [.writeIo, .readIo, .isIrq, .irqData, .reti]
/-- `forward_host_memory_methods! { @ => .. }` (`/repo/src/macros.rs` 352-356). -/
def memory : List Meth := [.readOpcode, .readMem, .readMem16, .writeMem, .readDebug]
/-- `forward_host_memory_methods! { @ref => .. }` (`/repo/src/macros.rs` 358-362). -/
def memoryRef : List Meth := [.readMem, .readMem16, .readDebug]
/-- `forward_host_memory_methods! { @mut => .. }` (`/repo/src/macros.rs` 364-368). -/
def memoryMut : List Meth := [.readOpcode, .writeMem]

/-- The expression given to the macros as `|me| ..`: the place of the wrapped object in the wrapper.
Mutable access to a place of a Rust value has these three laws. -/
structure Place (W S : Type) where
  get : W → S
  set : S → W → W
  get_set : ∀ s w, get (set s w) = s
  set_get : ∀ w, set (get w) w = w
  set_set : ∀ s s' w, set s (set s' w) = set s w

variable {σ : Sig} {W S : Type}

/-- The body of a forwarded method (`let $this = self; ($fwd).method(args)`,
`/repo/src/macros.rs` 213-276, 299-341, 378-416). -/
def via (l : Place W S) (H : Handler σ S) (r : Req σ) (w : W) : r.Ans × W :=
  ((H r (l.get w)).1, l.set (H r (l.get w)).2 w)

/-- The default methods of `Io` and `Memory` (`/repo/src/host.rs` 244-313, 332-386); `rd` is
`read_debug` of the type in question. The methods of `Clock` have no defaults: an `impl` block without
one of them does not compile, and `other` stands for them here; it also stands for the debug
callback. -/
def defaults (rd : U16 → W → U8 × W) (other : Handler σ W) : Handler σ W
  | .readIo _ _, w => ((0xFF#8, none), w)
  | .writeIo _ _ _, w => ((none, none), w)
  | .isIrq _, w => (false, w)
  | .irqData _ _, w => ((0xFF#8, none), w)
  | .reti _ _, w => (none, w)
  | .readMem a _, w => rd a w
  | .readMem16 a _, w =>
    let lo := rd a w
    let hi := rd (a + 1#16) lo.2
    (word hi.1 lo.1, hi.2)
  | .readOpcode pc _ _, w => rd pc w
  | .writeMem _ _ _, w => ((), w)
  | .readDebug _, w => (0xFF#8, w)
  | r, w => other r w

/-- Some methods of a type, written by hand. -/
abbrev Own (σ : Sig) (W : Type) := (r : Req σ) → Option (W → r.Ans × W)

/-- No method is written by hand. -/
def Own.none : Own σ W := fun _ => .none

/-- `read_debug` of a wrapper: written by hand, forwarded or the default. -/
def readDebug (l : Place W S) (H : Handler σ S) (ms : List Meth) (own : Own σ W) (a : U16) (w : W) :
    U8 × W :=
  match own (.readDebug a) with
  | some f => f w
  | none => if ms.contains .readDebug then via l H (.readDebug a) w else (0xFF#8, w)

/-- A wrapper with the methods `own` written by hand and the methods `ms` forwarded; every other
method of `Io` and `Memory` is the default one. -/
def wrap (l : Place W S) (H : Handler σ S) (ms : List Meth) (own : Own σ W) : Handler σ W
  | r, w =>
    match own r with
    | some f => f w
    | none =>
      if r.meth.any ms.contains then via l H r w
      else defaults (readDebug l H ms own) (via l H) r w

/-- `DebugBus` of the documentation (`/repo/src/macros.rs` 38-77): `irq_data` is written by hand,
everything else is forwarded. The wrapper is the wrapped bus with the captured byte; `DebugBus`
borrows the bus instead of containing it, and the clock is a separate object that the bus does not
see, here both are part of `S`. -/
def capture (H : Handler σ S) : Own σ (S × Option U8)
  | .irqData pc ts => some fun w =>
    let r := H (.irqData pc ts) w.1
    (r.1, (r.2, some r.1.1))
  | _ => .none

/-- The place of the bus in `DebugBus` (`bus_mut`, `bus_ref`, `/repo/src/macros.rs` 45-52). -/
def first (S X : Type) : Place (S × X) S where
  get w := w.1
  set s w := (s, w.2)
  get_set _ _ := rfl
  set_get _ := rfl
  set_set _ _ _ := rfl

/-- The methods `DebugBus` forwards (`/repo/src/macros.rs` 69-70, 77-83), and a clock. -/
def captureMs : List Meth :=
  clock ++ [.writeIo, .readIo, .isIrq, .reti] ++ memoryRef ++ memoryMut

end Forward
end Z80
