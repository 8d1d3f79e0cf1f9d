import Verif.Model.Host

/-!
# `TsCounter` over signed integers (`/repo/src/host.rs` 437-501)
-/

namespace Z80
variable {w : Nat} {O R B : Type}

/-- `TsCounter<T>` with `T` a signed integer of `w` bits in two's complement: `Wrapping` addition is
the same as for unsigned integers, and `>=` in `is_past_limit` compares signed values. -/
def tsHostSigned (bus : Bus (tsSig w O R) B) : Handler (tsSig w O R) (BitVec w × B)
  | .isPastLimit l, (t, b) => (l.sle t, (t, b))
  | r, s => tsHost bus r s

end Z80
