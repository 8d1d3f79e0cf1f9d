/-!
# Machine integers and the register pair

Rust `u8`, `u16` and `Wrapping<u16>` are modelled by bit vectors, whose arithmetic wraps.
-/

namespace Z80

/-- Rust `u8`. -/
abbrev U8 := BitVec 8
/-- Rust `u16` and `Wrapping<u16>`. -/
abbrev U16 := BitVec 16

/-- High byte of a word: second element of `to_le_bytes`. -/
def hi8 (v : U16) : U8 := v.extractLsb' 8 8
/-- Low byte of a word: first element of `to_le_bytes`. -/
def lo8 (v : U16) : U8 := v.extractLsb' 0 8
/-- `u16::from_le_bytes([lo, hi])`. -/
def word (hi lo : U8) : U16 := hi ++ lo

/-- `e as i8 as u16` : sign extension of a byte (used by `relative_jump_address!`,
`/repo/src/z80/macros.rs` 439-443, and `indexed_address!`, 36-40). -/
def sext16 (e : U8) : U16 := e.signExtend 16

/-- `RegisterPair`: two bytes (`/repo/src/cpu/registers.rs` 30, stored there as `[u8;2]`
low byte first). -/
structure RegPair where
  hi : U8
  lo : U8
deriving DecidableEq, Repr, Inhabited

namespace RegPair

/-- `RegisterPair::get16` (`/repo/src/cpu/registers.rs` 88-90). -/
def get16 (p : RegPair) : U16 := word p.hi p.lo
/-- `RegisterPair::set16` / `From<u16>` (`/repo/src/cpu/registers.rs` 93-95, 180-184). -/
def of16 (v : U16) : RegPair := ⟨hi8 v, lo8 v⟩

end RegPair
end Z80
