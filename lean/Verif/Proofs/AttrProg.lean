import Lean.Meta.Tactic.Simp.RegisterCommand

/-! Name of a simp set used by the proofs. -/

/-- Instruction bodies as trees of host calls. -/
register_simp_attr prog_simps
