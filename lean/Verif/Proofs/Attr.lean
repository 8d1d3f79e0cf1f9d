import Lean.Meta.Tactic.Simp.RegisterCommand

/-! Names of simp sets used by the proofs. -/

/-- Running CPU code on the host with memory. -/
register_simp_attr run_simps
/-- Unfolding helper functions of the model. -/
register_simp_attr code_simps
/-- Unfolding the specification of the machine. -/
register_simp_attr spec_simps
/-- Normal forms of the data appearing on both sides. -/
register_simp_attr norm_simps
