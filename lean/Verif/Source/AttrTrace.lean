import Lean.Meta.Tactic.Simp.RegisterCommand

/-- What comes after the outcomes of a step, for traces. -/
register_simp_attr srcAfter
