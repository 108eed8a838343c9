import Lean.Meta.Tactic.Simp.RegisterCommand

/-- Lemmas that evaluate programs of the Rust fragment. -/
register_simp_attr src

/-- What a continuation does with the outcomes it can be handed. -/
register_simp_attr srcCtl
