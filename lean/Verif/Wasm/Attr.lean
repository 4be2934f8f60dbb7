import Lean.Meta.Tactic.Simp.RegisterCommand

/-- Rules for symbolic execution of Wasm code. -/
register_simp_attr wps
