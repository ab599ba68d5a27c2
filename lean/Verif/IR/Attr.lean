import Lean.Meta.Tactic.Simp.RegisterCommand

/-- Rewriting rules that evaluate IR operations on defined (non-poison) operands. -/
register_simp_attr ir
