import Mathlib.Tactic.Attr.Register

/-! The simp set used to unfold the calendar rules into propositions. -/

/-- Turns Boolean calendar rules into propositions about day, month and year. -/
register_simp_attr excl_rules
