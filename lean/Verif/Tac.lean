import Mathlib.Tactic.SplitIfs
import Mathlib.Tactic.ByContra

/-! Tactics used in the proofs. -/
