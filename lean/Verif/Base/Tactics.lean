import Mathlib.Tactic.Ring
import Mathlib.Tactic.NormNum
import Mathlib.Tactic.Positivity
import Mathlib.Tactic.Set
import Mathlib.Tactic.ByContra
import Mathlib.Tactic.Conv
import Batteries.Tactic.PermuteGoals

/-! Tactics used throughout. -/
