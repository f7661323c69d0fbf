import Mathlib.Data.Real.Basic
import Mathlib.Algebra.BigOperators.Group.Finset.Basic

/-!
# Positive definiteness and triangular factors
-/

namespace Verif

/-- The leading `n`-by-`n` part of `m` is symmetric. -/
def SymmetricN (n : Nat) (m : Nat → Nat → ℝ) : Prop := ∀ a < n, ∀ b < n, m a b = m b a

/-- The quadratic form of the leading `n`-by-`n` part. -/
noncomputable def quadForm (n : Nat) (m : Nat → Nat → ℝ) (x : Nat → ℝ) : ℝ :=
  ∑ a ∈ Finset.range n, ∑ b ∈ Finset.range n, x a * m a b * x b

/-- `xᵀ m x > 0` for every vector that is not zero. -/
def PositiveDefiniteN (n : Nat) (m : Nat → Nat → ℝ) : Prop :=
  ∀ x : Nat → ℝ, (∃ a < n, x a ≠ 0) → 0 < quadForm n m x

/-- `l` is lower triangular with positive diagonal and `l lᵀ = m`. -/
structure CholeskyFactor (n : Nat) (m l : Nat → Nat → ℝ) : Prop where
  lower : ∀ a < n, ∀ b < n, a < b → l a b = 0
  diagonal : ∀ a < n, 0 < l a a
  product : ∀ a < n, ∀ b < n, ∑ k ∈ Finset.range n, l a k * l b k = m a b

end Verif
