import Verif.Model.Fmm
import Verif.Spec.Hlmm

/-! # What a function does with input it does not accept -/

namespace Verif

/-- Returns the value on the condition and aborts otherwise; it never returns an `Err`. -/
def StopsUnless {α : Type} (o : Outcome α) (c : Prop) (v : α) : Prop :=
  (c → o = .ok v) ∧ (¬ c → o = .panic)

/-- Returns some value exactly on the condition and aborts otherwise. -/
def StopsExactlyUnless {α : Type} (o : Outcome α) (c : Prop) : Prop :=
  (c → ∃ v, o = .ok v) ∧ (¬ c → o = .panic)

/-- The knots of a schedule: starting at zero, strictly increasing, one more than values. -/
def ScheduleShape (knots values : List ℝ) : Prop :=
  2 ≤ knots.length ∧ values.length + 1 = knots.length ∧ (∀ k ∈ knots.head?, |k| < 1 / 10 ^ 15)
    ∧ knots.Pairwise (· < ·)

/-- The dates of a tenor: strictly increasing from a non-negative one, one more than rates. -/
def TenorShape (dates rates : List ℝ) : Prop :=
  dates.length = rates.length + 1 ∧ (∀ d ∈ dates.head?, 0 ≤ d) ∧ dates.Pairwise (· < ·)

/-- A correlation matrix of the given size up to the tolerance of the check. -/
def CorrelationShape (m : ℕ) (c : List (List ℝ)) : Prop :=
  c.length = m ∧ (∀ row ∈ c, row.length = m) ∧ ∀ i < m, ∀ j < m,
    |matAt c (i + 1) (i + 1) - 1| < 1 / 10 ^ 12
      ∧ |matAt c (i + 1) (j + 1) - matAt c (j + 1) (i + 1)| < 1 / 10 ^ 12
      ∧ |matAt c (i + 1) (j + 1)| ≤ 1 + 1 / 10 ^ 12

/-- The tolerance of the checks on correlations, inclusive. -/
def Correlates (x : ℝ) : Prop := -1.000000000001 ≤ x ∧ x ≤ 1.000000000001

/-- A correlation matrix of the given size up to the inclusive tolerance. -/
def CorrelationMatrix (m : ℕ) (c : List (List ℝ)) : Prop :=
  c.length = m ∧ (∀ row ∈ c, row.length = m) ∧ ∀ i j, 1 ≤ i → i ≤ m → 1 ≤ j → j ≤ m →
    |matAt c i i - 1| ≤ 1 / 10 ^ 12 ∧ |matAt c i j - matAt c j i| ≤ 1 / 10 ^ 12
      ∧ Correlates (matAt c i j)

/-- A table of correlations of the given size. -/
def CorrelationTable (m : ℕ) (c : List (List ℝ)) : Prop :=
  c.length = m ∧ (∀ row ∈ c, row.length = m) ∧ ∀ row ∈ c, ∀ x ∈ row, Correlates x

/-- A list of correlations of the given length. -/
def CorrelationList (m : ℕ) (l : List ℝ) : Prop := l.length = m ∧ ∀ x ∈ l, Correlates x

end Verif
