import Mathlib.LinearAlgebra.Matrix.Determinant.Basic
import Mathlib.Data.Real.Basic

/-!
# Volume of a simplex
-/

namespace Verif

/-- `n!` times the signed volume of the simplex with the given vertices: the determinant of the vertices,
each preceded by a one. -/
noncomputable def simplexVolume {n : ℕ} (s : Fin (n + 1) → Fin n → ℝ) : ℝ :=
  Matrix.det (Matrix.of fun i => (Fin.cons 1 (s i) : Fin (n + 1) → ℝ))

/-- The point on the line through vertex `w` and the mean of the other vertices: `a = -1` reflects `w` in
that mean, `a = -2` goes twice as far, `a = 1 / 2` stops halfway to it. -/
noncomputable def linePoint {n : ℕ} (s : Fin (n + 1) → Fin n → ℝ) (w : Fin (n + 1)) (a : ℝ) : Fin n → ℝ :=
  fun j =>
    let mean := (∑ i ∈ Finset.univ.erase w, s i j) / n
    mean + a * (s w j - mean)

end Verif
