import Mathlib.Analysis.SpecialFunctions.Pow.Real

/-!
# Cholesky factorisation

Model of `cholesky` (`/repo/src/models/interestrate/fmm.rs` 874-894, repeated verbatim in
`/repo/src/models/forex/fx_fmm_simulator.rs` 408-428) and of `cholesky_4x4`
(`/repo/src/models/forex/fx_hhw.rs` 82-101) over the reals.  A matrix is a function of two
indices; only indices below the size matter.  Rows shorter than the matrix (an index panic in the
source) are not modelled.
-/

namespace Verif

open Classical

/-- `sum = m[i][j]; for k in 0..j { sum -= l[i][k] * l[j][k] }` (`fmm.rs` 879-882). -/
noncomputable def cholSum (m l : Nat → Nat → ℝ) (i j : Nat) : ℝ :=
  (List.range j).foldl (fun s k => s - l i k * l j k) (m i j)

/-- `l[i][j] = v`. -/
def setEntry (l : Nat → Nat → ℝ) (i j : Nat) (v : ℝ) : Nat → Nat → ℝ :=
  fun a b => if a = i ∧ b = j then v else l a b

/-- The body of the inner loop (`fmm.rs` 879-890). -/
noncomputable def cholEntry (m : Nat → Nat → ℝ) (i : Nat) (l : Nat → Nat → ℝ) (j : Nat) :
    Option (Nat → Nat → ℝ) :=
  let sum := cholSum m l i j
  if i = j then
    if sum ≤ 0 then none else some (setEntry l i i (√sum))
  else some (setEntry l i j (sum / l j j))

/-- `for j in 0..=i` (`fmm.rs` 878-891). -/
noncomputable def cholRow (m l : Nat → Nat → ℝ) (i : Nat) : Option (Nat → Nat → ℝ) :=
  (List.range (i + 1)).foldlM (cholEntry m i) l

/-- `cholesky` (`fmm.rs` 874-894) of an `n`-by-`n` matrix. -/
noncomputable def cholesky (n : Nat) (m : Nat → Nat → ℝ) : Option (Nat → Nat → ℝ) :=
  (List.range n).foldlM (cholRow m) fun _ _ => 0

/-- `Correlation4x4` (`fx_hhw.rs` 35-42). -/
structure Correlation4 where
  xiSigma : ℝ
  xiD : ℝ
  xiF : ℝ
  sigmaD : ℝ
  sigmaF : ℝ
  dF : ℝ

/-- `Correlation4x4::as_matrix` (`fx_hhw.rs` 46-61). -/
def Correlation4.matrix (c : Correlation4) : Nat → Nat → ℝ
  | 0, 0 => 1
  | 0, 1 => c.xiSigma
  | 0, 2 => c.xiD
  | 0, 3 => c.xiF
  | 1, 0 => c.xiSigma
  | 1, 1 => 1
  | 1, 2 => c.sigmaD
  | 1, 3 => c.sigmaF
  | 2, 0 => c.xiD
  | 2, 1 => c.sigmaD
  | 2, 2 => 1
  | 2, 3 => c.dF
  | 3, 0 => c.xiF
  | 3, 1 => c.sigmaF
  | 3, 2 => c.dF
  | 3, 3 => 1
  | _, _ => 0

/-- `Correlation4x4::cholesky` (`fx_hhw.rs` 66-69). -/
noncomputable def Correlation4.cholesky (c : Correlation4) : Option (Nat → Nat → ℝ) :=
  Verif.cholesky 4 c.matrix

/-- `Correlation4x4::is_valid` (`fx_hhw.rs` 74-76). -/
noncomputable def Correlation4.isValid (c : Correlation4) : Bool := c.cholesky.isSome

end Verif
