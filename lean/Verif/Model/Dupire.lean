import Verif.Model.Options
import Verif.Model.Hlmm

/-!
# The Dupire local-volatility surface

Model of `/repo/src/models/forex/dupire_local_vol.rs` over the real numbers.  The matrix of call
prices is a function of the two indices; `build` only reads it inside the grid.  Failed assertions
and indices outside a vector are panics.  Strikes that are not positive (a NaN in the source) are
not excluded by the constructor; the theorems about prices exclude them.
-/

namespace Verif

open Classical

/-- `DupireLocalVol` (`dupire_local_vol.rs` 42-50). -/
structure LocalVol where
  expiries : List ℝ
  strikes : List ℝ
  variance : List (List ℝ)

/-- `fd_t` (`dupire_local_vol.rs` 187-196); `c i` is the price at expiry `i` of the strike asked
for. -/
noncomputable def fdT (c : ℕ → ℝ) (expiries : List ℝ) (i : ℕ) : ℝ :=
  let n := expiries.length
  let x := fun i => expiries.getD i 0
  if i = 0 then (c 1 - c 0) / (x 1 - x 0)
  else if i = n - 1 then (c (n - 1) - c (n - 2)) / (x (n - 1) - x (n - 2))
  else (c (i + 1) - c (i - 1)) / (x (i + 1) - x (i - 1))

/-- `fd_k` (`dupire_local_vol.rs` 199-208). -/
noncomputable def fdK (row : ℕ → ℝ) (strikes : List ℝ) (j : ℕ) : ℝ :=
  let n := strikes.length
  let x := fun i => strikes.getD i 0
  if j = 0 then (row 1 - row 0) / (x 1 - x 0)
  else if j = n - 1 then (row (n - 1) - row (n - 2)) / (x (n - 1) - x (n - 2))
  else (row (j + 1) - row (j - 1)) / (x (j + 1) - x (j - 1))

/-- The interior stencil of `fd_kk` (`dupire_local_vol.rs` 228-231). -/
noncomputable def fdKKInner (row : ℕ → ℝ) (strikes : List ℝ) (j : ℕ) : ℝ :=
  let x := fun i => strikes.getD i 0
  let h1 := x j - x (j - 1)
  let h2 := x (j + 1) - x j
  let hs := h1 + h2
  2 * (row (j + 1) * h1 - row j * hs + row (j - 1) * h2) / (h1 * h2 * hs)

/-- `fd_kk` (`dupire_local_vol.rs` 220-232).  With three strikes or more the recursive calls at the
edges land on an interior index. -/
noncomputable def fdKK (row : ℕ → ℝ) (strikes : List ℝ) (j : ℕ) : ℝ :=
  let n := strikes.length
  if j = 0 then fdKKInner row strikes 1
  else if j = n - 1 then fdKKInner row strikes (n - 2)
  else fdKKInner row strikes j

/-- The call price at a node (`dupire_local_vol.rs` 85-93). -/
noncomputable def gridPrice (expiries strikes : List ℝ) (vols : List (List ℝ)) (spot rd rf : ℝ)
    (i j : ℕ) : ℝ :=
  let t := expiries.getD i 0
  bsCallForward (spot * Real.exp ((rd - rf) * t)) (strikes.getD j 0) ((vols.getD i []).getD j 0) t
    (Real.exp (-rd * t))

/-- The variance at a node (`dupire_local_vol.rs` 95-117). -/
noncomputable def nodeVariance (expiries strikes : List ℝ) (vols : List (List ℝ)) (spot rd rf : ℝ)
    (i j : ℕ) : ℝ :=
  let c := gridPrice expiries strikes vols spot rd rf
  let k := strikes.getD j 0
  let dcDt := fdT (fun i => c i j) expiries i
  let dcDk := fdK (c i) strikes j
  let d2cDk2 := fdKK (c i) strikes j
  let numer := dcDt + (rd - rf) * k * dcDk + rf * c i j
  let denom := k * k * d2cDk2
  let vol := (vols.getD i []).getD j 0
  let var := if 1 / 10 ^ 8 < denom ∧ 0 < numer then 2 * numer / denom else vol * vol
  max ((1 / 100) * (1 / 100)) (min (2 * 2) var)

/-- The assertion over `windows(2)` (`dupire_local_vol.rs` 75-80). -/
def windowsIncrease (xs : List ℝ) : Prop :=
  ∀ i, i + 1 < xs.length → xs.getD i 0 < xs.getD (i + 1) 0

/-- `build` (`dupire_local_vol.rs` 59-126). -/
noncomputable def LocalVol.build (expiries strikes : List ℝ) (vols : List (List ℝ))
    (spot rd rf : ℝ) : Outcome LocalVol :=
  if 3 ≤ expiries.length ∧ 3 ≤ strikes.length ∧ vols.length = expiries.length
      ∧ (∀ row ∈ vols, row.length = strikes.length)
      ∧ windowsIncrease expiries ∧ windowsIncrease strikes ∧ 0 < spot then
    .ok ⟨expiries, strikes, (List.range expiries.length).map fun i =>
      (List.range strikes.length).map fun j => nodeVariance expiries strikes vols spot rd rf i j⟩
  else .panic

/-- The loop of `bracket` (`dupire_local_vol.rs` 173-180) over the remaining indices. -/
noncomputable def bracketLoop (xs : List ℝ) (x : ℝ) : List ℕ → ℕ × ℕ × ℝ
  | [] => (xs.length - 1, xs.length - 1, 0)
  | i :: is =>
    if x ≤ xs.getD i 0 then
      (i - 1, i, (x - xs.getD (i - 1) 0) / (xs.getD i 0 - xs.getD (i - 1) 0))
    else bracketLoop xs x is

/-- `bracket` (`dupire_local_vol.rs` 164-183). -/
noncomputable def bracketAt (xs : List ℝ) (x : ℝ) : Outcome (ℕ × ℕ × ℝ) := do
  let x0 ← unwrap xs[0]?
  if x ≤ x0 then .ok (0, 0, 0)
  else do
    let xn ← unwrap xs.getLast?
    if xn ≤ x then .ok (xs.length - 1, xs.length - 1, 0)
    else .ok (bracketLoop xs x (List.range' 1 (xs.length - 1)))

/-- `variance[i][j]`. -/
def LocalVol.at (v : LocalVol) (i j : ℕ) : Outcome ℝ := do
  let row ← unwrap v.variance[i]?
  unwrap row[j]?

/-- `DupireLocalVol::local_variance` (`dupire_local_vol.rs` 132-142). -/
noncomputable def LocalVol.localVariance (v : LocalVol) (t k : ℝ) : Outcome ℝ := do
  let (i0, i1, wt) ← bracketAt v.expiries t
  let (j0, j1, wk) ← bracketAt v.strikes k
  let v00 ← v.at i0 j0
  let v01 ← v.at i0 j1
  let v10 ← v.at i1 j0
  let v11 ← v.at i1 j1
  let v0 := v00 + wk * (v01 - v00)
  let v1 := v10 + wk * (v11 - v10)
  .ok (v0 + wt * (v1 - v0))

/-- `DupireLocalVol::local_vol` (`dupire_local_vol.rs` 146-148). -/
noncomputable def LocalVol.localVol (v : LocalVol) (t k : ℝ) : Outcome ℝ := do
  let x ← v.localVariance t k
  .ok (√x)

end Verif
