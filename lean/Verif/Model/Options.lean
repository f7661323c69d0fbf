import Verif.Model.Normal
import Mathlib.Analysis.SpecialFunctions.Log.Basic

/-!
# Closed-form option prices

Model of the Black formula (`/repo/src/derivatives/forex/option.rs` 30-76 and
`/repo/src/models/common/black_scholes.rs` 17-98) and of the Bachelier formula
(`/repo/src/models/common/bachelier.rs`), over the real numbers.  Lean's `Real.log` and
division are total; where the crate would produce NaN (logarithm of a non-positive
number, division by zero) the theorems exclude the input by hypotheses.
-/

namespace Verif

open Classical

/-- `OptionType` (`option.rs` 30-34). -/
inductive OptionType where
  | call | put
  deriving DecidableEq

/-- `OptionType::omega` (`option.rs` 37-42). -/
def OptionType.omega : OptionType → ℝ
  | .call => 1
  | .put => -1

/-- `black_scholes` (`option.rs` 56-76). -/
noncomputable def blackScholes (forward strike variance discount : ℝ) (ot : OptionType) : ℝ :=
  if variance ≤ 0 then
    let intrinsic := match ot with
      | .call => max (forward - strike) 0
      | .put => max (strike - forward) 0
    discount * intrinsic
  else
    let sqrtV := √variance
    let d1 := (Real.log (forward / strike) + 1 / 2 * variance) / sqrtV
    let d2 := d1 - sqrtV
    let omega := ot.omega
    discount * (omega * forward * normCdf (omega * d1) - omega * strike * normCdf (omega * d2))

/-- `bs_call_forward` (`black_scholes.rs` 18-26). -/
noncomputable def bsCallForward (forward strike sigma t discount : ℝ) : ℝ :=
  if sigma ≤ 0 ∨ t ≤ 0 then discount * max (forward - strike) 0
  else
    let sqrtT := √t
    let d1 := (Real.log (forward / strike) + 1 / 2 * sigma * sigma * t) / (sigma * sqrtT)
    let d2 := d1 - sigma * sqrtT
    discount * (forward * normCdf d1 - strike * normCdf d2)

/-- `bs_put_forward` (`black_scholes.rs` 29-37). -/
noncomputable def bsPutForward (forward strike sigma t discount : ℝ) : ℝ :=
  if sigma ≤ 0 ∨ t ≤ 0 then discount * max (strike - forward) 0
  else
    let sqrtT := √t
    let d1 := (Real.log (forward / strike) + 1 / 2 * sigma * sigma * t) / (sigma * sqrtT)
    let d2 := d1 - sigma * sqrtT
    discount * (strike * normCdf (-d2) - forward * normCdf (-d1))

/-- The bisection loop of `bs_implied_vol_tol` (`black_scholes.rs` 81-97) with `n`
iterations left. -/
noncomputable def bisectVol (pricer : ℝ → ℝ) (target tol : ℝ) : Nat → ℝ → ℝ → ℝ
  | 0, lo, hi => 1 / 2 * (lo + hi)
  | n + 1, lo, hi =>
    let mid := 1 / 2 * (lo + hi)
    if hi - lo < 1 / 10 ^ 12 then mid
    else
      let p := pricer mid
      if |p - target| < tol then mid
      else if p < target then bisectVol pricer target tol n mid hi
      else bisectVol pricer target tol n lo mid

/-- `bs_implied_vol_tol` (`black_scholes.rs` 57-98). -/
noncomputable def bsImpliedVolTol (target forward strike t discount : ℝ) (isCall : Bool) (tol : ℝ) :
    Option ℝ :=
  let pricer := fun sigma =>
    if isCall then bsCallForward forward strike sigma t discount
    else bsPutForward forward strike sigma t discount
  let lo : ℝ := 1 / 10 ^ 8
  let hi : ℝ := 5
  if target < pricer lo - tol ∨ target > pricer hi + tol then none
  else some (bisectVol pricer target tol 200 lo hi)

/-- `bs_implied_vol` (`black_scholes.rs` 43-52): tolerance `1e-8`. -/
noncomputable def bsImpliedVol (target forward strike t discount : ℝ) (isCall : Bool) : Option ℝ :=
  bsImpliedVolTol target forward strike t discount isCall (1 / 10 ^ 8)

/-- `bachelier_call` (`bachelier.rs` 22-29). -/
noncomputable def bachelierCall (forward strike variance : ℝ) : ℝ :=
  if variance ≤ 0 then max (forward - strike) 0
  else
    let sqrtV := √variance
    let d := (forward - strike) / sqrtV
    sqrtV * normPdf d + (forward - strike) * normCdf d

/-- `bachelier_put` (`bachelier.rs` 32-39). -/
noncomputable def bachelierPut (forward strike variance : ℝ) : ℝ :=
  if variance ≤ 0 then max (strike - forward) 0
  else
    let sqrtV := √variance
    let d := (forward - strike) / sqrtV
    sqrtV * normPdf d + (strike - forward) * normCdf (-d)

/-- `bachelier_vega_variance` (`bachelier.rs` 44-51). -/
noncomputable def bachelierVegaVariance (forward strike variance : ℝ) : ℝ :=
  if variance ≤ 0 then 0
  else
    let sqrtV := √variance
    let d := (forward - strike) / sqrtV
    normPdf d / (2 * sqrtV)

end Verif
