import Verif.Model.Normal
import Verif.Model.YieldCurve
import Verif.Model.Forwards

/-!
# FX volatility surface

Model of `/repo/src/markets/forex/quotes/volsurface.rs` 47-493 over the real numbers.
Error strings are dropped.  `sort_by`/`sort_by_key` are stable, so their result is
determined; Lean's `List.mergeSort` (also stable) stands for them.  `partial_cmp` never
fails because there is no NaN.  `binary_search_by_key` enters through its documented
contract (`KeySearch`).
-/

namespace Verif

open Classical

/-- `FXVolQuote` (`volsurface.rs` 52-65). -/
inductive FxVolQuote where
  | atm (vol : ℝ)
  | call (delta vol : ℝ)
  | put (delta vol : ℝ)
  | riskReversal (delta vol : ℝ)
  | butterfly (delta vol : ℝ)

/-- `FXDeltaVolPillar` (`volsurface.rs` 69-75). -/
structure VolPillar where
  expiry : Int
  forward : ℝ
  quotes : List FxVolQuote

/-- `DeltaPair` (`volsurface.rs` 178-182). -/
structure DeltaPair where
  delta : ℝ
  callVol : ℝ
  putVol : ℝ

/-- `PartialDelta` (`volsurface.rs` 384-390). -/
structure PartialDelta where
  call : Option ℝ := none
  put : Option ℝ := none
  rr : Option ℝ := none
  bf : Option ℝ := none

/-- `validate_delta` (`volsurface.rs` 422-430). -/
noncomputable def validateDelta (delta : ℝ) : Outcome Unit :=
  if ¬ (0 < delta ∧ delta < 1 / 2) then .fail .invalidData else .ok ()

/-- `find_or_insert` followed by the assignment of one field (`volsurface.rs` 320-328):
the first bucket whose key is within 1e-9 is changed, a new one is appended if there is
none. -/
noncomputable def bucketUpdate (f : PartialDelta → PartialDelta) (delta : ℝ) :
    List (ℝ × PartialDelta) → List (ℝ × PartialDelta)
  | [] => [(delta, f {})]
  | b :: bs =>
    if |b.1 - delta| < 1 / 10 ^ 9 then (b.1, f b.2) :: bs else b :: bucketUpdate f delta bs

/-- The loop over the quotes in `normalise_quotes` (`volsurface.rs` 330-358). -/
noncomputable def collectQuotes : List FxVolQuote → Option ℝ → List (ℝ × PartialDelta) →
    Outcome (Option ℝ × List (ℝ × PartialDelta))
  | [], atm, bs => .ok (atm, bs)
  | .atm v :: qs, atm, bs =>
    if atm.isSome then .fail .invalidData else collectQuotes qs (some v) bs
  | .call d v :: qs, atm, bs => do
    validateDelta d
    collectQuotes qs atm (bucketUpdate (fun p => { p with call := some v }) d bs)
  | .put d v :: qs, atm, bs => do
    validateDelta d
    collectQuotes qs atm (bucketUpdate (fun p => { p with put := some v }) d bs)
  | .riskReversal d v :: qs, atm, bs => do
    validateDelta d
    collectQuotes qs atm (bucketUpdate (fun p => { p with rr := some v }) d bs)
  | .butterfly d v :: qs, atm, bs => do
    validateDelta d
    collectQuotes qs atm (bucketUpdate (fun p => { p with bf := some v }) d bs)

/-- `resolve_partial` (`volsurface.rs` 392-420). -/
noncomputable def resolvePartial (delta : ℝ) (p : PartialDelta) (atm : ℝ) : Outcome DeltaPair :=
  match p.call, p.put with
  | some c, some q => .ok ⟨delta, c, q⟩
  | _, _ =>
    match p.rr, p.bf with
    | some rr, some bf => .ok ⟨delta, atm + bf + 1 / 2 * rr, atm + bf - 1 / 2 * rr⟩
    | _, _ => .fail .invalidData

/-- `.map(resolve_partial).collect::<Result<Vec<_>>>()` (`volsurface.rs` 367-370): stops at
the first error. -/
noncomputable def resolveAll (atm : ℝ) : List (ℝ × PartialDelta) → Outcome (List DeltaPair)
  | [] => .ok []
  | b :: bs => do
    let p ← resolvePartial b.1 b.2 atm
    let ps ← resolveAll atm bs
    .ok (p :: ps)

/-- Sorting by delta (`volsurface.rs` 213, 371). -/
noncomputable def sortPairs (ps : List DeltaPair) : List DeltaPair :=
  ps.mergeSort fun a b => decide (a.delta ≤ b.delta)

/-- `normalise_quotes` (`volsurface.rs` 314-382). -/
noncomputable def normaliseQuotes (qs : List FxVolQuote) : Outcome (ℝ × List DeltaPair) := do
  let r ← collectQuotes qs none []
  match r.1 with
  | none => .fail .invalidData
  | some atm => do
    let ps ← resolveAll atm r.2
    let pairs := sortPairs ps
    match pairs with
    | [] => .fail .invalidData
    | _ :: _ => .ok (atm, pairs)

/-- `atm_dns_strike` (`volsurface.rs` 436-438). -/
noncomputable def atmDnsStrike (sigma forward yf : ℝ) : ℝ :=
  forward * Real.exp (1 / 2 * sigma * sigma * yf)

/-- `strike_from_call_delta` (`volsurface.rs` 441-445). -/
noncomputable def strikeFromCallDelta (delta sigma forward sqrtT : ℝ) : Outcome ℝ := do
  let d1 ← normInv delta
  .ok (forward * Real.exp (1 / 2 * sigma * sigma * sqrtT * sqrtT - d1 * sigma * sqrtT))

/-- `strike_from_put_delta` (`volsurface.rs` 448-452). -/
noncomputable def strikeFromPutDelta (delta sigma forward sqrtT : ℝ) : Outcome ℝ := do
  let d1 ← normInv (1 - delta)
  .ok (forward * Real.exp (1 / 2 * sigma * sigma * sqrtT * sqrtT - d1 * sigma * sqrtT))

/-- `fit_quadratic_three_points` (`volsurface.rs` 456-470). -/
noncomputable def fitQuadratic (p0 p1 p2 : ℝ × ℝ) : ℝ × ℝ × ℝ :=
  let x0 := p0.1
  let y0 := p0.2
  let x1 := p1.1
  let y1 := p1.2
  let x2 := p2.1
  let y2 := p2.2
  let d01 := x0 - x1
  let d02 := x0 - x2
  let d12 := x1 - x2
  let denom0 := d01 * d02
  let denom1 := -d01 * d12
  let denom2 := d02 * d12
  let a := y0 / denom0 + y1 / denom1 + y2 / denom2
  let b := -(y0 * (x1 + x2) / denom0 + y1 * (x0 + x2) / denom1 + y2 * (x0 + x1) / denom2)
  let c := y0 * (x1 * x2) / denom0 + y1 * (x0 * x2) / denom1 + y2 * (x0 * x1) / denom2
  (a, b, c)

/-- The loop over the windows in `piecewise_linear_interp` (`volsurface.rs` 485-492). -/
noncomputable def interpWindows (x : ℝ) : List (ℝ × ℝ) → ℝ
  | lo :: hi :: rest =>
    if x ≥ lo.1 ∧ x ≤ hi.1 then
      let w := (x - lo.1) / (hi.1 - lo.1)
      lo.2 + w * (hi.2 - lo.2)
    else interpWindows x (hi :: rest)
  | _ => 0

/-- `piecewise_linear_interp` (`volsurface.rs` 472-493). -/
noncomputable def piecewiseLinear (knots : List (ℝ × ℝ)) (x : ℝ) : ℝ :=
  match knots with
  | [] => 0
  | [k] => k.2
  | k :: k' :: ks =>
    let last := (k' :: ks).getLast (List.cons_ne_nil _ _)
    if x ≤ k.1 then k.2
    else if x ≥ last.1 then last.2
    else interpWindows x (k :: k' :: ks)

/-- `SmileSection` (`volsurface.rs` 155-173). -/
structure Smile where
  expiry : Int
  yearFraction : ℝ
  forward : ℝ
  sigmaRef : ℝ
  a : ℝ
  b : ℝ
  c : ℝ
  knots : List (ℝ × ℝ)
  logMin : ℝ
  logMax : ℝ

/-- The put strikes (`volsurface.rs` 216-219). -/
noncomputable def putStrikes (f sqrtT : ℝ) : List DeltaPair → Outcome (List (ℝ × ℝ))
  | [] => .ok []
  | p :: ps => do
    let k ← strikeFromPutDelta p.delta p.putVol f sqrtT
    let rest ← putStrikes f sqrtT ps
    .ok ((k, p.putVol) :: rest)

/-- The call strikes, for deltas in the order given (`volsurface.rs` 224-227). -/
noncomputable def callStrikes (f sqrtT : ℝ) : List DeltaPair → Outcome (List (ℝ × ℝ))
  | [] => .ok []
  | p :: ps => do
    let k ← strikeFromCallDelta p.delta p.callVol f sqrtT
    let rest ← callStrikes f sqrtT ps
    .ok ((k, p.callVol) :: rest)

/-- The check that strikes increase (`volsurface.rs` 230-238). -/
noncomputable def strikesIncrease : List (ℝ × ℝ) → Bool
  | a :: b :: rest => if a.1 ≥ b.1 then false else strikesIncrease (b :: rest)
  | _ => true

/-- `SmileSection::from_pillar` (`volsurface.rs` 185-289). -/
noncomputable def Smile.fromPillar (p : VolPillar) (yf : ℝ) : Outcome Smile :=
  if yf ≤ 0 then .fail .invalidData
  else if p.forward ≤ 0 then .fail .invalidData
  else do
    let sqrtT := √yf
    let f := p.forward
    let (atmVol, pairs) ← normaliseQuotes p.quotes
    let sigmaRef := 3 / 2 * atmVol
    let sorted := sortPairs pairs
    let puts ← putStrikes f sqrtT sorted
    let calls ← callStrikes f sqrtT sorted.reverse
    let sv := puts ++ (atmDnsStrike atmVol f yf, atmVol) :: calls
    if strikesIncrease sv = false then .fail .invalidData
    else
      let toX := fun k : ℝ => normCdf (Real.log (f / k) / (sigmaRef * sqrtT))
      let lo := 0
      let mid := sorted.length
      let hi := sv.length - 1
      match sv[lo]?, sv[mid]?, sv[hi]? with
      | some s0, some s1, some s2 =>
        let abc := fitQuadratic (toX s0.1, s0.2) (toX s1.1, s1.2) (toX s2.1, s2.2)
        let knots := (sv.zipIdx).map fun q =>
          let residual :=
            if q.2 = lo ∨ q.2 = mid ∨ q.2 = hi then 0
            else
              let x := toX q.1.1
              q.1.2 - (abc.1 * x * x + abc.2.1 * x + abc.2.2)
          (Real.log (q.1.1 / f), residual)
        let knots := knots.mergeSort fun u v => decide (u.1 ≤ v.1)
        .ok ⟨p.expiry, yf, f, sigmaRef, abc.1, abc.2.1, abc.2.2, knots, Real.log (s0.1 / f),
          Real.log (s2.1 / f)⟩
      | _, _, _ => .panic

/-- `SmileSection::volatility` (`volsurface.rs` 291-302). -/
noncomputable def Smile.volatility (s : Smile) (strike : ℝ) : ℝ :=
  let x := normCdf (Real.log (s.forward / strike) / (s.sigmaRef * √s.yearFraction))
  let sigmaQ := s.a * x * x + s.b * x + s.c
  let logM := Real.log (strike / s.forward)
  let residual := if logM < s.logMin ∨ logM > s.logMax then 0 else piecewiseLinear s.knots logM
  sigmaQ + residual

/-- The documented behaviour of `binary_search_by_key` on ascending keys. -/
structure KeySearch where
  search : List Int → Int → Search
  found : ∀ l t i, (l.Pairwise (· ≤ ·)) → search l t = .found i → l[i]? = some t
  missing : ∀ l t i, (l.Pairwise (· ≤ ·)) → search l t = .missing i →
    i ≤ l.length ∧ (∀ q ∈ l.take i, q < t) ∧ ∀ q ∈ l.drop i, t < q

/-- `FXVolSurface` (`volsurface.rs` 79-82). -/
structure FxVolSurface where
  valuation : Int
  smiles : List Smile

/-- The smiles of all pillars in input order (`volsurface.rs` 93-99). -/
noncomputable def buildSmiles (val : Int) : List VolPillar → Outcome (List Smile)
  | [] => .ok []
  | p :: ps => do
    let s ← Smile.fromPillar p (yf365 val p.expiry)
    let rest ← buildSmiles val ps
    .ok (s :: rest)

/-- `FXVolSurface::new` (`volsurface.rs` 86-105). -/
noncomputable def FxVolSurface.new (val : Int) (pillars : List VolPillar) : Outcome FxVolSurface :=
  match pillars with
  | [] => .fail .invalidData
  | _ :: _ => do
    let smiles ← buildSmiles val pillars
    .ok ⟨val, smiles.mergeSort fun a b => decide (a.expiry ≤ b.expiry)⟩

/-- `FXVolSurface::volatility` (`volsurface.rs` 109-147).  Indexing out of bounds
panics. -/
noncomputable def FxVolSurface.volatility (ks : KeySearch) (s : FxVolSurface) (expiry : Int)
    (strike : ℝ) : Outcome ℝ :=
  if strike ≤ 0 then .fail .invalidData
  else
    let yf := yf365 s.valuation expiry
    if yf ≤ 0 then .fail .invalidData
    else
      match ks.search (s.smiles.map Smile.expiry) expiry with
      | .found i =>
        match s.smiles[i]? with
        | some sm => .ok (sm.volatility strike)
        | none => .panic
      | .missing pos =>
        if pos = 0 then
          match s.smiles[0]? with
          | some sm => .ok (sm.volatility strike)
          | none => .panic
        else if pos = s.smiles.length then
          match s.smiles[pos - 1]? with
          | some sm => .ok (sm.volatility strike)
          | none => .panic
        else
          match s.smiles[pos - 1]?, s.smiles[pos]? with
          | some lo, some hi =>
            let sigmaLo := lo.volatility strike
            let sigmaHi := hi.volatility strike
            let varLo := sigmaLo * sigmaLo * lo.yearFraction
            let varHi := sigmaHi * sigmaHi * hi.yearFraction
            let weight := (yf - lo.yearFraction) / (hi.yearFraction - lo.yearFraction)
            let var := varLo + weight * (varHi - varLo)
            .ok √(var / yf)
          | _, _ => .panic

end Verif
