import Verif.Model.Swap
import Verif.Model.Options

/-!
# Caps, floors and the caplet volatility surface

Model of `/repo/src/derivatives/interestrate/cap.rs`, `caplet_total_variance` of
`/repo/src/derivatives/interestrate/basic.rs` and the lookup and stripping of
`/repo/src/markets/interestrate/volsurface.rs` over the real numbers.  `Actual365Fixed`
year fractions never fail (`yf365`).  The root finder `roots::find_root_brent` is a
parameter.
-/

namespace Verif

open Classical

/-- `CapFloorKind` (`basic.rs` 11-15). -/
inductive CapKind where
  | cap | floor
  deriving DecidableEq

/-- `CapStyle` (`basic.rs` 27-31). -/
inductive CapStyle where
  | forwardLooking | backwardCompounded
  deriving DecidableEq

/-- `caplet_total_variance` (`basic.rs` 37-60). -/
noncomputable def capletTotalVariance (style : CapStyle) (sigma yfStart yfEnd : ℝ) : ℝ :=
  if yfEnd ≤ 0 then 0
  else
    let sig2 := sigma * sigma
    match style with
    | .forwardLooking => sig2 * max yfStart 0
    | .backwardCompounded =>
      let d := yfEnd - yfStart
      if 0 ≤ yfStart then sig2 * (yfStart + d / 3)
      else sig2 * yfEnd ^ 3 / (3 * d * d)

/-- `CapletVolPillar` (`volsurface.rs` 119-124). -/
structure CapletPillar where
  expiry : Int
  nodes : List (ℝ × ℝ)

/-- The window search of `interpolate_nodes` (`volsurface.rs` 202-210). -/
noncomputable def scanNodes (strike fallback : ℝ) : List (ℝ × ℝ) → ℝ
  | a :: b :: rest =>
    if a.1 ≤ strike ∧ strike ≤ b.1 then a.2 + (strike - a.1) / (b.1 - a.1) * (b.2 - a.2)
    else scanNodes strike fallback (b :: rest)
  | _ => fallback

/-- `interpolate_nodes` (`volsurface.rs` 186-213). -/
noncomputable def interpolateNodes (nodes : List (ℝ × ℝ)) (strike : ℝ) : Outcome ℝ :=
  match nodes with
  | [] => .fail .invalidData
  | [n] => .ok n.2
  | first :: second :: rest =>
    let last := (second :: rest).getLast (by simp)
    if strike ≤ first.1 then .ok first.2
    else if last.1 ≤ strike then .ok last.2
    else .ok (scanNodes strike last.2 (first :: second :: rest))

/-- The pillar picked by `caplet_volatility` (`volsurface.rs` 175-179): the first with
`expiry <= p.expiry`, else the last. -/
def pickPillar (expiry : Int) (pillars : List CapletPillar) : Option CapletPillar :=
  match pillars.find? (fun p => decide (expiry ≤ p.expiry)) with
  | some p => some p
  | none => pillars.getLast?

/-- `IRNormalVolSurface::caplet_volatility` (`volsurface.rs` 169-181) on the pillars. -/
noncomputable def capletVolatility (pillars : List CapletPillar) (expiry : Int) (strike : ℝ) :
    Outcome ℝ :=
  match pickPillar expiry pillars with
  | none => .fail .invalidData
  | some p => interpolateNodes p.nodes strike

/-- `CapFloor` (`cap.rs` 39-51). -/
structure CapFloor where
  direction : Direction
  kind : CapKind
  style : CapStyle
  currency : Ccy
  notional : ℝ
  strike : ℝ
  valuation : Int
  schedule : List SchedPeriod
  yearFraction : Int → Int → Outcome ℝ

/-- `CapletMarket` (`cap.rs` 115-120). -/
structure CapletMarket where
  tau : ℝ
  dfPay : ℝ
  forward : ℝ
  variance : ℝ

/-- `CapFloor::caplet_market` (`cap.rs` 61-91). -/
noncomputable def CapFloor.market (c : CapFloor) (p : SchedPeriod) (cv : Curve)
    (vs : List CapletPillar) (rateBp volBp : ℝ) : Outcome CapletMarket := do
  let tau ← c.yearFraction p.start p.fin
  let ds ← cv.shiftedDiscount p.start rateBp
  let de ← cv.shiftedDiscount p.fin rateBp
  let dp ← cv.shiftedDiscount p.pay rateBp
  let forward := (ds / de - 1) / tau
  let sigmaBase ← capletVolatility vs p.start c.strike
  let sigma := sigmaBase + volBp * (1 / 10000)
  let variance := capletTotalVariance c.style sigma (yf365 c.valuation p.start) (yf365 c.valuation p.fin)
  .ok ⟨tau, dp, forward, variance⟩

/-- The option value of one caplet or floorlet (`cap.rs` 105-108). -/
noncomputable def optionValue (kind : CapKind) (strike : ℝ) (m : CapletMarket) : ℝ :=
  match kind with
  | .cap => bachelierCall m.forward strike m.variance
  | .floor => bachelierPut m.forward strike m.variance

/-- The loop of `pv_under_shift` (`cap.rs` 103-110), adding onto `acc`. -/
noncomputable def CapFloor.addCaplets (c : CapFloor) (cv : Curve) (vs : List CapletPillar)
    (rateBp volBp : ℝ) : List SchedPeriod → ℝ → Outcome ℝ
  | [], acc => .ok acc
  | p :: ps, acc => do
    let m ← c.market p cv vs rateBp volBp
    c.addCaplets cv vs rateBp volBp ps
      (acc + c.direction.sign * c.notional * m.tau * m.dfPay * optionValue c.kind c.strike m)

/-- `CapFloor::pv_under_shift` (`cap.rs` 95-112). -/
noncomputable def CapFloor.pv (c : CapFloor) (cv : Curve) (vs : List CapletPillar)
    (rateBp volBp : ℝ) : Outcome ℝ := c.addCaplets cv vs rateBp volBp c.schedule 0

/-- `unpack` (`cap.rs` 124-129): the surface is optional in the market context. -/
def unpackSurface (vs : Option (List CapletPillar)) : Outcome (List CapletPillar) :=
  match vs with
  | some v => .ok v
  | none => .fail .invalidData

/-- `mtm` (`cap.rs` 132-139). -/
noncomputable def CapFloor.mtm (c : CapFloor) (cv : Curve) (vs : Option (List CapletPillar)) :
    Outcome CurrencyValue := do
  let vs ← unpackSurface vs
  let pv ← c.pv cv vs 0 0
  .ok ⟨c.currency, pv⟩

/-- `dv01` (`cap.rs` 145-150). -/
noncomputable def CapFloor.dv01 (c : CapFloor) (cv : Curve) (vs : Option (List CapletPillar)) :
    Outcome ℝ := do
  let vs ← unpackSurface vs
  let base ← c.pv cv vs 0 0
  let up ← c.pv cv vs 1 0
  .ok (up - base)

/-- `gamma` (`cap.rs` 154-166). -/
noncomputable def CapFloor.gamma (c : CapFloor) (cv : Curve) (vs : Option (List CapletPillar))
    (bp : ℝ) (mode : RateShiftMode) : Outcome ℝ :=
  match mode with
  | .zeros => do
    let vs ← unpackSurface vs
    let base ← c.pv cv vs 0 0
    let up ← c.pv cv vs bp 0
    let down ← c.pv cv vs (-bp) 0
    .ok (up + down - 2 * base)
  | _ => .fail .invalidData

/-- `vega` (`cap.rs` 174-179). -/
noncomputable def CapFloor.vega (c : CapFloor) (cv : Curve) (vs : Option (List CapletPillar))
    (volBp : ℝ) : Outcome ℝ := do
  let vs ← unpackSurface vs
  let base ← c.pv cv vs 0 0
  let up ← c.pv cv vs 0 volBp
  .ok (up - base)

/-- `modified_duration` (`basic.rs` 130-137), on the value and the `dv01` (evaluated only
when needed). -/
noncomputable def modifiedDuration (mtm : Outcome CurrencyValue) (dv01 : Outcome ℝ) : Outcome ℝ := do
  let v ← mtm
  if |v.value| < 1 / 1000000000000 then .ok 0
  else do
    let d ← dv01
    .ok (-d * 10000 / v.value)

/-! ### Stripping -/

/-- `CapQuote` (`volsurface.rs` 44-56). -/
structure CapQuote where
  strike : ℝ
  notional : ℝ
  direction : Direction
  kind : CapKind
  style : CapStyle
  currency : Ccy
  schedule : List SchedPeriod
  yearFraction : Int → Int → Outcome ℝ
  marketNpv : ℝ

/-- `CapQuote::last_accrual_start` (`volsurface.rs` 58-68). -/
def CapQuote.lastStart (q : CapQuote) : Outcome Int :=
  match q.schedule.getLast? with
  | some p => .ok p.start
  | none => .fail .invalidData

/-- `StripPoint` (`volsurface.rs` 239-243). -/
structure StripPoint where
  expiry : Int
  sigma : ℝ

/-- `caplet_sigma_for_start` (`volsurface.rs` 402-409). -/
def sigmaForStart (start : Int) : List StripPoint → ℝ → ℝ
  | [], fallback => fallback
  | s :: ss, fallback => if start ≤ s.expiry then s.sigma else sigmaForStart start ss fallback

/-- The loop of `price_cap_with_strip` (`volsurface.rs` 364-399). -/
noncomputable def CapQuote.addStrip (q : CapQuote) (cv : Curve) (val : Int) (strip : List StripPoint)
    (trial : ℝ) : List SchedPeriod → ℝ → Outcome ℝ
  | [], acc => .ok acc
  | p :: ps, acc => do
    let sigma := sigmaForStart p.start strip trial
    let v := capletTotalVariance q.style sigma (yf365 val p.start) (yf365 val p.fin)
    let tau ← q.yearFraction p.start p.fin
    let ds ← cv.discount p.start
    let de ← cv.discount p.fin
    let dp ← cv.discount p.pay
    let forward := (ds / de - 1) / tau
    let opt := match q.kind with
      | .cap => bachelierCall forward q.strike v
      | .floor => bachelierPut forward q.strike v
    q.addStrip cv val strip trial ps (acc + q.direction.sign * q.notional * tau * dp * opt)

/-- `price_cap_with_strip` (`volsurface.rs` 357-400). -/
noncomputable def CapQuote.priceWithStrip (q : CapQuote) (cv : Curve) (val : Int)
    (strip : List StripPoint) (trial : ℝ) : Outcome ℝ := q.addStrip cv val strip trial q.schedule 0

/-- The residual handed to the root finder (`volsurface.rs` 330-335): `none` is NaN, the value
after an error; a panic stays a panic. -/
noncomputable def CapQuote.residual (q : CapQuote) (cv : Curve) (val : Int) (strip : List StripPoint)
    (trial : ℝ) : Outcome (Option ℝ) :=
  match q.priceWithStrip cv val strip trial with
  | .ok npv => .ok (some (npv - q.marketNpv))
  | .fail _ => .ok none
  | .panic => .panic

/-- A root finder on `[1e-5, 0.10]`: `find_root_brent` with the convergence settings of
`volsurface.rs` 316-319, 337-343; failure becomes `InvalidData`. -/
abbrev RootFinder := (ℝ → Outcome (Option ℝ)) → Outcome ℝ

/-- The loop of `strip_one_strike` (`volsurface.rs` 321-351); `strip` is what has been
pushed so far. -/
noncomputable def stripQuotes (solve : RootFinder) (cv : Curve) (val : Int) :
    List CapQuote → List StripPoint → Outcome (List StripPoint)
  | [], strip => .ok strip
  | q :: qs, strip => do
    let last ← q.lastStart
    if (match strip.getLast? with | some s => decide (last ≤ s.expiry) | none => false) = true then
      stripQuotes solve cv val qs strip
    else do
      let sigma ← solve (q.residual cv val strip)
      stripQuotes solve cv val qs (strip ++ [⟨last, sigma⟩])

/-- The sort key of `strip_one_strike` (`volsurface.rs` 313). -/
def CapQuote.sortKey (val : Int) (q : CapQuote) : Int :=
  match q.lastStart with
  | .ok d => d
  | _ => val

/-- `strip_one_strike` (`volsurface.rs` 307-352); `sort_by_key` is stable. -/
noncomputable def stripOneStrike (solve : RootFinder) (cv : Curve) (val : Int) (qs : List CapQuote) :
    Outcome (List StripPoint) :=
  stripQuotes solve cv val (qs.mergeSort fun a b => decide (a.sortKey val ≤ b.sortKey val)) []

/-- Adding a quote to the group of its strike (`volsurface.rs` 254-263). -/
noncomputable def addToGroups (q : CapQuote) : List (ℝ × List CapQuote) → List (ℝ × List CapQuote)
  | [] => [(q.strike, [q])]
  | g :: gs =>
    if |g.1 - q.strike| < 1 / 1000000000000 then (g.1, g.2 ++ [q]) :: gs
    else g :: addToGroups q gs

/-- The columns: groups sorted by strike, each stripped (`volsurface.rs` 253-271). -/
noncomputable def stripColumns (solve : RootFinder) (cv : Curve) (val : Int) :
    List (ℝ × List CapQuote) → Outcome (List (ℝ × List StripPoint))
  | [] => .ok []
  | g :: gs => do
    let s ← stripOneStrike solve cv val g.2
    let rest ← stripColumns solve cv val gs
    .ok ((g.1, s) :: rest)

/-- `Vec::dedup` on sorted dates. -/
def dedupDates : List Int → List Int
  | a :: b :: rest => if a = b then dedupDates (b :: rest) else a :: dedupDates (b :: rest)
  | l => l

/-- The nodes of the pillar at `exp` (`volsurface.rs` 286-296): per column the last strip
point at or before `exp`. -/
noncomputable def pillarNodes (columns : List (ℝ × List StripPoint)) (exp : Int) : List (ℝ × ℝ) :=
  (columns.filterMap fun c =>
    (c.2.reverse.find? fun p => decide (p.expiry ≤ exp)).map fun p => (c.1, p.sigma)).mergeSort
    fun a b => decide (a.1 ≤ b.1)

/-- The pillars assembled from the columns (`volsurface.rs` 273-300). -/
noncomputable def assemblePillars (columns : List (ℝ × List StripPoint)) : List CapletPillar :=
  let expiries := dedupDates ((columns.flatMap fun c => c.2.map StripPoint.expiry).mergeSort
    fun a b => decide (a ≤ b))
  expiries.filterMap fun exp =>
    match pillarNodes columns exp with
    | [] => none
    | n :: ns => some ⟨exp, n :: ns⟩

/-- `strip_caplet_vols` (`volsurface.rs` 247-301), called by `rebuild` (160-164). -/
noncomputable def stripCapletVols (solve : RootFinder) (cv : Curve) (val : Int) (qs : List CapQuote) :
    Outcome (List CapletPillar) := do
  let groups := (qs.foldl (fun gs q => addToGroups q gs) []).mergeSort fun a b => decide (a.1 ≤ b.1)
  let columns ← stripColumns solve cv val groups
  .ok (assemblePillars columns)

end Verif
