import Verif.Model.Swap
import Verif.Model.Imm

/-!
# Stripping a yield curve

Model of the futures quote (`yieldcurve/ratehelper.rs`), the futures specification
(`/repo/src/markets/interestrate/futures.rs`), the bootstrap of a swap pillar
(`/repo/src/derivatives/interestrate/swap.rs` 229-276) and `get_stripped_curve`
(`/repo/src/markets/termstructures/yieldcurve.rs` 116-170).  The root finder
`roots::find_root_brent` is a parameter.
-/

namespace Verif

open Classical

/-- `Result::unwrap`: an error becomes a panic. -/
def unwrapResult {α : Type} : Outcome α → Outcome α
  | .ok a => .ok a
  | _ => .panic

/-- The loop of `retrieve_related_stripped_curve` (`yieldcurve.rs` 57-64). -/
def scanRelated (target : Int) : Pillar → List Pillar → Pillar × Option Pillar
  | first, [] => (first, none)
  | first, s :: rest =>
    if s.firstSettle < target ∧ target ≤ s.date then (first, some s) else scanRelated target s rest

/-- `retrieve_related_stripped_curve` (`yieldcurve.rs` 50-75).  The test
`second == first` of the list compares all fields. -/
noncomputable def relatedPillar (ps : List Pillar) (target : Int) : Outcome Pillar :=
  match ps with
  | [] => .panic
  | p0 :: rest =>
    let sc := scanRelated target p0 (p0 :: rest)
    let second := sc.2.getD p0
    let first := if second = p0 then p0 else sc.1
    if second.date - target ≤ target - first.date then .ok second else .ok first

/-- `FuturesRate` (`ratehelper.rs` 15-22) with its `InterestRateFutures`
(`futures.rs` 12-19).  The day counter of the specification is never read. -/
structure FuturesQuote where
  value : ℝ
  code : List Char
  convexity : ℝ
  period : Period
  calendar : Cal
  convention : Bdc
  endOfMonth : Bool
  yearFraction : Int → Int → Outcome ℝ

/-- `FuturesRate::implied_quote` (`ratehelper.rs` 25-27). -/
noncomputable def FuturesQuote.impliedQuote (q : FuturesQuote) : ℝ :=
  1 - q.value / 100 + q.convexity / 100

/-- `FuturesRate::settle_date` (`ratehelper.rs` 88-92).  `IMM::date` calls `next_date` on
the first of a month only, where one call decides (`futSettle_fuel`). -/
def FuturesQuote.settleDate (q : FuturesQuote) (val : Int) : Outcome Int :=
  match immDate 1 q.code val with
  | some (.ok (some d)) => .ok d
  | _ => .panic

/-- `InterestRateFutures::maturity_date` (`futures.rs` 33-48), applied to the settlement
date by `FuturesRate::maturity_date` (`ratehelper.rs` 93-96). -/
def FuturesQuote.maturityDate (q : FuturesQuote) (val : Int) : Outcome Int := do
  let s ← q.settleDate val
  let t ← advance q.calendar s q.period q.convention q.endOfMonth
  let f ← unwrap (fromYmdOpt (yearOf t) (monthOf t) 1)
  match immNextDate false 1 f with
  | some o => o
  | none => .panic

/-- `FuturesRate::discount` (`ratehelper.rs` 29-44). -/
noncomputable def FuturesQuote.discount (q : FuturesQuote) (val : Int) (ps : List Pillar) :
    Outcome ℝ := do
  let s ← q.settleDate val
  let m ← q.maturityDate val
  let tau ← q.yearFraction s m
  let hidden := 1 / (1 + tau * q.impliedQuote)
  let prev ← relatedPillar ps s
  .ok (hidden * Real.exp (-prev.zeroRate * yf365 val s))

/-- The product of the loop of `zero_rate` (`ratehelper.rs` 60-71): `from` is where the
next accrual starts. -/
noncomputable def cumDiscount : Int → List Pillar → ℝ → ℝ
  | _, [], acc => acc
  | start, p :: ps, acc => cumDiscount p.date ps (acc * Real.exp (-p.zeroRate * yf365 start p.date))

/-- `FuturesRate::zero_rate` (`ratehelper.rs` 46-82).  `discount` has already refused an
empty list, so `last().unwrap()` never fails. -/
noncomputable def FuturesQuote.zeroRate (q : FuturesQuote) (val : Int) (ps : List Pillar) :
    Outcome ℝ := do
  let target ← q.discount val ps
  let m ← q.maturityDate val
  if (ps.all fun p => decide (p.source ≠ .futures)) = true then
    match ps.getLast? with
    | none => .panic
    | some l => .ok (-(Real.log (target / cumDiscount val ps 1)) / yf365 l.date m)
  else .ok (-(Real.log target) / yf365 val m)

/-! ### Bootstrapping swaps -/

/-- A root finder on `[0, 0.5]`: `find_root_brent` with the settings of `swap.rs` 266-275.
The closure unwraps, so a failing value panics. -/
abbrev RateSolver := (ℝ → Outcome ℝ) → Outcome ℝ

/-- `amend_last` (`swap.rs` 234-241): the last pillar gets the rate. -/
def amendLast (z : ℝ) (ps : List Pillar) : List Pillar :=
  match ps.getLast? with
  | none => []
  | some l => ps.dropLast ++ [{ l with zeroRate := z }]

/-- `calculate_npv` (`swap.rs` 243-259). -/
noncomputable def Swap.calculateNpv (s : Swap) (z : ℝ) (val : Int) (ps : List Pillar) : Outcome ℝ :=
  s.npv val ⟨val, amendLast z ps⟩

/-- `solve_zero_rate` (`swap.rs` 261-276). -/
noncomputable def Swap.solveZeroRate (solve : RateSolver) (s : Swap) (val : Int) (ps : List Pillar) :
    Outcome ℝ :=
  unwrapResult (solve fun x => unwrapResult (s.calculateNpv x val ps))

/-- `get_reference_rate` (`swap.rs` 116-121). -/
def SwapLeg.referenceRate (l : SwapLeg) : ℝ :=
  match l.kind with
  | .fixed c => c
  | .float s => s

/-! ### `get_stripped_curve` -/

/-- `cash.interest_rate_index.period == Period::Weeks(1)` (`yieldcurve.rs` 139). -/
def isOneWeek : Period → Bool
  | .weeks 1 => true
  | _ => false

/-- The pillar of a cash quote (`yieldcurve.rs` 132-141). -/
noncomputable def OisRate.pillar (q : OisRate) (val : Int) : Outcome Pillar := do
  let s ← q.settleDate val
  let m ← q.maturityDate val
  let z ← q.zeroRate val
  let d ← q.discount val
  .ok ⟨s, m, q.value, z, d, .ois, isOneWeek q.index.period⟩

/-- The maturities (`yieldcurve.rs` 121-125). -/
def cashMaturities (val : Int) : List OisRate → Outcome (List Int)
  | [] => .ok []
  | q :: qs => do
    let m ← unwrapResult (q.maturityDate val)
    let rest ← cashMaturities val qs
    .ok (m :: rest)

/-- The inner loop (`yieldcurve.rs` 129-143): the pillars of the quotes maturing on `m`. -/
noncomputable def cashAt (val m : Int) : List OisRate → Outcome (List Pillar)
  | [] => .ok []
  | q :: qs => do
    let m' ← unwrapResult (q.maturityDate val)
    if m' = m then do
      let p ← q.pillar val
      let rest ← cashAt val m qs
      .ok (p :: rest)
    else cashAt val m qs

/-- The outer loop (`yieldcurve.rs` 128-144) over the sorted maturities. -/
noncomputable def cashPillars (val : Int) (qs : List OisRate) : List Int → Outcome (List Pillar)
  | [] => .ok []
  | m :: ms => do
    let ps ← cashAt val m qs
    let rest ← cashPillars val qs ms
    .ok (ps ++ rest)

/-- The loop over the futures (`yieldcurve.rs` 146-156), adding onto `out`. -/
noncomputable def addFutures (val : Int) : List FuturesQuote → List Pillar → Outcome (List Pillar)
  | [], out => .ok out
  | q :: qs, out => do
    let s ← q.settleDate val
    let m ← q.maturityDate val
    let z ← q.zeroRate val out
    let d ← q.discount val out
    addFutures val qs (out ++ [⟨s, m, q.value, z, d, .futures, false⟩])

/-- The pillar of a swap as first pushed (`yieldcurve.rs` 158-166). -/
noncomputable def Swap.seedPillar (s : Swap) (val : Int) : Outcome Pillar := do
  let st ← s.settleDate val
  let m ← s.maturityDate val
  match s.legs with
  | [] => .panic
  | l :: _ => .ok ⟨st, m, l.referenceRate, 5 / 1000, 0, .swap, false⟩

/-- The loop over the swaps (`yieldcurve.rs` 157-169). -/
noncomputable def addSwaps (solve : RateSolver) (val : Int) :
    List Swap → List Pillar → Outcome (List Pillar)
  | [], out => .ok out
  | s :: ss, out => do
    let p ← s.seedPillar val
    let z ← s.solveZeroRate solve val (out ++ [p])
    addSwaps solve val ss (out ++ [{ p with zeroRate := z }])

/-- `get_stripped_curve` (`yieldcurve.rs` 116-171). -/
noncomputable def strippedCurve (solve : RateSolver) (val : Int) (cash : List OisRate)
    (futures : List FuturesQuote) (swaps : List Swap) : Outcome (List Pillar) := do
  let ms ← cashMaturities val cash
  let out ← cashPillars val cash (ms.mergeSort fun a b => decide (a ≤ b))
  let out ← addFutures val futures out
  addSwaps solve val swaps out

end Verif
