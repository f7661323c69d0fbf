# Formal model of finquant — design

The source under `/repo` (Rust crate `finquant`, read as text at the pinned
commit) is modelled in Lean 4 under `lean/Verif`.  Nothing in `/repo` was built
or run.

## Layout

* `Verif/Model/*` — transcription of the Rust code, function by function.  Each
  definition has a comment citing the file and lines it models, and says where
  it is a simplification.
* `Verif/Spec/*` — small independent specifications (what "third Wednesday",
  "first business day on or after", "computus" … mean), written without using
  the model's helpers.
* `Verif/Lemmas/*` — helper lemmas.
* `Verif/Props/*` — the property theorems, each with a concrete non-trivial
  instance next to it.  Theorem names are `Cnn_…`; the suffix `_partial` means
  that the theorem proves less than the property's English statement, and
  `_false` that the theorem refutes a statement one would expect to hold.

## Modelling decisions

* **Dates.**  `chrono::NaiveDate` is modelled by its proleptic-Gregorian day
  number (`num_days_from_ce`, day 1 = 0001-01-01) as a plain `Int`, with the
  range predicate `Valid` for chrono's `MIN`/`MAX`.  year/month/day are
  *computed* from the day number; the bijection with (y, m, d) triples is
  proved, not assumed.
* **Panics and errors.**  A Rust function that can panic or return `Err`
  becomes a function into `Outcome` (`ok`, `fail`, `panic`).  chrono's checked
  arithmetic panics at the end of its range; the day-stepping loops of the code
  terminate for precisely this reason and the model's recursions terminate with
  the same argument.
* **Calendars.**  A calendar is the function `is_business_day` from day numbers
  to `Outcome Bool` (Easter-based calendars panic outside 1901–2199).  The
  algorithms of the `Calendar` trait are proved for *every* such function; the
  shipped calendars are instances.
* **Loops** are structural recursion, list folds or well-founded recursion.
  The one genuinely non-terminating function (`IMM::next_date`) is modelled
  with fuel and its divergence is a theorem.
* **Floating point.**  All `f64` arithmetic is idealised to exact real
  arithmetic (`ℝ`).  Rounding, NaN, infinities and overflow of `f64` are *not*
  modelled; every theorem about prices, curves and models is a theorem about
  exact arithmetic.  `norm_cdf`/`erfc` from the `libm`/`statrs`-style helper is
  idealised to the true Gaussian distribution function.
* **Random numbers** enter as arbitrary lists/functions (the theorems hold for
  every draw sequence).
* **Integers.**  `u32`/`i32`/`i64` values are `Int`/`Nat` with explicit bounds
  where overflow is reachable; where the code would overflow the theorem either
  assumes the bound or models the panic.

## Trusted base

* Lean 4.33.0's kernel, and Mathlib's definitions used in statements.
* Axioms: only `propext`, `Classical.choice`, `Quot.sound`
  (`Verif/Axioms.lean` prints them for the property theorems).  No own axioms,
  no `sorry`, no `native_decide`/`bv_decide`.
* The transcription from Rust to Lean (reviewed by reading; every definition
  cites its source lines).
* The behaviour of `chrono` (calendar arithmetic, month clamping, panics) as
  modelled in `Verif/Model/Date.lean`.

Not modelled: serde (de)serialisation, `typetag`, strings of error messages,
wall-clock defaults (`Utc::now()`), threads, file and console output, `f64`
rounding, the random generators.


## Per property: what is modelled and how it is proved

### C01 — Following returns the first business day on or after the date
Modelled: `Calendar::adjust` Following loop as a bounded recursion (`rollFwd`) over an arbitrary calendar `Int → Outcome Bool`. Proved by induction on the remaining days to chrono's maximum: the result is `r` iff `r` is the first open day on or after `d` (`FirstOpenFrom`), and the panic case is characterised.

### C02 — Preceding returns the last business day on or before the date
Modelled: the Preceding loop (`rollBack`). Proof mirrors C01.

### C03 — The modified conventions stay in the month
Modelled: ModifiedFollowing/ModifiedPreceding branches. Proved by case analysis on whether the rolled day leaves the month, using C01/C02; the month is computed from the day number.

### C04 — HalfMonthModifiedFollowing stays in the half month
Modelled: HalfMonthModifiedFollowing branch. Proved by the same case analysis, with the 15th as an additional boundary.

### C05 — Adjusting is idempotent and leaves business days alone
Follows from C01–C04 for six conventions; Nearest is refuted with a concrete calendar.

### C06 — Following and Preceding preserve the order of dates
Minimality in C01/C02 gives monotonicity directly.

### C07 — Nearest returns the business day closest to the date
Modelled: the Nearest loop as written (two candidates, inverted test). Exact characterisation proved by induction on the number of steps; the documented behaviour refuted on the weekends calendar.

### C08 — A joint calendar is open exactly when every member is open
Modelled: `JointCalendar::is_business_day` as the short-circuit `all` over `Outcome Bool`. Proved by list induction (open iff all open, permutation invariance, flattening).

### C09 — Advancing by n business days moves over exactly n business days
Modelled: the day loop of `advance(Days n)`. The specification counts open days in the interval; proved by induction on n in both directions.

### C10 — Month and year advances land where the convention says
Modelled: Weeks/Months/Years branches and the end-of-month flag. Proved by unfolding against the independent month-shift specification.

### C11 — end_of_month is the last business day of the month
Modelled: `last_day_of_month`, `end_of_month`, `is_end_of_month`. Proved from the calendar arithmetic lemmas; the panic at the end of chrono's range is a separate theorem.

### C12 — business_days_between counts the business days of the interval
Modelled: the iterator chain of `business_days_between`. The specification is the number of open days; exact value proved by induction, documented behaviour refuted.

### C13 — The Easter tables are the true Easter dates
Modelled: both Easter tables, transcribed. The computus (Gregorian and Julian) is written independently in `Spec/Easter.lean`; all 299 entries compared by kernel evaluation and lifted to a quantified statement.

### C14 — Shipped calendars are closed on their weekend
All 41 calendar types with their 77 market variants are transcribed (`Verif/Model/Cal/*.lean`, by a script from the Rust source, except Israel's two rules and `WeekendsOnly`) and enumerated by `Shipped`. Per rule: a weekend tuple gives `false`. Weekend is specified by the day number modulo 7. The Moscow exchange's nine open weekend days are given exactly.

### C15 — Shipped calendars never close for long
Per rule a list of fixed dates outside which a Wednesday (Tuesday or Wednesday for six calendars) is open; a general lemma turns such a list into an open day in every half-month of every year. For the years in which a rule has one-off holidays (for example China 2004-2026) the half-months are computed by the kernel. Corollaries: a bound of 30 days in both directions, success of `adjust` for all seven conventions, and ModifiedFollowing staying in the month.

### C16 — Adding a tenor to a date follows the end-of-month clamp rule
Modelled: `Period` addition/subtraction on dates with chrono's clamped month arithmetic. Proved from the month arithmetic lemmas.

### C17 — Tenor arithmetic reports out-of-range tenors instead of wrapping
Modelled: chrono's range checks and the integer widths of `Period`. Exact conditions for errors and panics proved by case analysis on the unit.

### C18 — FX settlement dates are good business days in the right month
Modelled: `Period::settlement_date`. Proved by unfolding and relating the loop to C01/C03. `C18_settlement_default` fixes the lag of two days used when none is given.

### C19 — Near leg is before far leg
Modelled: `Period::near_date`. Refuted with a concrete witness; the partial theorem states the condition under which near < far. `C19_default_lag_partial` pins the default lag.

### C20 — An IMM date is the third Wednesday
Modelled: `IMM::is_imm_date` and chrono's nth-weekday rule. Proved against an independent third-Wednesday specification for every valid date.

### C21 — IMM codes round-trip
Modelled: `IMM::code`, `IMM::date`, `is_imm_code` on strings. Round trip proved for every month letter and digit; panics characterised separately.

### C22 — IMM::next_date returns the next IMM date
Modelled: `IMM::next_date` with fuel. Exact termination criterion and divergence for every fuel proved by induction.

### C23 — Frequency names parse back
Modelled: `Frequency`/`BusinessDayConvention` names. Proved by cases; the exception refuted.

### C24 — Actual day counters are exact, additive and antisymmetric
Modelled: Actual360/364/365Fixed/365.25/366 over ℚ. Proved by integer arithmetic on day numbers.

### C25 — 30/360 variants agree with their published rules
Modelled: each Thirty360/Thirty365 variant over ℚ. Proved against the closed formula of each convention.

### C26 — Actual/365 (No Leap) counts days without 29 February
Modelled: Actual365 NoLeap month table. Specification: days that are not 29 February; exact error proved, refuted for December.

### C27 — Actual/Actual ISDA splits the period by calendar year
Modelled: ActualActual ISDA and Euro. Specification: sum over calendar years of days/365 or /366; exact value proved and shown wrong for every pair of different dates.

### C28 — Business/252 counts the business days of the period
Modelled: Business252 day count on top of C12's model. Refuted (`C28_one_day_false`, `C28_cross_month_false`), with the exact value: `C28_same_month_partial` within one month, `C28_exact` across months (any number), `C28_next_month` for one change of month. An end date on the first of a month: `C28_month_start_false`, `C28_september_false`; with the shipped calendars that look up Easter a panic, `C28_easter_panic_false`. The loop's fuel is shown to suffice (`b252_across`).

### C29 — A pair's calendar is open only when both currencies are open
Modelled: the currency and pair tables (29 currencies, 60 pairs), the joint calendar of a pair, spot lags, cut-off hours, `effective_valuation_date` and `settlement_date` (`Model/FxPair.lean`). Home markets and the lists of next-day pairs and early cut-offs are specified independently (`Spec/Fx.lean`). Existence of a common open day uses a per-pair month check (days on which neither member rule can close, kernel evaluated). `C29_near_date`, `C29_no_near_date`: near dates. `C29_day_count`: the day counters; refuted: `C29_day_count_false` (EURCHF).

### C30 — Forward points interpolation is exact at quotes and never overshoots
Modelled: `FXForwardHelper::get_forward` over ℝ; `sort_by_key`, `dedup` and `binary_search_by` of the Rust standard library enter through the contract structure `SliceOps` (documented guarantees only: sorting is a permutation in order, binary search returns some matching index or the insertion point), with a concrete instance for non-vacuity. Proved by cases on the search result.

### C31 — FX forward value is linear, mirrored and zero at the forward
Modelled: `FXForward::mtm/delta/gamma/vega` (derivatives/forex/forward.rs) on top of the forward-points lookup of C30 and the yield curve of C36. Proved by algebra over ℝ; `C31_outright` ties the outright to spot plus points.

### C32 — FX option prices satisfy put-call parity and no-arbitrage bounds
Modelled: `black_scholes` (derivatives/forex/option.rs) over ℝ with Φ the Gaussian distribution function, defined as the integral of the density. Proved from symmetry of Φ and the derivative of the price in the variance (limits at zero variance included).

### C33 — FX option Greeks are the derivatives of the price
Modelled: `FXVanillaOption::bs_context/mtm/delta/gamma/vega`. Proved: the Greeks are Mathlib derivatives (`HasDerivAt`) of the model price.

### C34 — The FX smile reproduces every quote
Modelled: the whole pipeline `normalise_quotes` → strikes from deltas → quadratic through three points → residual knots → `SmileSection::volatility`. `sort_by` is Lean's stable merge sort; `norm_inv` is the exact quantile. Specification: the strike of a delta is any K with Φ(±d₁) = δ; proved unique, hence equal to the code's strike, and the residual interpolation pins each of them.

### C35 — FX vol interpolation in time is linear in total variance
Modelled: `FXVolSurface::new/volatility`; `binary_search_by_key` enters through its documented contract (`KeySearch`, with a concrete instance). Proved by a four-way case split of the lookup and sortedness of the constructed surface.

### C36 — Discount factors are positive and consistent with forward rates
Modelled: `YieldTermStructure::zero_rate`, `discount`, `forward_rate` over ℝ (`Model/YieldCurve.lean`), including hidden pillars. Proved by exp/log algebra and an analysis of the pillar scan; the bound by one fails with hidden pillars (refuted with a concrete curve).

### C37 — A curve reproduces its pillars and extrapolates from the last one
Modelled: `step_function_forward_zero_rate`. Both halves of the claim are refuted; partial theorems give the actual values (a pillar's rate one day before its date, weighted mean in between, first rate outside). With hidden pillars the value is given exactly by `C37_hidden_first`, `C37_hidden_between` and `C37_hidden_end`: together with the panics of C36 they cover every day looked up on every curve with increasing dates; a hidden pillar passed just before the end of the search still serves as the left end of the line, and past the end the line through the last and a hidden first pillar is used.

### C38 — A parallel shift equals bumping every pillar
Modelled: `shifted_discount`. The bumped curve is defined separately (`Spec/YieldCurve.lean`); proved by commuting the pillar scan with the bump, for pillars with distinct dates.

### C39 — A cash quote is repriced by its own pillar
Modelled: `OISRate::settle_date`, `maturity_date`, `zero_rate`, `discount`. Proved by exp/log algebra.

### C40 — Swap schedules are contiguous
Modelled: `InterestRateSwapLeg::effective_date`, `generate_schedule`, `InterestRateSwap::settle_date`, `maturity_date` over any calendar, convention and day counter. Proved by induction over the periods, reusing C05/C09/C10. The number of periods is duration/tenor only within one unit (partial; refuted across units); a zero tenor and an empty schedule panic (theorems).

### C41 — Swap values add up over legs and flip with direction
Modelled: `calculate_period_cashflow`, `npv`, `pv_under_shift`, `mtm`, `dv01`, `gamma`, `vega`, `currency` over ℝ. Additivity is an equation between outcomes (errors included); linearity by a scaling relation between legs; the shift clauses through C38.

### C42 — A floating leg without spread is worth its notional times the first discount factor
Telescoping by induction over contiguous schedules; par coupon by algebra on the two leg values.

### C43 — Cap minus floor is the forward swap
Modelled: `CapFloor::caplet_market`, `pv_under_shift`, `mtm`, `dv01`, `gamma`, `vega`, `modified_duration`, `IRNormalVolSurface::caplet_volatility`, `interpolate_nodes` and the whole stripping (`strip_caplet_vols`, `strip_one_strike`, `price_cap_with_strip`) with the root finder as a parameter. Proved by summing Bachelier parity, bounds and monotonicity (C46) over the caplets.

### C44 — Caplet total variance is non-negative, monotone and continuous through the accrual period
Modelled: `caplet_total_variance`. The specification is the integral of the squared instantaneous volatility; the other clauses are direct.

### C45 — Every live observer is notified once, in order
Modelled: the registry of weak references of the three `Observable` implementations with arbitrary `update` functions on an arbitrary world. The specification (`targets`) reads the history only; proved by induction over histories.

### C46 — Bachelier prices satisfy parity, bounds and monotonicity
Modelled: `bachelier_call/put/vega_variance` (models/common/bachelier.rs). Proved by Gaussian calculus; monotonicity from the derivative in the variance and the limit at zero.

### C47 — Implied volatility inverts the Black price
Modelled: `bs_implied_vol_tol` with its bisection loop of 200 steps (fuel = the loop bound) in exact arithmetic. Proved with the bisection invariant and strict monotonicity of the price in the volatility.

### C48 — CIR moments and paths stay in their domain
Modelled: `CirProcess` moments, `sqrt_mean*`, Feller condition and the truncated Euler step (`Model/ShortRate`). Proved: mean between start and θ, monotone, limit, moment ODEs (`HasDerivAt`), variance non-negative, every path non-negative for every draw list, series identity behind `sqrt_mean`.

### C49 — Hull-White building blocks are consistent
Modelled: `HullWhite` `b`, variances, `discount_affine`, `step` (`Model/ShortRate`). Proved: `b` as `∫ e^{-λ(s-t)}`, composition, short-rate variance as an interval integral, affine bond price identities; `bond_log_variance` only in the Ho–Lee case — for λ ≠ 0 the antiderivative in the code is wrong (`C49_bond_log_variance_false`, `_nonneg_false`).

### C50 — Monte Carlo observation dates are all captured
Modelled: `simulate_at_dates`, the grid builder, `DatedPaths`, generic model step and draw source (`Model/Simulation`). Proved: grid strictly increasing, contains every observation, bounded steps; captured states are folds; refuted when a day counter yields a zero step (`C50_lost_observation_false`).

### C51 — Nelder-Mead never returns worse than it started with
Modelled: `nelder_mead` with its four moves, termination and budget (`Model/Optimize`); objective values are reals or NaN. Proved by loop invariant: reported value is the objective there, never worse than the start, iteration bound, totality. `C51_initial`, `C51_centroid`, `C51_shrink`, `C51_progress`: what one pass does; `C51_volume`, `C51_nondegenerate`: the determinant of the vertices (`Spec/NelderMead`) through the passes.

### C52 — Cholesky factor reproduces the correlation matrix
Modelled: `cholesky`, `cholesky_4x4`, `Correlation4x4` (`Model/Cholesky`). Proved by loop invariant plus back substitution: factor equations, success iff positive definite, uniqueness.

### C53 — SABR formula is consistent at the money
Modelled: `SabrParams::new`, `hagan_implied_vol`, `hagan_atm_vol`, `step_with_noise`, `simulate` over ℝ (`Model/Sabr`). Proved: ATM equality and limit, flat case, `z/x(z) > 0`, symmetry, scaling, path invariants with the exact lognormal volatility. Positivity is refuted in general (`C53_positive_false`).

### C54 — Caplet surface lookup
Modelled: `interpolate_nodes`, `caplet_volatility` and the whole of `strip_caplet_vols` (grouping, sorting, per-strike bootstrap, assembly of pillars). Proved for any node list with increasing strikes; the stripped-surface clauses for any quotes and any root finder.

### C55 — Caplet stripping reprices the quotes
Modelled: as C54, with the valuation of a cap as a trade (`pv_under_shift`). The root finder is a parameter with the contract that the residual at its answer is at most eps; Brent's interval-width exit is covered by choosing eps accordingly. Proved by an invariant of the bootstrap (each quote owns a segment solved on the earlier segments) and a lemma that on a rectangular grid the assembled surface returns exactly those segments. `C55_nonrectangular_false` gives two exactly solved columns whose surface misprices one of them.

### C56 — Futures quotes on the curve
Modelled: `FuturesRate` (settlement, maturity, implied quote, discount, zero rate) and `retrieve_related_stripped_curve` function by function; `IMM::date`/`next_date` from C21–C22 with one call of fuel, justified by `futSettle_fuel`. Proved with explicit list splits for the anchor and exp/log algebra; refutations by concrete witnesses.

### C57 — The stripped curve
Modelled: `get_stripped_curve` with its three loops, `solve_zero_rate`, `calculate_npv`, `amend_last`; the Brent root finder is a parameter with the contract that what it returns is a root up to `eps`. Proved by induction over each loop; refutations by a one-year and a two-year one-period swap.

### C58 — Rule-based calendars close exactly on weekends and the listed public holidays
Modelled: the calendars of `Model/Cal/*` (as for C15). Spec: `Spec/Holidays.lean`, one list of holidays per calendar and year, built from Easter Sunday (C13), n-th weekdays and named observance rules, with no reference to the code's day/month conditions; `ClosedOn` says a date is open iff it is neither weekend nor in the list. Proved for every date of 1901–2199 (all years of the date type where Easter is not involved, 1980–2099 for Japan): `C58_target` … `C58_chile`. Refuted with witnesses: French settlement (Ascension and Pentecost coded as 10 and 21 May), Ukraine (Western Easter), Argentina (open at Christmas), Federal Reserve (Juneteenth moved to Friday), NYSE election days before 1981 (first Tuesday instead of Tuesday after the first Monday), Japan outside 2017–2030 (equinox tables). The `_partial` theorems state what these calendars do. Calendars that are mere tables of dates (China, Hong Kong, India, Indonesia, Israel, Singapore, South Korea, Taiwan, Thailand, Turkey, Russia) are the subject of C79 and C80; New York's one-off closures are a list in the spec as in the code. Lemmas: `Lemmas/Holidays.lean` translates each spec rule into conditions on day, month and weekday; the tactic `holidays` applies them.

### C59 — Actual/Actual (Euro) counts whole years back from the end and adds the remainder
Modelled: `euro_year_fraction` with its loop (`euroYearBack`, `euroLoop`, `euroYf`). Spec: `yearsBefore` (anniversaries) and `IsEuroFraction` (whole years, number of remaining days, number of leap days among them as cardinalities). `C59_value_partial`: the loop finds exactly the whole years and the right denominator, for any length of period, but the remainder is subtracted; `C59_correct_iff`: the result is right iff the period is a whole number of years; `C59_half_year_false`, `C59_reversed_false` are the refutations.

### C60 — Effective SABR parameters reproduce the moments of the time-dependent model
Modelled: all of `sabr_effective.rs` (schedules, aligned segments, both sums with their Taylor branches, right-hand side, widening, bisection, term structure, correlation). Spec: step functions of time (`IsSchedule`), the moments as interval integrals (`moment1`, `moment2`), the documented equation (`MatchesMoments`). `C60_schedule`, `C60_constant_schedule`: constructors and look-up. `C60_moments`: the sums are the integrals up to 1e-12 and 1e-11 for any number of segments, and the Jensen floor. `C60_vol_vol`: returns, unique solution, |γ̃²T − x| ≤ 1e-10 + T/2³⁹. `C60_term_structure`: first moment matched. `C60_no_vol_vol`, `C60_constant`: special schedules. `C60_correlation`, `C60_correlation_neg`: skew preserved, sign. Refuted: `C60_correlation_range_false` (ρ ≡ ½ gives ρ̃ > 1), `C60_constant_omega_false` (ω ≡ 1 gives ω̃ < 0.999).

### C61 — The COS pricer converges to the discounted expected payoff
Modelled: `CosPricer` with its constructor, setters, `price_european`, `chi_k`, `psi_k` over ℝ and ℂ; the characteristic function is an arbitrary function. Spec: payoffs, `foldInto` (reflection of the line into the range), `cosFactor`. `C61_chi`, `C61_psi`: the closed forms are the integrals. `C61_call_series`, `C61_put_series`: the price is the truncated cosine series of the payoff (strike inside the range). `C61_parity`: exact parity for any strike. `C61_call_error`, `C61_put_error`: explicit remainder 2(b−a)(e^b+2K)/(π²(n−1)), through uniform convergence of the Fourier series of the even extension (Mathlib's `fourierCoeff`) and a 1/k² bound of the coefficients; `C61_put_total_error`, `C61_call_total_error` add the mass outside the range; `C61_converges` for laws supported in the range. `C61_default_range`, `C61_setters`, `C61_total`: constructor and assertions. Refuted for strikes outside the range: `C61_outside_false`.

### C62 — The FX-HHW1 characteristic function solves its pricing equation
Modelled: `fx_hhw1_chf.rs` completely, over ℝ and ℂ, `Complex64::sqrt` as the principal root. Spec: generator of (x, σ) from the factor loadings and correlations, `riccatiRate`, `driftRate`, Simpson panels. `C62_affine`: the exponential form solves the pricing equation iff C solves the Riccati equation and A has `driftRate` at calendar time T−τ. `C62_riccati`, `C62_damping`, `C62_divisor`, `C62_divisor_martingale` for C (an energy argument shows the divisor has no zero); `C62_zero`, `C62_martingale`, `C62_conjugate`, `C62_cached`, `C62_panics`, `C62_tau_range`. Refuted: the code takes φ, B_d, B_f at calendar time s instead of T−s (`C62_integrand`, `C62_two_interval_gap`, `C62_drift_false`); harmless iff variance and rates are uncoupled (`C62_drift_partial`). `C62_heston`: Heston limit with fourth-order error (general Simpson error lemma proved here), `C62_modulus`, `C62_black_scholes` with explicit constant.

### C63 — The FX-HLMM1 characteristic function solves its pricing equation
Modelled: `fx_hlmm1_chf.rs` completely and the tenor, `psi`, `compute_a_*`, `compute_f` and validation of `fx_hlmm.rs`, over ℝ and ℂ (principal root and logarithm). Spec: loading as a logarithmic derivative, `quadOn`, `forwardVariance` from the full correlation structure, generator of (x, σ, v_d, v_f), `Tiles`, `SolvesD`. `C63_new`, `C63_active`, `C63_loading`, `C63_a_side`, `C63_variance`, `C63_segments`, `C63_panics`; `C63_heston_a` (the argument of the logarithm never meets the negative axis), `C63_heston_c`, `C63_advance`; `C63_components_partial` puts them together (A is the exact integral of the stochastic parts plus Simpson sums of f, whose convergence is C83); `C63_affine`, `C63_zero`, `C63_martingale`, `C63_divisor` (0/0 at −i when κ ≤ γρ), `C63_modulus`. Refuted: for an expiry inside the tenor later Libors still enter (`C63_expiry_false`); correct when the tenor ends by the expiry (`C63_expiry_partial`).

### C64 — Smile calibrations return admissible parameters and an honest error
Modelled: the three calibrators and `market_data.rs` over ℝ on top of the models of Nelder–Mead (C51), Hagan's formula (C53), the COS pricer (C61), the characteristic functions (C62, C63), implied volatility (C47) and the volatility surface (C35). A panicking objective is passed to the optimiser as NaN; the proofs show the objective never panics for positive strikes. Spec: `fitError`, `clipTo` regions, `Cir.Above`, `lastBond`. `C64_softplus`, `C64_softplus_error` (the shortcut costs < e⁻³⁵), `C64_softplus_monotone_false` (it makes softplus drop at 35); `C64_sabr`, `C64_hhw`, `C64_hhw_bounded`, `C64_hlmm` (totality, admissibility, reported error, not worse than the start), `C64_clip`, `C64_sabr_exact`, `C64_hhw_exact`, `C64_error_bound`, `C64_error_zero`; `C64_hhw_forward`, `C64_hhw_reprice`, `C64_hlmm_reprice`; `C64_hlmm_discount`; `C64_hlmm_invalid` (invalid parameters come back with the penalty, not an error); `C64_grid`, `C64_strip`, `C64_strip_total`, `C64_wrappers`, `C64_forward_unused`, `C64_surface_to_sabr`; panics. Refuted: `discount_factor` before the last tenor date is the bond to the last date (`C64_hlmm_discount_false`).

### C65 — The FX-FMM1 characteristic function is the affine transform of the frozen-rate model
Modelled: `FmmTenor`, `LinearDecay`, `fx_fmm.rs` and `fx_fmm1_chf.rs` over ℝ and ℂ (`Model/FmmTenor`, `Model/FxFmm`); the text of validation errors is left out. Spec: `ahead`, `liveRates`, `fmmLoading`, `fmmVariance`, `sideVariance`, `CutInterval`, and `SolvesD` from C63. `C65_new`, `C65_new_ordered`, `C65_eta`, `C65_decay`, `C65_loading`, `C65_a_side`, `C65_variance`, `C65_f_cached`, `C65_segments`, `C65_resolution` (the frozen variances converge with the number of sub-segments), `C65_live_partial`, `C65_default`, `C65_panics`, `C65_closed_forms`, `C65_components_partial` (the convergence of the Simpson sums of f is C83), `C65_zero`, `C65_martingale`, `C65_modulus`, `C65_expiry_partial`. Refuted: expiries before the last tenor date keep later rates (`C65_expiry_false`), expiries after it lose the last rate's variance (`C65_tail_false`).

### C66 — The forward market model is arbitrage-free and consistent with its curve
Modelled: `Fmm`, `VolSchedule`, `FmmSimulator` (one path, the normal draws of each step are parameters), `bond_price`, `bank_account` over ℝ (`Model/Fmm`). Spec: `fmmDrift`, the generators `fmmGen` and `stubGen` built from derivatives, `discBond`, `StepValue`, `OffTolerance` (the time is on a tenor date or further than the tolerance 1e-15 from it). `C66_valid`, `C66_knots`, `C66_step`, `C66_frozen`, `C66_covariance`, `C66_simulate`, `C66_simulate_all` (all paths, each with its own block of draws; when the code panics), `C66_drift` (if and only if), `C66_tenor_bonds`, `C66_back_stub`, `C66_front_stub`, `C66_maturity`, `C66_bank`, `C66_initial`, `C66_ho_lee_partial`. Driftless means that the generator of the diffusion vanishes; the step from there to the martingale property (stochastic integration) and the Euler error are not modelled. Refuted: the first step leaves the state variable of the running period (`C66_first_step_false`), snapshots are taken at the end of the step that passes the start (`C66_snapshot_false`), a tenor that starts after zero loses the first discount factor (`C66_start_false`), the Ho-Lee schedule lacks the level R + 1/tau (`C66_ho_lee_false`).

### C67 — The FX-HHW simulator is an exact martingale scheme for the FX rate
Modelled: the simulator of `fx_hhw.rs` over ℝ with the generator as a stream of draws (`Model/HhwSim`). Spec: `chain` (steps driven by draws), `stdNormal`, `iidLaw`, `hhwCarry`, `eulerMean`. Expectations are Bochner integrals over products of Mathlib's `gaussianReal`. `C67_new`, `C67_step`, `C67_noise`, `C67_fx_mean`, `C67_quanto`, `C67_moments`, `C67_martingale`, `C67_foreign_mean`, `C67_domestic_mean`, `C67_scheme_mean`, `C67_simulate`, `C67_dated`. Refuted: the updated variance is clamped, so its mean exceeds that of the full-truncation scheme (`C67_full_truncation_false`); `simulate` ignores `with_theta_fn` (`C67_theta_fn_false`). That the generator's output is distributed like independent normals is not modelled.

### C68 — The FX-FMM simulator composes two forward market models and an exact martingale scheme for the FX rate
Modelled: all of `fx_fmm_simulator.rs` over ℝ with the generator as a stream of draws (`Model/FxFmmSim`). Spec: `JointCorrelation` (the configured correlations entry by entry), `sideSim` (the forward market model of one currency, C66), `sideDrift`, `sideVolAt`, `runningRate`, `fxFmmCarry`. `C68_new`, `C68_initial`, `C68_step`, `C68_noise`, `C68_domestic`, `C68_foreign_partial`, `C68_fx_mean`, `C68_martingale`, `C68_moments`, `C68_quanto`, `C68_simulate`, `C68_dated`. Refuted: the foreign `x` lacks the quanto shift inside a period (`C68_foreign_x_false`); a cross block that is not symmetric is averaged (`C68_cross_false`); the FX rate grows with accounts that compound the running rate continuously, not with those of the forward market model (`C68_account_false`); the clamped variance is biased (`C68_full_truncation_false`). The logarithm of a non-positive FX rate and the distribution of the seeded generator are not modelled.

### C69 — The Dupire surface recovers the local variance of the quotes
Modelled: all of `dupire_local_vol.rs` except the two range getters, over ℝ (`Model/Dupire`). Spec: `HasLocalVariance` (the forward equation), `GridNear` (a node and the nodes its differences use within δ, quotes from a price surface), `bilinear`, `intoRange`, `intoBand`, `termCall`. `C69_build`, `C69_band`, `C69_bilinear`, `C69_continuous`, `C69_stencils`, `C69_recovers` (limit of fine grids), `C69_term_structure`, `C69_flat`, `C69_arbitrage` (fallback to the implied variance). Refuted: flat volatilities outside 1%–200% are not recovered (`C69_band_false`); the surface depends on the unit of the rate (`C69_scale_false`). NaN from non-positive strikes is not modelled.

### C70 — The time-dependent SABR simulator follows its schedules
Modelled: all of `sabr_time_dependent.rs` and `SabrSimulator::simulate` over ℝ, the generator being a sequence of draws (`Model/TdSabr`). Spec: `sabrScheme` (one step of the discretised model), `sabrCut` (what the truncation adds), `atMid` (a function at the middle of a step), `IsSchedule`. `C70_new`, `C70_at`, `C70_noise`, `C70_range`, `C70_simulate_partial`, `C70_constant_alpha`, `C70_flat`, `C70_reduces`, `C70_reduces_none`, `C70_volatility` (all real moments, knots on the grid), `C70_martingale_partial` (the forward less the truncations), `C70_dated`, `C70_initial`. Refuted: `C70_alpha_false` (only the first alpha is used), `C70_martingale_false` (strict upward bias for every parameter set), `C70_straddle_false` (documented right-end lookup).

### C71 — The stochastic-local-volatility particles move with the local variance of the surface
Modelled: all of `sabr_slv.rs` over ℝ, the generator being a sequence of draws, the sort being the stable merge sort (`Model/SabrSlv`). Spec: `IsBinning`, `meanSq`, `IsBinMean` (first group that reaches the forward), `slvCoef`, `slvStep`, `SlvAdvance` (one step of the population). `C71_with_bins`, `C71_bins`, `C71_simulate` (the whole run as a sequence of populations), `C71_range`, `C71_volatility`, `C71_mimicking`, `C71_local_vol`, `C71_martingale_partial`. Refuted: `C71_martingale_false`, `C71_ties_false` (equal forwards in two bins), `C71_zero_false` (zero is not absorbing and uses another bin). The limit of many particles is not treated.

### C72 — The foreign-stock simulator prices foreign equity without drift in both measures
Modelled: all of `fx_hhw_stock.rs` over ℝ, the generator being a stream of draws (`Model/HhwStock`). Spec: `stockCorr` (the six-factor correlations), `stockChainStep`, `stockAccount`. `C72_new`, `C72_step`, `C72_base` (the base block is the FX-HHW simulator of C67 along every path), `C72_noise` (Euler step of eq. 2.36-2.39 and covariances), `C72_means`, `C72_quanto`, `C72_martingale`, `C72_fx_martingale`, `C72_simulate`, `C72_dated`. Refuted: `C72_full_truncation_false`.

### C73 — The FX-FMM calibration returns an admissible fit whose reported error is the true one
Modelled: all of `fx_fmm_calibrator.rs` (`Model/FxFmmCal`), on top of the Nelder-Mead model (C51), the COS pricer, the implied volatility (C47) and the characteristic function of C65. Spec: `fmmClip`, `fitError`, `lastRateBond`. `C73_fit`, `C73_exact`, `C73_invalid`, `C73_panics`, `C73_reprice`, `C73_forward`, `C73_wrapper`, `C73_discount`. Refuted: `C73_discount_false` (an expiry before the last tenor date is discounted to the last date). How close the optimiser comes to the minimum is not claimed.

### C74 — The time-dependent SABR calibration brackets its targets, and its correlation stage is exact until it clamps
Modelled: all of `sabr_time_dependent_calibrator.rs` (`Model/TdSabrCal`): bracket widening, bisection, the three growth stages, stage-1 fits (on the SABR calibration of C64), diagnostics and the surface wrapper. Spec: `EffVar` (exact effective vol-vol from the moments of C60), `rmsDiff`. `C74_vol_vol_monotone`, `C74_nu`, `C74_alpha`, `C74_rho`, `C74_rho_exact`, `C74_single`, `C74_single_run`, `C74_calibrate`, `C74_panics`, `C74_surface`. Refuted: `C74_alpha_monotone_false` (the effective term structure is not monotone in the last value, so the solver can return 1e-6 although the target is attained), `C74_clamp_false` (a clamped correlation makes a later pillar miss its target). That stages 2 and 3 succeed is proved for one pillar only.

### C75 — Converting a date to a year fraction and back returns the date
Modelled: `year_fraction_to_date` (`Model/YfToDate`, rounding half away from zero over the rationals). `C75_round_trip` (an equivalence, with the bounds in `roundTripTable`), `C75_close`, `C75_guess`. Refuted: `C75_actual360_false` (ten years in Actual/360 come back one day early), `C75_isda_false`, `C75_euro_false` (Actual/Actual is off by years, because these counters are wrong for partial years, C27 and C59). `Props/YfThirty`: for 30/360 the count runs at 365.25/360 calendar days up to 19 days over a thousand years (`thirty_global`) and up to 2.5 days over 20 days (`thirty_local`), so the second step ends within two days (`C75_thirty360`), which is sharp (`C75_thirty360_two_days`).

### C76 — The risk figures of caps and floors are the slopes they claim to be
Modelled: `analytic_vega_1bp` (`Model/CapRisk`); `dv01`, `gamma`, `vega` come from `Model/Cap`. Spec (`Spec/CapRisk`): `raiseVols`, `periodDelta` (derivative of the normal option on one period through forward and discount factor). `C76_defined`, `C76_vol_shift`, `C76_analytic`, `C76_bracket`, `C76_vega_parity`, `C76_floor_dv01`, `C76_rate_delta`, `C76_gamma`. Refuted: `C76_cap_dv01_false` (flat 10% curve, 10bp volatility, a caplet struck at 1% starting in thirty years).

### C77 — The built-in rate indices follow the conventions of their market
Modelled: `InterestRateIndex::from_enum` with its table (`Model/RateIndex`); dates of quotes come from `Model/YieldCurve`. Spec (`Spec/RateIndex`): a table of market conventions written apart from the code. `C77_total`, `C77_market_partial` (euro, dollar and sterling), `C77_euribor_settle`, `C77_euribor_weeks`, `C77_euribor_months`, `C77_euribor_years`. Refuted: `C77_aonia_false` (Austrian calendar for the Australian index), `C77_cdor_false` (the Canadian index is set up as a US dollar index), `C77_overnight_false` (a quote on any built-in overnight index matures on the day it settles).

### C78 — Market contexts answer from the quotes they were built from
Modelled: both contexts, their constructors and lookups (`Model/MarketContext`); the parts come from `Model/CurveStrip`, `Model/Forwards`, `Model/FxVol`, `Model/CapletSurface`. `C78_fx_raw` (an equivalence), `C78_fx_error`, `C78_quoted_points`, `C78_outside`, `C78_atm`, `C78_call_put`, `C78_flat`, `C78_for_linear`, `C78_for_linear_panic`, `C78_forward_points`, `C78_fx_rates`, `C78_ir_rates`, `C78_ir_linear`, `C78_ir_refuses`, `C78_ir_reprices`, `C78_ir_vol`. Refuted: `C78_forward_false` (`forward_at` gives points and ignores the spot), `C78_lag_false` (two days to spot for every pair), `C78_parity_false`, `C78_stale_false` (curve data of another day are accepted).

### C79 — Movable feasts in the tables fall where other calendars put them
Specified in `Spec/Feasts`: the Hebrew new year by molad and postponements and the feasts at fixed distances from it, the tabular Islamic calendar, the published dates of the lunar new year. `C79_telAviv` and `C79_shir` give the exact closing days of 2002-2037 and 2039-2050; the tables are compared row by row with the rule in the kernel and lifted to all dates (`named_iff`). `C79_turkey_ramadan`, `C79_turkey_sacrifice`, `C79_indonesia`, `C79_singapore_islamic` for every Islamic year, `C79_china`, `C79_hongKong`, `C79_hongKong_substitute`, `C79_korea`, `C79_taiwan`, `C79_singapore` for every year of the tables. Refuted: `C79_telAviv_2001_false`, `C79_telAviv_2038_false`, `C79_shir_false`, `C79_telAviv_weekend_false`, `C79_turkey_2011_false`, `C79_turkey_2015_false`, `C79_taiwan_2010_false`, `C79_hongKong_2014_false`, `C79_singapore_false`, `C79_singapore_islamic_false`. `C79_telAviv_partial` and `C79_shir_partial` cover 2000-2050 with the two misprints. Not compared: the moon of the lunar and Islamic dates (they are taken from the published and tabular calendars), Buddhist and Hindu feasts.

### C80 — Beyond their tables the calendars know fixed holidays only
`C80_china`, `C80_taiwan`, `C80_turkey`, `C80_korea`, `C80_moscow`, `C80_russia`, `C80_hongKong`, `C80_singapore`, `C80_indonesia`, `C80_india`, `C80_india_gap`, `C80_thailand`, `C80_telAviv`, `C80_shir`: the closing days of each calendar after its last table year, against the lists of `Spec/Horizon`.

### C81 — The mean of the square root of a CIR process
Specified in `Spec/CirLaw`: the law as a Poisson mixture of Mathlib's gamma measures, and the scale density of the process. `C81_law`: it is a probability on the non-negative numbers with the computed mean and variance. `C81_generator`: its Laplace transform moves by the generator of the equation and starts at `exp(-λσ₀)` (closed form by tilting the gamma laws). `C81_series`, `C81_sqrt_mean`: two-sided bounds of the truncated series against the integral of the square root, from the ratio of consecutive terms. `C81_small_time`: the error of the other branch between a twentieth and a half of `√m Var/m²`, always upwards, from third-order bounds of the root. `C81_infinity`, `C81_start`: the limits. `C81_feller`: the condition is equivalent to a divergent scale integral. Refuted: `C81_small_time_false`, `C81_tolerance_false`. Not formalised: stochastic integrals, so the law is tied to the equation by its generator only, and Feller's test itself is quoted.

### C82 — Risk figures of interest rate swaps
Modelled: `dv01`, `gamma` and `modified_duration` (`Model/Swap`, `Model/Cap`). The hypotheses are one structure, `VanillaSwap` (same contiguous schedule, payment at the end of each period, opposite directions, not yet started). The values on the raised curve are closed forms (`C41_dv01`, `C41_gamma`, `C42_fixed`, `C42_float`, `C38_shift_eq_bump`). `C82_dv01`, `C82_dv01_spot`: signs, since every payment loses at least the factor of the start date. `C82_duration`, `C82_duration_pos`. `C82_gamma_even`, `C82_gamma_spot`, `C82_gamma_scale` (limit by the derivative of `exp`). Refuted: `C82_receiver_false`, `C82_duration_false`.

### C83 — The quadratures of the FX-HLMM1 and FX-FMM1 characteristic functions converge
No new model. Spec (`Spec/Quadrature`): `Cir.rootMean` (integral of the root against the law of C81), `RootWithin`, `crossCov` and `crossSize`, the covariances between the factors and their sizes; `meanCross`, `meanCrossSize` of both models. `C83_root_error`, `C83_root_error_series`, `C83_root_continuous`: `sqrt_mean` against the mean of the root, which is continuous. `C83_hlmm`, `C83_fmm`: Simpson sums converge for continuous integrands (`simpsonOn_tendsto`, no rate) and are monotone, so they carry the pointwise error of a discontinuous integrand (`simpsonOn_near`); the segments are put together by induction (`tiles_near`). `C83_hlmm_limit`, `C83_fmm_limit`: the bound with w = 1/249. Not covered: a rate of convergence, FX-FMM1 expiries beyond the last tenor date (there C65 is refuted).

### C84 — One FX contract, one risk: either currency of the notional, options against forwards
`Spec/FxTrade` defines the rewriting of a notional. `C84_value`, `C84_vega`: value and vega convert at spot. `C84_delta_strike`, `C84_gamma_strike`: delta and gamma are multiplied by the strike instead, so `C84_delta_false` refutes the claim for the delta with a one-week EUR call. `C84_synthetic_foreign`: call minus put is **minus** the forward in value and the forward in delta (foreign notional); `C84_synthetic_domestic`: it is the forward in value and minus the strike times the forward in delta (domestic notional). An example prices the sample call, put and forward.

### C85 — Option formulas are discounted expected payoffs
`Spec/ExpectedPayoff` defines the two levels as functions of a standard normal draw, the payoff of a call and a put, and the mean over the draw as an integral against `gaussianReal 0 1`. `C85_levels` checks their means and laws. `C85_black`, `C85_black_forward`, `C85_bachelier`: the closed forms equal those integrals, including zero variance. `C85_fx`, `C85_cap`: consequences for `FXVanillaOption::mtm` and `CapFloor::npv`. The proofs integrate the density over the tail beyond the strike; puts follow from the parity of the payoffs. Examples: an at-the-money Black call, a Bachelier put on a negative forward, the sample FX option and the sample cap.

### C86 — Simulated paths are independent exact samples; Monte Carlo averages converge
`Spec/SimLaw` defines a sequence of independent draws, a simulator that consumes one draw per step, and what it is to be a Brownian motion at given dates. Path `j` reads its own block of draws (`Lemmas/BlockDraws`, `Lemmas/SimLaw`), so paths are independent and identically distributed. `C86_brownian`, `C86_geometric`: exact joint law of the paths. `C86_converges` (strong law), `C86_error` (mean, variance, central limit theorem): any simulator, any path functional. `C86_lognormal`, `C86_option`: averages over the geometric simulator tend to the lognormal expectation and so, by C85, to `bs_call_forward` and `bs_put_forward`. That the crate's generator produces independent normal draws is an assumption. Examples: runs over two dates with ten-day steps, with draws from the infinite product of standard normal laws.

### C87 — Input is accepted exactly on the documented conditions; the FX surface never aborts
`Spec/Checks` says what it is to return exactly on a condition and to stop otherwise, and states the accepted shapes of schedules, tenors and correlation matrices without the model. `Props/Checks`: one theorem per constructor or formula (`C87_schedule`, `C87_tenors`, `C87_fmm`, `C87_betas`, `C87_vol_schedule`, `C87_quantile`, `C87_hagan`, `C87_cir`, `C87_aligned`, `C87_simulate`). `C87_effective`: effective parameters are never an `Err`. `C87_fx_surface`: every delta that survives validation lies in (0, 1/2), so the quantiles exist and the node lookups succeed. Comparisons with NaN are outside the model. Examples: an accepted and a refused input for each shape. `C87_hlmm_parameters`, `C87_fx_fmm_parameters`: the validation of the parameters of the two FX market models, against correlation tables stated entry by entry.

### C88 — Monte Carlo averages of the model simulators converge
`Spec/ModelMc` says what it is for the runs of a simulator to be samples and what their average is. `Lemmas/ModelMc`: paths that are one function of successive blocks of draws are independent with a common law, which is that of the function of the first block (`block_sample`, `chain_sample`). `Props/ModelMc`: strong law and error law for any such runs (`C88_average`, `C88_error`); each simulator produces such runs (`C88_hhw`, `C88_stock`, `C88_td_sabr`, `C88_sabr`, `C88_fx_fmm`) through the closed forms of its paths in C67, C68, C70, C72. Limits: `C88_hhw_rate`, `C88_hhw_parity`, `C88_stock_parity`, `C88_td_sabr_vol`. The SABR forward is floored at zero, so its average converges to more than today's forward (`C88_td_sabr_forward_false`, `C88_sabr`). Example: explicit parameters with draws from the infinite product of normal laws.

### C89 — Simulators agree with the closed formulas of their models
`Spec/ClosedForms` writes down mean-reverting sequences, their sums and the variance of accumulated noise. `Lemmas/GaussChain`: a linear combination of independent normals is normal, and a quantity updated linearly with independent normal noise stays normal (`chain_gauss`). `Props/ClosedForms`: laws of the simulated rates (`C89_domestic_law`, `C89_hull_white_law`) and their limits (`C89_rate_limit`, `C89_sum_limit`; reversion zero or at least 1e-12, the threshold of the code), the law of the FX rate (`C89_fx_law`), convergence of the Monte Carlo price to Black's formula through C85 and C88 (`C89_black`, `C89_black_scholes`), the law of the SABR volatility (`C89_sabr_vol`). Example: constant variance 0.04, two steps.

### C90 — Monte Carlo averages of the forward market model
Model: `FmmSimulator.simulateTerminal` in `Model/Fmm`. `Spec/FmmMc` reads the rates and the bank account off a path. `Lemmas/Poles`: a function with a simple pole is not integrable against the normal law, Fubini in one coordinate of a product, and a sample without mean has no limiting average. `Lemmas/FmmMc` writes the simulation as a chain. Proved: `C90_sample`, `C90_average_iff`, `C90_bounded`, `C90_one_step`. Refuted: with at least two steps the average of a rate that is still alive in the last step almost surely has no limit (`C90_rate_false`), nor has the average of one over the bank account on a tenor date (`C90_bank_false`), both for models without displacement whose volatilities never vanish. The rates are normal, so the factor 1 + tau R, by which drift and bank account divide, comes arbitrarily close to zero. Floats cut off the normal draws; the effect is one of the idealised model (disagreement 61).

### C91 — Simulators driven by dates agree with their own loops
`Model/Dated`: the `SimulationModel` implementations of the forward market model, SABR, Hull-White and CIR (those of time-dependent SABR, Heston/Hull-White, its stock extension and the FX forward market model are in their own modules). `Spec/Dated` says which integration dates there are, what equal steps on a regular grid are, and gives mean and variance of the Hull-White steps. Proved: `C91_grid` (the integration dates, exactly), `C91_causal` (the first path does not see later requests), `C91_invariant` (induction along the dates), `C91_regular` and its instances `C91_sabr`, `C91_td_sabr`, `C91_fmm`, `C91_hhw`, `C91_stock`, `C91_fx_fmm`; `C91_fmm_time`, `C91_sabr_signs`, `C91_cir`, `C91_hull_white_law`. Refuted: an additional date changes the state returned for the others (`C91_other_dates_false`, disagreement 62).

### C92 — Hull-White rates fitted to a forward curve
Model: `HullWhite.discountAffine`, `shortRateVariance`, `step` (`Model/ShortRate`) and `HullWhite.toModel` (`Model/Dated`). `Spec/HwFit` states the differential equation of the mean, the mesh of a grid and the fitted target. `Lemmas/HwFit`: local errors of Euler steps by the mean value inequality, added up over the grid. Proved: `C92_bond_mean` (average of the bond formula under any normal law), `C92_forward_bond`, `C92_mean_error`, `C92_variance_error`, `C92_fitted` (the fitted target makes the forward curve the mean of the model), `C92_dated` (all of it for the simulator driven by dates). Refuted: with the fitted target the simulated mean is the forward rate exactly (`C92_exact_fit_false`, disagreement 63). Not covered: the average over finitely many paths (its convergence is C86), and floating point.

### C93 — Cosine prices of normal log-forwards are Black prices
Model: `CosPricer` (`Model/Cos`), `HhwChf` (`Model/HhwChf`), `blackScholes` (`Model/Options`). `Spec/CosBlack` states the deterministic variance, the variance of the log-forward and its Simpson sum. `Lemmas/CosBlack`: Gaussian tails by exponential moments, the cosine remainder from the decay of the characteristic function, Lipschitz bound of Black's formula in the deviation. Proved: `C93_decay`, `C93_normal`, `C93_hhw_law`, `C93_variance`, `C93_wide`, `C93_converges`, `C93_ten_deviations`, `C93_default`. Refuted: the default range catches the effective support (`C93_default_range_false`, disagreement 64). Not covered: strikes outside the range (C61), positive volatility of variance (the law is not normal; C61 and C62 apply), floating point.

### C94 — Changing the unit of the domestic currency
Model: `Model/{Options,Cos,Calibrate,FxFmmCal,HhwSim,HhwStock,FxFmmSim,TdSabr}`. `Spec/Units` says what parameters and states look like in the new unit. `Lemmas/Units` and `Lemmas/UnitPaths`: each term of the cosine series scales (the coefficient of the exponential by c, the phase cancels), each Euler step commutes with the change of unit, loops by induction. Proved: `C94_black`, `C94_cos`, `C94_hhw`, `C94_hlmm`, `C94_fmm`, `C94_paths`, `C94_simulators`, `C94_sabr_paths`, `C94_td_paths`, `C94_implied` (tolerance in the same unit), `C94_default_tolerance`, `C94_large_unit`. Refuted for the default tolerance: `C94_small_unit`, `C94_implied_false`, `C94_hhw_vols_false` (disagreement 65). Volatilities of Hagan's formula: `C53_scaling`; the Dupire surface is not invariant (`C69_scale_false`). Not covered: the seeds and tolerances of the optimisers.

### C95 — Quoting the pair in the other direction
Model: `Model/{Options,HhwChf,HhwSim,Cholesky,Cos,FxVol,Sabr}`. `Spec/Inverse` gives the parameters of the inverse pair. `Lemmas/Inverse`: the Riccati coefficient depends on `iu` only through expressions that do not change under `iu -> 1 - iu` once the mean reversion is changed, the two exchange-rate/rate terms of the drift swap, the quadratic form of the correlations is the same up to a permutation and a sign. Proved: `C95_black`, `C95_implied`, `C95_correlations`, `C95_involution`, `C95_hhw_partial` (deterministic rates, or variance uncorrelated with the exchange rate), `C95_prices` (cosine prices without volatility of variance, via `C93_converges`), `C95_strikes`, `C95_sabr`. Refuted: `C95_strikes_false`, `C95_sabr_false` (disagreement 66). Not covered: correlated variance with stochastic rates, where the stand-in for the mean volatility differs between the directions; the FX-HLMM and FX-FMM models.

### C96 — Smiles leave no arbitrage between strikes
Model: `Model/{Sabr,Options,FxVol}`. `Spec/Arbitrage`: call prices are mean payoffs of a law on the non-negative numbers with mean F. `Lemmas/Arbitrage`: monotonicity and limits of mean payoffs (dominated convergence), a lower bound of Black prices in the wings from the tail bound N(-y) <= phi(y), growth of Hagan's formula (exponential at low strikes for beta < 1, x/log x at high strikes for beta = 1). Proved: `C96_law`, `C96_flat`, `C96_high`, `C96_low`, `C96_hagan` (an equivalence: a law exists exactly for beta = 1 and nu = 0), `C96_fx_wings`. Refuted: `C96_hagan_puts_false`, `C96_hagan_calls_false`, `C96_fx_negative_false` (disagreement 67). Not covered: arbitrage of quoted FX smiles between the quoted strikes, which depends on the quotes, and calendar arbitrage beyond `C35_monotone`.

### C97 — A quote acts only on its own part of a curve or surface
Model: `Model/{CurveStrip,YieldCurve,Cap,FxVol,Forwards,Dupire,TdSabrCal}`. `Spec/Locality`: neighbours of a date among listed dates. `Lemmas/Locality`: loops that only append, so that a result for some quotes is an initial part of the result for more; two sorted lists with the same dates, read by position. Proved: `C97_swaps`, `C97_futures`, `C97_cash`, `C97_caplets`, `C97_fx_vol`, `C97_forward_points`, `C97_local_vol`, `C97_local_vol_time`, `C97_td_sabr`. Refuted: `C97_own_date_false` (disagreement 68). Not covered: quotes inserted between others, and discount factors behind a changed deposit.

### C98 — Small errors in the inputs cause proportionally small errors in the results
Model: `Model/{Options,YieldCurve,Cap,FxVol,Forwards}`. `Spec/Sensitivity`: quotes at the same places whose values differ by at most `ε`. `Lemmas/Sensitivity`: expected payoffs are 1-Lipschitz in level and strike (through C85), prices grow at most like the normal density in the standard deviation; weighted means and root mean squares do not expand distances. Proved: `C98_black`, `C98_bachelier`, `C98_zero_rate`, `C98_discount`, `C98_forward_rate`, `C98_caplet_vol`, `C98_cap`, `C98_fx_vol`, `C98_forward_points`. `C98_forward_rate_false`: a forward rate can move by more than twice as much as the pillars, so the amplification factor cannot be dropped. Not covered: errors in the quotes from which smiles and curves are solved.

### C99 — Options to later expiries do not cost less
Model: `Model/{Options,FxVol,Sabr,Dupire}`. `Spec/Expiries`: Hagan's coefficient of the expiry from the published formula. `Lemmas/Expiries`: prices order like variances; the cubic `(1+Bt)^2 t`. Proved: `C99_martingale` (positive parts of martingales are submartingales), `C99_black`, `C99_fx` (both directions, through `C35_monotone`), `C99_hagan` (up to `T` exactly when the slope is at least `-1/(3T)`). `C99_local_vol`. Refuted: `C99_hagan_false` (disagreement 69). Not covered: surfaces whose forward changes with the expiry, where prices have to be compared at equal ratio of strike and forward.

### C100 — Values of swaps and caps react in proportion to errors in the curve
Model: `Model/{Swap,Cap,YieldCurve}`. `Spec/SwapSensitivity`: the gross value of a leg and of a caplet, written with discount factors and year fractions only. `Lemmas/SwapSensitivity`: one payment, one schedule, all legs, one caplet, all caplets. Proved: `C100_swap`, `C100_fixed`, `C100_float` and `C100_par` (through C42), `C100_cap`, `C100_deposit`; errors of discount factors from C98. Year fractions of `C100_swap` are not zero. Not covered: the error a changed quote causes in pillars that are solved for (futures and swaps).

### C101 — The rates of a curve react in proportion to errors in its quotes
Model: `Model/CurveStrip`. `Spec/QuoteErrors`: nearby deposits, futures and pillars. `Lemmas/QuoteErrors`: the anchor pillar, one futures, the strip by induction, the product of the first futures. Proved: `C101_quote`, `C101_cash`, `C101_discount`, `C101_strip`, and `C101_discounts` through C98. Refuted for the first futures behind the deposits: `C101_first_false` (errors in two deposits come out thirty times as large); `C101_first` bounds the factor and `C101_curve` uses it for the whole curve. Swap pillars, which are solved for, are not covered.

### C102 — Values of FX forwards and options react in proportion to errors in the market data
Model: `Model/FxTrade`. `Spec/MarketErrors`: two sets of market data that are close. Proved: `C102_outright` (attained in the example) from the bound on interpolated points of C98, `C102_forward` with the discount factors of C98, `C102_option_domestic` and `C102_option_foreign` with the bound on Black prices of C98.

### C103 — Only the time between dates matters
Model: `Model/YieldCurve`, `Forwards`, `FxVol`, `FxTrade`, `Cap`, `Swap`. `Spec/DateShift`: the same curve, quotes, surface and trade `n` days later. `Lemmas/DateShift`: the scan of the pillars, the searches (whose position is unique for distinct dates, so that two different binary searches agree), the smiles, the sums over periods. Proved: `C103_curve`, `C103_forward_rate` with `C103_days`, `C103_points`, `C103_surface`, `C103_vol`, `C103_fx_forward`, `C103_fx_option`, `C103_caplet_vol`, `C103_cap`, `C103_cap_risk`, `C103_swap`, `C103_swap_risk`; `C103_months` shows the exception.

### C104 — The order in which inputs are listed does not matter
Model: `Model/Swap`, `FxVol`, `CurveStrip`, `Cap`, `Simulation`. `Spec/InputOrder`: which quotes can be told apart. `Lemmas/InputOrder`: sums of legs and lists of smiles by induction over a rearrangement, sorting by a key that differs, groups of cap quotes as the quotes of each strike. Proved: `C104_swap`, `C104_swap_risk`, `C104_mtm`, `C104_surface`, `C104_cash`, `C104_caps`, `C104_observations`, and for calibrations to targets with positive strikes `C104_sabr`, `C104_hhw`, `C104_hlmm`, `C104_fmm` (`Lemmas/TargetOrder`: the sum of squares, or the penalty, is the same in any order, hence the objective and everything the optimiser does with it); `C104_mtm_false` is the exception for several currencies. Forward points are in `C30_order_irrelevant`, joint calendars in `C08_joint_order_irrelevant`. The quotes of one smile: `Spec/SmileOrder`, `Lemmas/SmileOrder` (buckets with different keys, two updates of different fields or keys exchanged), `C104_smile`; `C104_smile_false`: of two calls for one delta the later counts.


## Which functions of the code are modelled

Computed from the line citations in `Verif/Model` (functions with a body, tests excluded):
517 of 561. A function counts as modelled when a model definition cites lines of it. In files
that are otherwise modelled, constructors that only fill in fields, accessors and forwarding
implementations listed as not modelled are structure instances or projections in the model.
Functions not listed as modelled are outside
the scope of every theorem.

| file (under `src/`) | modelled in | modelled | not modelled |
|---|---|---|---|
| derivatives/forex/basic.rs | FxPair, FxTrade, MarketContext | `currency_to_country`, `forward_points_converter`, `day_count`, `settles`, `cutoff_utc`, `effective_valuation_date`, `settlement_date`, `near_date`, `forward_helper`, `dom_currency`, `frn_currency`, `calendar` | — |
| derivatives/forex/forward.rs | FxTrade, MarketContext | `mtm`, `delta`, `gamma`, `vega` | — |
| derivatives/forex/option.rs | FxTrade, MarketContext, Options | `omega`, `black_scholes`, `bs_context`, `direction_sign`, `mtm`, `delta`, `gamma`, `vega` | — |
| derivatives/interestrate/basic.rs | Cap, FxTrade, Swap | `caplet_total_variance`, `modified_duration` | — |
| derivatives/interestrate/cap.rs | Cap, CapRisk | `caplet_market`, `pv_under_shift`, `unpack`, `mtm`, `dv01`, `gamma`, `vega`, `analytic_vega_1bp` | `direction_sign`, `ensure_supported_mode` |
| derivatives/interestrate/swap.rs | CurveStrip, Swap | `effective_date`, `get_reference_rate`, `generate_schedule`, `new`, `amend_last`, `calculate_npv`, `solve_zero_rate`, `npv`, `calculate_period_cashflow`, `currency`, `pv_under_shift`, `mtm`, `dv01`, `gamma`, `vega`, `settle_date`, `maturity_date` | `new` ×3, `is_fixe_leg`, `discount`, `yts_type` |
| markets/forex/market_context.rs | FxTrade, MarketContext | `new`, `from_raw_quotes`, `forward_at`, `rate_d`, `rate_f`, `discount_d`, `discount_f`, `implied_vol`, `for_linear`, `trivial_vol_surface` | — |
| markets/forex/quotes/forwardpoints.rs | Forwards, Observer | `new`, `with_spot_lag`, `get_forward`, `attach`, `notify_observers`, `as_any` | — |
| markets/forex/quotes/volsurface.rs | FxVol | `new`, `volatility` ×2, `from_pillar`, `normalise_quotes`, `find_or_insert`, `resolve_partial`, `validate_delta`, `atm_dns_strike`, `strike_from_call_delta`, `strike_from_put_delta`, `fit_quadratic_three_points`, `piecewise_linear_interp` | — |
| markets/interestrate/futures.rs | CurveStrip | `maturity_date` | `new` |
| markets/interestrate/interestrateindex.rs | RateIndex, YieldCurve | `from_enum` | — |
| markets/interestrate/market_context.rs | MarketContext | `new`, `from_raw_quotes`, `rate`, `discount`, `caplet_vol` | — |
| markets/interestrate/volsurface.rs | Cap, MarketContext, Observer | `last_accrual_start`, `attach`, `notify_observers`, `as_any`, `caplet_volatility`, `interpolate_nodes`, `strip_caplet_vols`, `strip_one_strike`, `price_cap_with_strip`, `caplet_sigma_for_start` | `new` ×2, `rebuild`, `update`, `as_any` |
| markets/termstructures/yieldcurve.rs | CurveStrip, MarketContext, Observer, YieldCurve | `retrieve_related_stripped_curve`, `get_stripped_curve`, `attach`, `notify_observers`, `as_any`, `step_function_forward_zero_rate`, `discount`, `shifted_discount`, `forward_rate` | `new` ×2, `zero_rate`, `update`, `as_any` |
| markets/termstructures/yieldcurve/oisratehelper.rs | YieldCurve | `discount`, `zero_rate`, `settle_date`, `maturity_date` | `yts_type` |
| markets/termstructures/yieldcurve/ratehelper.rs | CurveStrip | `implied_quote`, `discount`, `zero_rate`, `yts_type`, `settle_date`, `maturity_date` | — |
| math/normal.rs | Normal | `cdf`, `pdf`, `inverse_cdf` | `standard` |
| math/optimize.rs | Optimize | `nelder_mead` | `default` |
| models/common/bachelier.rs | Options | `bachelier_call`, `bachelier_put`, `bachelier_vega_variance` | — |
| models/common/black_scholes.rs | Options | `bs_call_forward`, `bs_put_forward`, `bs_implied_vol`, `bs_implied_vol_tol` | — |
| models/common/cir.rs | Dated, ShortRate | `mean`, `variance`, `sqrt_mean`, `sqrt_mean_tol`, `sqrt_mean_infinity`, `sqrt_mean_proxy`, `feller_satisfied`, `eval`, `initial_state`, `step` | `new` |
| models/common/cos_pricer.rs | Calibrate, Cos, FxFmmCal, HhwChf | `evaluate` ×3, `expiry` ×3, `log_forward` ×3, `typical_variance` ×3, `new`, `with_n_terms`, `with_range`, `call`, `put`, `price_european`, `chi_k`, `psi_k` | — |
| models/common/simulation.rs | Simulation | `states_at`, `sample`, `simulate_at_dates`, `new` ×2, `with_drift`, `with_volatility`, `with_initial`, `initial_state` ×2, `step` ×2 | `n_paths` |
| models/forex/dupire_local_vol.rs | Dupire | `build`, `local_variance`, `local_vol`, `bracket`, `fd_t`, `fd_k`, `fd_kk` | `t_range`, `k_range` |
| models/forex/fx_fmm.rs | FxFmm | `validate` ×3, `psi_base`, `psi_at`, `compute_a_side`, `compute_a_d`, `compute_a_f`, `compute_f_linearised` | — |
| models/forex/fx_fmm1_chf.rs | FxFmm | `new`, `with_resolution`, `components`, `evaluate`, `heston_c`, `heston_a_increment`, `heston_a_closed_form`, `advance_d_riccati`, `simpson_f_integral`, `f_at`, `discount_factors_from_rates` | `assemble`, `params` |
| models/forex/fx_fmm_calibrator.rs | FxFmmCal | `calibrate` ×2, `forward_fx`, `discount_factor`, `reify_params`, `model_implied_vols`, `price_call` | `softplus`, `inv_softplus`, `targets_from_grid` |
| models/forex/fx_fmm_simulator.rs | Cholesky, FxFmmSim | `initial`, `new`, `step` ×2, `simulate_terminal`, `initial_state`, `side_adapted_vol`, `build_joint_correlation`, `cholesky` | — |
| models/forex/fx_hhw.rs | Cholesky, HhwChf, HhwSim | `as_matrix`, `cholesky`, `is_valid`, `cholesky_4x4`, `initial`, `new`, `with_theta_fn`, `step` ×2, `step_at_time`, `simulate`, `initial_state` | — |
| models/forex/fx_hhw1_chf.rs | HhwChf | `assemble`, `build`, `new`, `with_simpson_steps`, `components`, `evaluate`, `c_of_tau`, `a_of_tau`, `a_of_tau_cached`, `integrand` | `params` |
| models/forex/fx_hhw_calibrator.rs | Calibrate | `calibrate` ×2, `calibrate_bounded`, `reify_params_bounded`, `softplus`, `inv_softplus`, `reify_params`, `targets_from_grid`, `model_implied_vols`, `price_call` | — |
| models/forex/fx_hhw_stock.rs | HhwStock | `initial`, `new`, `step` ×2, `simulate`, `initial_state` | — |
| models/forex/fx_hlmm.rs | Hlmm | `new`, `n`, `tau`, `m`, `active`, `validate` ×3, `psi`, `compute_a_d`, `compute_a_f`, `compute_a_side`, `compute_f_linearised` | — |
| models/forex/fx_hlmm1_chf.rs | Hlmm | `assemble`, `new`, `with_simpson_steps`, `components`, `evaluate`, `heston_c`, `heston_a_increment`, `heston_a_closed_form`, `advance_d_riccati`, `simpson_f_integral`, `discount_factors_from_libors` | `params` |
| models/forex/fx_hlmm_calibrator.rs | Calibrate | `calibrate` ×2, `forward_fx`, `discount_factor`, `softplus`, `inv_softplus`, `reify_params`, `targets_from_grid`, `model_implied_vols`, `price_call` | — |
| models/forex/market_data.rs | Calibrate | `smile_strip`, `hhw_targets`, `sabr_targets`, `pillar_target` | — |
| models/forex/sabr.rs | Dated, Sabr, TdSabr | `new`, `hagan_implied_vol`, `hagan_atm_vol`, `step_with_noise`, `simulate`, `initial_state`, `step` | `new` |
| models/forex/sabr_calibrator.rs | Calibrate | `calibrate` ×2, `softplus`, `inv_softplus`, `reify`, `targets_from_grid`, `model_implied_vols` | — |
| models/forex/sabr_effective.rs | SabrEffective | `new`, `constant`, `final_time`, `at`, `exp_seg`, `exp_seg_diff_kernel`, `aligned_segments`, `i_integral`, `lhs_double_integral`, `rhs_at_gamma_tilde`, `effective_vol_vol`, `effective_term_structure`, `effective_correlation` | `n_segments` |
| models/forex/sabr_slv.rs | SabrSlv | `new`, `with_bins`, `simulate`, `bin_vol_sq_by_forward`, `lookup_bin` | — |
| models/forex/sabr_time_dependent.rs | TdSabr | `new`, `at`, `horizon`, `step_with_noise`, `simulate`, `reduces_to_constant`, `initial_state`, `step` | `new` |
| models/forex/sabr_time_dependent_calibrator.rs | Calibrate, TdSabrCal | `calibrate_time_dependent`, `bisect`, `calibrate` | — |
| models/interestrate/fmm.rs | Cholesky, Dated, Fmm, FmmTenor | `new` ×3, `m`, `tau`, `eta`, `gamma`, `big_g`, `sigma_at` ×2, `with_betas`, `with_vol_schedule`, `displacement_level`, `adapted_vol`, `initial_path`, `step` ×2, `simulate_terminal`, `initial_state`, `back_stub_forward_bond`, `front_stub_bond`, `p0_fwd`, `p0`, `bond_price`, `bank_account`, `cholesky` | — |
| models/interestrate/hull_white.rs | Dated, ShortRate | `b`, `short_rate_variance`, `bond_log_variance`, `discount_affine`, `initial_state`, `step` | `new_constant_theta`, `with_theta_fn` |
| time/businessdayconvention.rs | Calendar, Names | `name`, `from_code` | — |
| time/calendars.rs | CalBase, Calendar, Date, Easter, Shipped | `naive_date_to_dkmy`, `last_day_of_month`, `end_of_month`, `easter_monday`, `orthodox_easter_monday`, `is_weekend`, `is_holiday`, `adjust`, `advance`, `business_days_between` | — |
| time/calendars/argentina.rs | Cal/Argentina | `is_business_day` | — |
| time/calendars/australia.rs | Cal/Australia | `shared_holiday`, `extra_holiday`, `settlement_is_business_day`, `asx_is_business_day`, `is_business_day` | — |
| time/calendars/austria.rs | Cal/Austria | `settlement_is_business_day`, `exchange_is_business_day`, `is_business_day` | — |
| time/calendars/botswana.rs | Cal/Botswana | `is_business_day` | — |
| time/calendars/brazil.rs | Cal/Brazil | `settlement_is_business_day`, `exchange_is_business_day`, `is_business_day` | — |
| time/calendars/canada.rs | Cal/Canada | `shared_holiday`, `extra_holiday`, `settlement_is_business_day`, `tsx_is_business_day`, `is_business_day` | — |
| time/calendars/chile.rs | Cal/Chile | `is_aboriginal_people_day`, `is_business_day` | — |
| time/calendars/china.rs | Cal/China | `is_business_day` | — |
| time/calendars/czechrepublic.rs | Cal/CzechRepublic | `is_business_day` | — |
| time/calendars/denmark.rs | Cal/Denmark | `is_business_day` | — |
| time/calendars/finland.rs | Cal/Finland | `is_business_day` | — |
| time/calendars/france.rs | Cal/France | `settlement_is_business_day`, `exchange_is_business_day`, `is_business_day` | — |
| time/calendars/germany.rs | Cal/Germany | `settlement_is_business_day`, `frankfurt_stock_exchange_is_business_day`, `eurex_is_business_day`, `euwax_is_business_day`, `is_business_day` | — |
| time/calendars/hongkong.rs | Cal/HongKong | `is_business_day`, `is_fixed_or_observed_holiday` | — |
| time/calendars/hungary.rs | Cal/Hungary | `is_business_day` | — |
| time/calendars/iceland.rs | Cal/Iceland | `is_business_day` | — |
| time/calendars/india.rs | Cal/India | `is_business_day` | — |
| time/calendars/indonesia.rs | Cal/Indonesia | `is_business_day` | — |
| time/calendars/israel.rs | Cal/Israel | `is_business_day`, `is_named_holiday`, `tel_aviv_is_business_day`, `shir_is_business_day` | — |
| time/calendars/italy.rs | Cal/Italy | `settlement_is_business_day`, `exchange_is_business_day`, `is_business_day` | — |
| time/calendars/japan.rs | Cal/Japan | `vernal_equinox_day`, `autumnal_equinox_day`, `is_business_day` | — |
| time/calendars/jointcalendar.rs | Calendar | `is_business_day` | `new` |
| time/calendars/mexico.rs | Cal/Mexico | `is_business_day` | — |
| time/calendars/newzealand.rs | Cal/NewZealand | `common_is_business_day`, `wellington_is_business_day`, `auckland_is_business_day`, `is_business_day` | — |
| time/calendars/norway.rs | Cal/Norway | `is_business_day` | — |
| time/calendars/poland.rs | Cal/Poland | `settlement_is_business_day`, `wse_is_business_day`, `is_business_day` | — |
| time/calendars/romania.rs | Cal/Romania | `is_business_day` | — |
| time/calendars/russia.rs | Cal/Russia | `is_extra_holiday_settlement`, `is_extra_holiday_exchange`, `is_working_weekend`, `settlement_is_business_day`, `exchange_is_business_day`, `is_business_day` | — |
| time/calendars/singapore.rs | Cal/Singapore | `is_business_day` | — |
| time/calendars/slovakia.rs | Cal/Slovakia | `is_business_day` | — |
| time/calendars/southafrica.rs | Cal/SouthAfrica | `is_business_day` | — |
| time/calendars/southkorea.rs | Cal/SouthKorea | `is_business_day` | — |
| time/calendars/sweden.rs | Cal/Sweden | `is_business_day` | — |
| time/calendars/switzerland.rs | Cal/Switzerland | `is_business_day` | — |
| time/calendars/taiwan.rs | Cal/Taiwan | `is_business_day` | — |
| time/calendars/target.rs | Cal/Target | `is_business_day` | — |
| time/calendars/thailand.rs | Cal/Thailand | `is_business_day` | — |
| time/calendars/turkey.rs | Cal/Turkey | `is_business_day` | — |
| time/calendars/ukraine.rs | Cal/Ukraine | `is_business_day` | — |
| time/calendars/unitedkingdom.rs | Cal/UnitedKingdom | `special_bank_holiday`, `settlement_is_business_day`, `exchange_is_business_day`, `metals_is_business_day`, `is_business_day` | — |
| time/calendars/unitedstates.rs | Cal/UnitedStates | `is_washington_birthday`, `is_memorial_day`, `is_labor_day`, `is_columbus_day`, `is_veterans_day`, `is_veterans_day_no_saturday`, `is_juneteenth`, `settlement_is_business_day`, `libor_is_business_day`, `nyse_is_business_day`, `government_bond_is_business_day`, `sofr_is_business_day`, `nerc_is_business_day`, `federal_reserve_is_holiday`, `is_business_day` | — |
| time/calendars/weekendsonly.rs | Calendar | `is_business_day` | — |
| time/daycounters.rs | YfToDate | `year_fraction_to_date` | — |
| time/daycounters/actual360.rs | DayCount | `day_count`, `year_fraction` | — |
| time/daycounters/actual364.rs | DayCount | `day_count`, `year_fraction` | — |
| time/daycounters/actual365fixed.rs | DayCount, YieldCurve | `regular_day_count`, `nl_day_count`, `day_count`, `year_fraction` | — |
| time/daycounters/actual366.rs | DayCount | `day_count`, `year_fraction` | — |
| time/daycounters/actualactual.rs | DayCount | `isda_year_fraction`, `euro_year_fraction`, `day_count`, `year_fraction` | — |
| time/daycounters/business252.rs | DayCount | `same_month`, `day_count`, `year_fraction` | — |
| time/daycounters/thirty360.rs | DayCount | `is_last_of_february`, `us_day_count`, `isma_day_count`, `eu_day_count`, `italy_day_count`, `isda_day_count`, `nasd_day_count`, `day_count`, `year_fraction` | `new`, `default` |
| time/daycounters/thirty365.rs | DayCount | `day_count`, `year_fraction` | — |
| time/frequency.rs | Names | `name`, `period`, `from_code` | — |
| time/imm.rs | Imm | `is_imm_date`, `is_imm_code`, `code`, `date`, `next_date`, `nth_weekday` | — |
| time/period.rs | Calendar, Period | `settlement_date`, `near_date`, `settlement_date_with_lag`, `near_date_with_lag`, `add`, `sub`, `mul` | — |

## Disagreements between code and expectation found while modelling

These are proved as theorems about the model (see `MANIFEST.json`, entries with
status `partial`, and theorems with suffix `_false`).

1. `adjust(Nearest)` (calendars.rs 238–252) returns the *non*-business
   candidate when exactly one of the two candidates is a business day.
2. `Actual365Fixed` NoLeap month table has 344 instead of 334 for December.
3. `ActualActual` ISDA/Euro: fractional-year terms have the wrong sign.
4. `business_days_between`: `include_first = true` *excludes* the first day; equal
   dates with both flags false run off the end of the date range.
5. `Business252.day_count` counts the wrong sub-interval.
6. `IMM::next_date` never advances the month; diverges at or after the third
   Wednesday, panics in December after the 21st.
7. `IMM::date` panics for lower-case codes that `is_imm_code` accepts.
8. `Frequency::from_code("Once")` yields `NoFrequency`.
9. Overnight settlement on a month-end can put the far leg on the near date.
10. `step_function_forward_zero_rate` beyond the last pillar returns the *first*
    pillar's rate; the lookup is shifted by one day.
11. `generate_schedule` ignores tenor units.
12. `simulate_at_dates` loses observations after a zero-length step.
13. `PiecewiseConstant::at` is left-continuous at knots although documented
    right-continuous.
14. Hull–White `bond_log_variance` uses an antiderivative with wrong signs when
    λ ≠ 0 (`C49_bond_log_variance_false`); it is too large for λ > 0 and can be
    negative for λ < 0 (`C49_bond_log_variance_nonneg_false`).
15. CIR `sqrt_mean_tol` at small times puts the variance correction under the
    root, halving it relative to its documentation
    (`C48_sqrt_mean_small_time_false`).
16. Hagan's formula can return a negative volatility for admissible parameters
    (`C53_positive_false`); its small-argument series has the wrong sign in the
    second-order term (`C53_series_false`).
17. `strip_caplet_vols` on ragged grids: at an expiry where a strike has no
    stripped point yet the pillar has no node for it, so its early caplets take
    another strike's volatility and the quote is not repriced
    (`C55_nonrectangular_false`).
18. `FuturesRate::zero_rate`: the first futures gets a forward rate from the last
    pillar, stored as if it were a zero rate (`C56_first_false`); a settlement date
    beyond all pillars is anchored on the first pillar (`C56_gap_false`).
19. `get_stripped_curve`: cash quotes with equal maturities are repeated
    (`C57_cash_false`); the last pillar's rate does not enter the discount factor at
    its own date (`C57_blind`), so a swap paid at its maturity may have no solution
    (`C57_solvable_false`), and later pillars change the value of earlier swaps
    (`C57_repriced_false`).
20. Calendars (C58): the French settlement calendar has Ascension and Pentecost on
    fixed dates; Argentina is open on 25 December; the Ukrainian calendar uses
    Western Easter; the Federal Reserve's Juneteenth moves to Friday; NYSE election
    days are the first Tuesday of November; Japan's equinox tables are wrong in
    2016, 2031 and other years.
21. Actual/Actual (Euro) subtracts the days left over from the whole years
    (`C59_half_year_false`), and is positive for reversed dates.
22. `effective_correlation` of a constant correlation ½ can exceed one when ω varies
    (`C60_correlation_range_false`); `effective_term_structure` of a constant ω is not
    that constant when γ varies (`C60_constant_omega_false`). The documentation says
    both are returned exactly.
23. `CosPricer`: for a strike outside the truncation range the payoff coefficients are
    integrals with reversed limits; a call that cannot pay gets a positive price
    (`C61_outside_false`).
24. `fx_hhw1_chf.rs::integrand`: `C` is evaluated at time to maturity `s`, but `φ`, `B_d`
    and `B_f` at calendar time `s` instead of `T - s`. The terms that couple variance and
    rates are therefore integrated wrongly (`C62_drift_false`); the `ζ` term is not
    affected because it is integrated over the whole interval.
25. `fx_hlmm1_chf.rs::with_simpson_steps`: for an expiry inside the tenor the sums still
    run to the last Libor, so the forward to the expiry carries the variance of Libors
    that accrue after it (`C63_expiry_false`).
26. `fx_hlmm_calibrator.rs::discount_factor`: for an expiry before the last tenor date it
    is the bond maturing at the last date, so `price_call` discounts too much
    (`C64_hlmm_discount_false`). Implied volatilities are affected only through the
    absolute price tolerance, because the same factor is used on both sides.
27. `softplus` (three copies): the shortcut for `x > 35` makes it drop by `ln(1+e⁻³⁵)` at
    35 (`C64_softplus_monotone_false`); harmless in double precision.
28. `FxHhwSmileCalibrator`, `FxHlmmSmileCalibrator`: the forward stored in the strip is
    never used (`C64_forward_unused`); a strip whose forward differs from the one implied
    by the model's own rates is fitted at the wrong moneyness without notice.
29. `fx_hlmm_calibrator.rs::calibrate`: parameters that fail validation are returned with
    rmse 1000/√n instead of an error (`C64_hlmm_invalid`).
30. `fx_fmm1_chf.rs::with_resolution`: for an expiry inside the tenor the sums run to the
    last rate (`C65_expiry_false`); for an expiry after the tenor there is no cut at the
    last tenor date, so with the default resolution a segment whose midpoint lies after it
    drops the variance of rates that are still random on part of it (`C65_tail_false`).
31. `fmm.rs::step` tests `t > T_{k-1}` before moving the state variable of the running
    period, so a step that begins on a tenor date drops its noise (`C66_first_step_false`);
    the snapshots of a period are taken at the end of that step, not at the tenor date
    (`C66_snapshot_false`). `bond_price` at the initial state lacks the discount factor to
    the first tenor date when that is not zero (`C66_start_false`). The Ho-Lee schedule is
    written for a diffusion level `R + 1/tau`, but without displacements the level is one
    (`C66_ho_lee_false`).
32. `fx_hhw.rs::step_at_time` documents full truncation but stores the clamped variance, so
    the mean of the variance is biased upwards on every step (`C67_full_truncation_false`).
    `simulate` uses the constant targets of the parameters even after `with_theta_fn`
    (`C67_theta_fn_false`); only the date-driven simulation reads the function.
33. `fx_fmm_simulator.rs::step` applies the quanto shift to the foreign rates but not to the
    foreign `x` of the running period (`C68_foreign_x_false`). The cross-currency block is
    averaged with its transpose, while the characteristic function uses it as given
    (`C68_cross_false`). The FX drift compounds the running rates continuously, which is not
    the account of the forward market model (`C68_account_false`). Both currencies start
    from the same curve (`C68_initial`), and the documented full truncation is a clamp
    (`C68_full_truncation_false`).
34. `dupire_local_vol.rs::build` replaces the Dupire value by the implied variance when the
    denominator is below an absolute floor (its header says the denominator is clamped;
    `C69_arbitrage`), so multiplying spot and strikes by a constant changes the surface
    (`C69_scale_false`).
35. `sabr_time_dependent.rs::step` reads `alpha` only for the initial volatility; the values of
    the later segments have no effect on any path (`C70_alpha_false`). The truncation at zero
    makes the mean forward strictly larger than the initial one for every parameter set and
    grid (`C70_martingale_false`). Steps across a knot use the value at their middle and a
    lookup at a knot returns the value before it, while the documentation says right-end
    and right-continuous (`C70_straddle_false`).
36. `sabr_slv.rs::simulate` looks particles up by forward, so particles with equal forwards in
    different bins all use the first of these bins (`C71_ties_false`); forwards at zero are
    lifted to 1e-12 before the lookup, which skips a bin whose bound is zero and makes zero
    non-absorbing (`C71_zero_false`). The local-variance surface is a function of the spot
    but is read at the forward; this only agrees for equal rates (comment in the code, not
    modelled further).
37. `fx_hhw_stock.rs::step` says "full truncation" but stores the clamped stock variance, whose
    mean is therefore biased upwards on every step (`C72_full_truncation_false`).
38. `fx_fmm_calibrator.rs::discount_factor` is documented as `Pd(0, T)` but multiplies over the whole
    tenor, so prices of calls that expire before the last tenor date are discounted too much
    (`C73_discount_false`; the same as item for FX-HLMM in C64).
39. `sabr_time_dependent_calibrator.rs` says that the effective term structure is monotone in the
    last `alpha` because it is linear in its square. The effective vol-vol moves too, and with
    vol-vol 0 then 2 it first falls and then rises; the bisection then takes a target that is
    attained to be out of reach and returns 1e-6 (`C74_alpha_monotone_false`).
40. The clamp of a correlation to 0.999 is called benign, but the running sum keeps the unclamped
    value, so later pillars whose own correlation is inside the bounds miss their targets
    (`C74_clamp_false`). No warning is logged although the comment says so.
41. `year_fraction_to_date` refines its first guess once. For Actual/360 that is not enough
    beyond 2365 days: ten years come back one day early (`C75_actual360_false`). For
    Actual/Actual it lands years away (`C75_isda_false`, `C75_euro_false`). For 30/360 it fails after one
    month, by at most two days (`C75_thirty360_false`); for Thirty/365 ten years come back one day
    early; for Business/252 three months lead to a date before the reference date
    (`C75_business252_false`).
42. The comment on `dv01` in `cap.rs` says that a long cap has a positive DV01. A caplet far in
    the money and far away loses more from the discounting than it gains from the forward
    (`C76_cap_dv01_false`).
43. `interestrateindex.rs::from_enum` gives AONIA, the Australian overnight index, the Austrian
    calendar (`C77_aonia_false`), and CDOR, the Canadian index, the US dollar, the American
    calendar and Actual/360 (`C77_cdor_false`).
44. The overnight indices have the tenor `SPOT` and no settlement days, so a cash quote on them
    matures on the day on which it settles and its accrual is zero (`C77_overnight_false`).
45. `FxMarketContext::forward_at` is documented as the outright `S + points` but returns the
    points alone, which do not depend on the spot (`C78_forward_false`).
46. `FxMarketContext::from_raw_quotes` always counts two days to spot although the pair is known
    and `basic.rs` has one day for the pairs of the dollar with the Canadian dollar and others;
    points quoted for a tenor are then read on another date (`C78_lag_false`).
47. The module comment of `forex/market_context.rs` relies on covered interest parity. Nothing
    enforces it: the curves and the forward points are independent (`C78_parity_false`).
48. Neither context compares its valuation date with the ones in the curve data, so quotes of
    another day are discounted from the wrong date without an error (`C78_stale_false`).
49. `israel.rs` lists the new year of 2001 on 17 instead of 18 September and the independence day
    of 2038 on 10 instead of 11 May (`C79_telAviv_2001_false`, `C79_telAviv_2038_false`,
    `C79_shir_false`).
50. The Tel Aviv calendar closes on Saturday and Sunday; the exchange closed on Friday and Saturday
    (`C79_telAviv_weekend_false`).
51. `turkey.rs` has the feast of Ramadan of 2011 on 1 October and the feast of the sacrifice of 2015
    from 24 to 27 October, both a month late (`C79_turkey_2011_false`, `C79_turkey_2015_false`).
52. `taiwan.rs` has the lunar new year of 2010 from 13 to 21 January instead of February, with open
    days during the feast (`C79_taiwan_2010_false`). `singapore.rs` has that of 2010 in January, too,
    and no entries at all for 2011 and for 2015 to 2018 (`C79_singapore_false`,
    `C79_singapore_islamic_false`).
53. No calendar reports that its tables have run out. Mainland China is open on Labour Day, National
    Day and the spring festival from 2027 on, Indonesia has had no Islamic feasts since 2015, and
    Tel Aviv has no holidays after 2050 (C80).
54. `sqrt_mean_tol` is documented as accurate to `tol`. The series stops when one term is below the
    tolerance, but the omitted terms together can exceed it (`C81_tolerance_false`, by less than a
    factor of a hundred, `C81_series`). In the small-time branch the tolerance is not used and the
    relative error reaches `3e-4` (`C81_small_time_false`).
55. `EURCHF` and `USDCHF` count Actual/365 although deposits in both of their currencies count
    Actual/360; only `EURUSD` and `USDJPY` count Actual/360 (`C29_day_count_false`). The list of
    Actual/360 money markets is our own specification, not a statement of the code.
56. `swap.rs` documents the `dv01` of a receiver as negative. For a swap that starts in thirty years
    with a coupon below the forward rate it is positive (`C82_receiver_false`); it is negative when
    the swap is in the money or starts today (`C82_dv01`, `C82_dv01_spot`). `modified_duration` is
    negative for a receiver out of the money (`C82_duration_false`).
57. Business/252 over more than one month adds the open days up to the end date once per month start
    (`C28_exact`). When the end date is the first of a month the last call is
    `business_days_between(d, d)`, which counts to the end of the date type: 1 September to 1 October
    2023 gives more than ten million days (`C28_september_false`). With Brazil and the other calendars
    that look up Easter the same call panics (`C28_easter_panic_false`), so a bond maturing on
    1 January cannot be counted.
58. Hong Kong is open on Monday 3 February 2014, the day in lieu of the Sunday of the lunar new year;
    the table has Sunday 2 February (`C79_hongKong_2014_false`).

59. **FX option delta and gamma ignore the notional currency** (`option.rs` 184-204): a notional in
    domestic currency is not divided by the strike, although the value and the vega are, and the
    delta is reported in foreign currency. Entering 105 USD instead of 100 EUR at a strike of 1.05
    multiplies the delta by 1.05 (`C84_delta_strike`, `C84_delta_false`); for USDJPY the factor is
    about 150.
60. **Options and forwards count in opposite directions** (`option.rs` 163, `forward.rs` 36-44): a
    bought call and a sold put are worth minus the bought forward with the same foreign notional
    (`C84_synthetic_foreign`). With a domestic notional the values agree, because the forward then
    changes its sign (C31), but the deltas have opposite signs (`C84_synthetic_domestic`). A book of
    both instruments cannot be added up.
61. **Averages of the forward market model have no limit** (`fmm.rs` 426-541): the simulated rates are
    normal and the drift of the next step divides by `1 + tau R`, which is not bounded away from zero.
    After two or more steps the simulated rate has no mean and its average over the paths almost
    surely does not converge (`C90_rate_false`); the same holds for one over the bank account after
    any number of steps (`C90_bank_false`). With usual parameters the pole lies hundreds of standard
    deviations away and floats never reach it, so a simulation looks stable; for long periods and high
    normal volatilities it comes into reach. Bounded payoffs converge (`C90_bounded`).
62. **Additional observation dates change the simulated paths** (`simulation.rs` 128-176): every
    requested date is inserted into the integration grid and consumes one draw per path. Asking for an
    extra earlier date changes the state at the other dates from the first path on; asking for a later
    one changes them from the second path on, since the paths share one stream of draws
    (`C91_other_dates_false`). The law at a date may change too, because the Euler steps differ. With
    the same seed two runs are comparable only if they request the same dates.
63. **A fitted Hull-White target does not give `E[r(t)] = f(0,t)` exactly** (`hull_white.rs` 137-139,
    180-181): the Euler step reads the target in the middle of the step but the rate at its beginning.
    For a rising linear forward curve the mean of the simulated rate is above the forward rate after
    every step (`C92_exact_fit_false`); the difference is at most proportional to the longest step
    (`C92_mean_error`, `C92_dated`).
64. **The default cosine range can be too narrow** (`cos_pricer.rs` 17-20, 110-121): the half-width is
    ten deviations computed from the mean variance `theta` alone. The variance of the log-forward also
    depends on the initial variance and on the volatilities of the rates. With an initial variance of
    0.25, a mean of 0.0001 and slow reversion the default call price is too low by a twentieth of the
    forward (`C93_default_range_false`), without any error; `C93_converges` shows that wider ranges
    give Black's price. When the initial variance equals its mean the default settings are accurate
    to about `10^-14` (`C93_default`).
65. **Implied volatilities depend on the unit of the domestic currency** (`black_scholes.rs` 43-52,
    81-97): the default tolerance `1e-8` is an absolute price. When forward and price together are
    below `1e-8` the search stops at its first midpoint and returns 2.500000005 whatever the price, even
    one above the forward (`C94_small_unit`). The volatilities with which the FX calibrators compare
    the model to the market inherit this (`C94_hhw_vols_false`). Quoting in larger units gives the
    right volatility (`C94_large_unit`), and with a tolerance in the same unit the result does not
    depend on the unit (`C94_implied`).
66. **A smile depends on the direction in which the pair is quoted** (`volsurface.rs` 436-452): the
    at-the-money strike and the strikes of a delta are those of deltas without premium adjustment. The
    at-the-money strikes of a pair and of its inverse have the product `exp(sigma^2 T)` instead of one,
    and so have the call strike of a delta and the put strike of the same delta of the inverse pair
    (`C95_strikes`). Pairs whose premium is paid in foreign currency need the other convention, which
    the code does not offer (`C95_strikes_false`). Likewise the lognormal Hagan volatilities of
    the two directions differ by `rho nu alpha^2 t / 2` at the money when the correlation is turned
    round (`C95_sabr`, `C95_sabr_false`).
67. **Prices from SABR and FX smiles admit arbitrage in the wings** (`sabr.rs` 78-122, `volsurface.rs`
    291-302): for every admissible parameter set with `beta < 1` some put below the forward costs more
    per unit of strike than the put at the forward although it never pays more
    (`C96_hagan_puts_false`); with `beta = 1` and `nu > 0` some call above the forward costs more than
    the call at the forward (`C96_hagan_calls_false`). This is the known defect of Hagan's expansion;
    the code neither warns nor restricts the strikes. The parabola of an FX smile section is
    extrapolated without a check of its sign: at-the-money 20% and 25-delta 2% are accepted and give
    negative volatilities at all high strikes (`C96_fx_negative_false`).
68. **A longer quote moves the discount factor at the maturity of the one before it** (`yieldcurve.rs`
    219-244): the zero rate of a date is looked up for the following day. At the maturity of the
    one-year swap the curve therefore already mixes in a 365th of the step to the two-year rate, and
    bumping the two-year quote shows a risk at one year (`C97_own_date_false`). Up to the day before,
    later quotes have no effect (`C97_swaps`, `C97_futures`).
69. **Hagan volatilities let later options cost less** (`sabr.rs` 115-119): where the expiry coefficient
    of the formula is negative, the total variance falls from a third of the expiry at which the formula
    reaches zero (`C99_hagan_false`, exact range in `C99_hagan`). `hagan_implied_vol` returns the
    volatilities without a warning.
70. **The first futures multiplies errors of the deposits** (`ratehelper.rs` 60-75): its zero rate divides by
    the product of all zero rates before it, taken as forward rates (point of `C56_first_false`), over the
    time from the last deposit only. With a deposit maturing five days before the futures, errors of one
    basis point in two deposits change it by more than thirty (`C101_first_false`).
71. **The currency of a swap is that of the leg listed first** (`swap.rs` 373-378, 388-430). The comment
    on `currency` says so, but `mtm` adds legs in several currencies without conversion and rejects
    nothing: exchanging the two legs reports the same number in the other currency (`C104_mtm_false`).

72. **A smile quote given twice** (`volsurface.rs` 330-358). A second at-the-money quote in a pillar is an error, but a second call,
    put, risk reversal or butterfly for the same delta silently replaces the first, so that the order of the
    quotes decides the smile (`C104_smile_false`).
