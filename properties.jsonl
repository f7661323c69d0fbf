{"id": "C01", "title": "Following returns the first business day on or after the date", "statement": "Calendar::adjust(date, Following) returns Some(r) exactly when r is the earliest business day of that calendar that is not before `date`; it never skips a business day and never returns a holiday. It can only fail to return (panic) when the calendar itself cannot classify a day it has to look at, or when every representable day from `date` on is a holiday.", "quantifier": "every calendar (any classification of days as open/closed, including user-written and joint calendars), every representable date", "why_tests_cant": "A unit test checks a few dates in one calendar; the claim is about arbitrary holiday patterns of unbounded length and every date.", "anchors": ["src/time/calendars.rs: Calendar::adjust", "src/time/businessdayconvention.rs: BusinessDayConvention"]}
{"id": "C02", "title": "Preceding returns the last business day on or before the date", "statement": "Calendar::adjust(date, Preceding) returns Some(r) exactly when r is the latest business day of that calendar that is not after `date`.", "quantifier": "every calendar, every representable date", "why_tests_cant": "Needs all holiday patterns and all dates; tests pick a handful of weekends.", "anchors": ["src/time/calendars.rs: Calendar::adjust"]}
{"id": "C03", "title": "The modified conventions stay in the month", "statement": "With ModifiedFollowing or ModifiedPreceding, if the month of `date` contains at least one business day then the adjusted date is a business day of the same month and year; it equals the plain Following (resp. Preceding) result whenever that one is in the month, and otherwise it is the last (resp. first) business day of the month.", "quantifier": "every calendar, every date whose month contains a business day", "why_tests_cant": "Month-end roll-over depends on the holiday pattern around each of infinitely many month ends.", "anchors": ["src/time/calendars.rs: Calendar::adjust"]}
{"id": "C04", "title": "HalfMonthModifiedFollowing stays in the half month", "statement": "With HalfMonthModifiedFollowing, a date in days 1-15 is never moved to day 16 or later of the month or to another month as long as its half month contains a business day on or before it or after it; a date in days 16-end is handled like ModifiedFollowing.", "quantifier": "every calendar, every date", "why_tests_cant": "The boundary at the 15th and at the month end interact with arbitrary holiday runs.", "anchors": ["src/time/calendars.rs: Calendar::adjust"]}
{"id": "C05", "title": "Adjusting is idempotent and leaves business days alone", "statement": "For every convention, a business day is returned unchanged, and adjusting an already adjusted date again with the same convention changes nothing.", "quantifier": "every calendar, every date, every convention", "why_tests_cant": "Algebraic law over all inputs.", "anchors": ["src/time/calendars.rs: Calendar::adjust"]}
{"id": "C06", "title": "Following and Preceding preserve the order of dates", "statement": "If d1 <= d2 then adjust(d1) <= adjust(d2) for the Following convention and for the Preceding convention, and Preceding(d) <= d <= Following(d).", "quantifier": "every calendar, every pair of dates", "why_tests_cant": "Two-input law over all holiday patterns.", "anchors": ["src/time/calendars.rs: Calendar::adjust"]}
{"id": "C07", "title": "Nearest returns the business day closest to the date", "statement": "Calendar::adjust(date, Nearest) returns a business day, and no business day is strictly closer to `date`.", "quantifier": "every calendar, every date", "why_tests_cant": "The tests in the crate never exercise Nearest on a day whose neighbours differ; the claim is over all patterns.", "anchors": ["src/time/calendars.rs: Calendar::adjust"]}
{"id": "C08", "title": "A joint calendar is open exactly when every member is open", "statement": "JointCalendar::is_business_day(d) is true iff every member calendar classifies d as a business day; the order and repetition of members is irrelevant, nesting joint calendars is the same as flattening, and a date produced by Following/Preceding on a joint calendar is a business day of every member.", "quantifier": "every list of member calendars (any length), every date", "why_tests_cant": "Unbounded number of members and orders.", "anchors": ["src/time/calendars/jointcalendar.rs: JointCalendar", "src/time/calendars.rs: Calendar::adjust"]}
{"id": "C09", "title": "Advancing by n business days moves over exactly n business days", "statement": "Calendar::advance(date, Days(n), ..) with n > 0 returns a business day r > date such that exactly n business days lie in (date, r]; with n < 0 it returns a business day r < date with exactly |n| business days in [r, date). Advancing by n and then by -n from a business day returns to the start, and advancing by m and then n is the same as advancing by m+n.", "quantifier": "every calendar, every start date, every n (no bound)", "why_tests_cant": "Inductive in n; tests use n = 1..5.", "anchors": ["src/time/calendars.rs: Calendar::advance"]}
{"id": "C10", "title": "Month and year advances land where the convention says", "statement": "Calendar::advance(date, Months(k)|Years(k), bdc, None|Some(false)) equals adjusting the calendar-arithmetic date date+k with bdc; with end_of_month = Some(true) it returns the last business day of the month of that adjusted date.", "quantifier": "every calendar, date, k, convention", "why_tests_cant": "Unbounded k and every month-end configuration.", "anchors": ["src/time/calendars.rs: Calendar::advance, Calendar::end_of_month, Calendar::last_day_of_month", "src/time/period.rs: impl Add<Period> for NaiveDate"]}
{"id": "C11", "title": "end_of_month is the last business day of the month", "statement": "Calendar::last_day_of_month(d) is the last calendar day of d's month, and Calendar::end_of_month(d) is a business day of the same month with no later business day in that month (whenever the month contains a business day).", "quantifier": "every calendar, every date except the last representable year (where the function panics)", "why_tests_cant": "All months of all years, leap years, and all holiday patterns.", "anchors": ["src/time/calendars.rs: Calendar::last_day_of_month, Calendar::end_of_month"]}
{"id": "C12", "title": "business_days_between counts the business days of the interval", "statement": "Calendar::business_days_between(from, to, include_first, include_last) is the number of business days strictly between the two dates plus the first/last date when they are business days and are to be included; swapping the dates negates the result.", "quantifier": "every calendar, every pair of dates, every flag combination", "why_tests_cant": "Interval lengths are unbounded and the flags interact with equality of the two dates.", "anchors": ["src/time/calendars.rs: Calendar::business_days_between"]}
{"id": "C13", "title": "The Easter tables are the true Easter dates", "statement": "For every year 1901-2199 the table behind the Western calendars gives the ordinal day of Easter Monday of the Gregorian computus and the table behind the Orthodox calendars the ordinal day of Orthodox Easter Monday (Julian computus); each entry is a Monday, and outside 1901-2199 the lookup panics rather than returning a wrong day.", "quantifier": "every year from 1901 to 2199 for both tables, and every year outside", "why_tests_cant": "A table typo in one of 598 entries moves holidays of dozens of calendars in one year; tests look at a few years.", "anchors": ["src/time/calendars.rs: EASTER_MONDAY, ORTHODOX_EASTER_MONDAY, Calendar::easter_monday, Calendar::orthodox_easter_monday"]}
{"id": "C14", "title": "Shipped calendars are closed on their weekend", "statement": "No shipped market calendar classifies a Saturday or a Sunday as a business day (for Russia's exchange market the property is limited to the published working Saturdays/Sundays; WeekendsOnly is closed exactly on weekends).", "quantifier": "every date, every shipped calendar and market", "why_tests_cant": "All dates of a 520,000-year range for around sixty market variants.", "anchors": ["src/time/calendars/*.rs: is_business_day", "src/time/calendars.rs: Calendar::is_weekend"]}
{"id": "C15", "title": "Shipped calendars never close for long", "statement": "For every shipped market calendar and every date in the supported years there is a business day within a fixed small number of days after and before it, so rolling never loops for long, never leaves the table range and never panics.", "quantifier": "every date in the supported range, every shipped calendar and market", "why_tests_cant": "A data error that makes a long run of holidays would make date rolling jump weeks; only an exhaustive argument excludes it.", "anchors": ["src/time/calendars/*.rs: is_business_day"]}
{"id": "C16", "title": "Adding a tenor to a date follows the end-of-month clamp rule", "statement": "date + Months(n)/Years(n) is the date n (12 n) months later with the same day of month, or the last day of that month when the day does not exist; it is monotone in the date and in n, Years(n) equals Months(12 n), and Days/Weeks move by exactly that number of days. Adding and then subtracting days or weeks is the identity; adding and then subtracting months returns the original date when its day is at most 28 and otherwise never a later date.", "quantifier": "every date, every tenor whose result is representable", "why_tests_cant": "Month-length and leap-year cases over all years and all n.", "anchors": ["src/time/period.rs: impl Add<Period> for NaiveDate, impl Sub<Period> for NaiveDate"]}
{"id": "C17", "title": "Tenor arithmetic reports out-of-range tenors instead of wrapping", "statement": "date + tenor returns the mathematically correct date, or an error, or panics; it never silently returns a wrong date. u32 * tenor scales the tenor.", "quantifier": "every date and every representable tenor count", "why_tests_cant": "Overflow corner cases of 32/64-bit counts.", "anchors": ["src/time/period.rs: impl Add<Period>, impl Sub<Period>, impl Mul<Period> for u32"]}
{"id": "C18", "title": "FX settlement dates are good business days in the right month", "statement": "Period::settlement_date / FXUnderlying::settlement_date return a business day of the calendar; it equals the modified-following adjustment of the unadjusted tenor date (spot lag plus tenor) whenever the month of that date has a business day, hence never crosses the month end.", "quantifier": "every calendar, valuation date, tenor and spot lag", "why_tests_cant": "Month-end and holiday configurations are unbounded.", "anchors": ["src/time/period.rs: Period::settlement_date_with_lag", "src/derivatives/forex/basic.rs: FXUnderlying::settlement_date"]}
{"id": "C19", "title": "Near leg is before far leg", "statement": "For the swap tenors ON, TN and SN the near date is a business day and is strictly before the far-leg settlement date.", "quantifier": "every calendar and valuation date", "why_tests_cant": "Depends on the holiday pattern around month ends.", "anchors": ["src/time/period.rs: Period::near_date_with_lag, Period::settlement_date_with_lag"]}
{"id": "C20", "title": "An IMM date is the third Wednesday", "statement": "IMM::is_imm_date(d, false) is true iff d is the third Wednesday of its month, and with main_cycle iff in addition the month is March, June, September or December; each month has exactly one such date.", "quantifier": "every date", "why_tests_cant": "All months of all years.", "anchors": ["src/time/imm.rs: IMM::is_imm_date, IMM::nth_weekday"]}
{"id": "C21", "title": "IMM codes round-trip", "statement": "For a code accepted by IMM (upper case) and a reference date from 1910 on, IMM::date(code, ref) is the earliest third-Wednesday date not before ref whose IMM::code is that code; and IMM::date(IMM::code(d), ref) = d whenever d is an IMM date on or after ref in one of the ten calendar years starting with that of ref.", "quantifier": "every code and every reference date", "why_tests_cant": "Ten-year wrap-around of single-digit years over all reference dates.", "anchors": ["src/time/imm.rs: IMM::date, IMM::code, IMM::is_imm_code, IMM::next_date"]}
{"id": "C22", "title": "IMM::next_date returns the next IMM date", "statement": "IMM::next_date(d, main_cycle) terminates and returns the earliest IMM date (of the requested cycle) strictly after d.", "quantifier": "every date, both cycles", "why_tests_cant": "Termination and minimality over all dates.", "anchors": ["src/time/imm.rs: IMM::next_date"]}
{"id": "C23", "title": "Frequency names parse back", "statement": "Frequency::from_code(f.name()) = Some(f) for every frequency with a name from_code documents, and from_code never maps two different frequencies' names to the same value.", "quantifier": "every frequency and every code string", "why_tests_cant": "from_code takes arbitrary strings.", "anchors": ["src/time/frequency.rs: Frequency::name, Frequency::from_code, Frequency::period"]}
{"id": "C24", "title": "Actual day counters are exact, additive and antisymmetric", "statement": "For Actual/360, /364, /365 Fixed, /366: day_count(a,b) is the number of days from a to b, year_fraction is that number over the denominator, counts add up over adjacent intervals, reversing the dates flips the sign, and a later end date never gives a smaller fraction.", "quantifier": "every triple of dates", "why_tests_cant": "Algebraic laws over all dates.", "anchors": ["src/time/daycounters/actual360.rs", "src/time/daycounters/actual364.rs", "src/time/daycounters/actual365fixed.rs", "src/time/daycounters/actual366.rs"]}
{"id": "C25", "title": "30/360 variants agree with their published rules", "statement": "Each Thirty360 market returns 360*dY + 30*dM + dD with the day adjustments of its published convention; consequently whole years count 360 outside February, every variant stays within three days of the plain 30/360 count and equals it when both days are at most 27, and the European and Italian variants (and 30/365) are additive and antisymmetric.", "quantifier": "every pair (triple) of dates, every market variant", "why_tests_cant": "End-of-February and day-31 cases across all dates.", "anchors": ["src/time/daycounters/thirty360.rs: Thirty360", "src/time/daycounters/thirty365.rs: Thirty365"]}
{"id": "C26", "title": "Actual/365 (No Leap) counts days without 29 February", "statement": "Actual365Fixed with the NoLeap market counts exactly the days between the dates that are not 29 February.", "quantifier": "every pair of dates", "why_tests_cant": "Depends on a 12-entry month offset table for all months and years.", "anchors": ["src/time/daycounters/actual365fixed.rs: nl_day_count"]}
{"id": "C27", "title": "Actual/Actual ISDA splits the period by calendar year", "statement": "ActualActual ISDA's year_fraction(a,b) is the sum over calendar years of (days of the period in the year)/(days of the year); it is additive, and a full calendar year is 1.", "quantifier": "every pair (triple) of dates", "why_tests_cant": "Period may span any number of leap and non-leap years.", "anchors": ["src/time/daycounters/actualactual.rs: isda_year_fraction"]}
{"id": "C28", "title": "Business/252 counts the business days of the period", "statement": "Business252's day_count(a,b) is the number of business days from a (inclusive) to b (exclusive) in its calendar. What it counts instead: within a month all but the first day; across months every open day once for each month start before it, month starts excepted; for an end date on the first of a month every open day up to the end of the date type as well, or, with a calendar whose Easter table ends in 2199, nothing: it panics.", "quantifier": "every pair of dates, every calendar", "why_tests_cant": "Long periods are split month by month and year by year; tests use a few.", "anchors": ["src/time/daycounters/business252.rs: Business252"]}
{"id": "C29", "title": "A pair's calendar is open only when both currencies are open", "statement": "FXUnderlying::calendar() is open on d iff both currencies' calendars are open on d; settlement uses the pair's own spot lag (1 day for USDCAD, USDMXN, USDTRY, USDRUB, otherwise 2), and after the cut-off time effective_valuation_date is the first later day on which both currencies are open, before it the valuation date itself. The near date of the overnight, tom-next and spot-next tenors is the first common open day on or after today, tomorrow or the spot offset, and no other tenor has one. EURUSD and USDJPY count Actual/360, the others Actual/365; that a pair of two Actual/360 money markets counts Actual/360 is checked and refuted.", "quantifier": "every pair, tenor, valuation date and time of day", "why_tests_cant": "60 pairs times all dates and times.", "anchors": ["src/derivatives/forex/basic.rs: FXUnderlying::calendar, settles, cutoff_utc, effective_valuation_date, settlement_date, near_date, day_count"]}
{"id": "C30", "title": "Forward points interpolation is exact at quotes and never overshoots", "statement": "FXForwardHelper::get_forward returns None on or before the valuation date, with fewer than two quotes, and outside the span of the quotes' settlement dates; on a settlement date that occurs once it returns the quoted value; between two neighbouring settlement dates it returns the linear interpolation, hence a value between the two quotes. The answer does not depend on the order of the quotes when settlement dates are distinct.", "quantifier": "every list of quotes (any length and order), every target date, every calendar", "why_tests_cant": "Unbounded quote lists and orders.", "anchors": ["src/markets/forex/quotes/forwardpoints.rs: FXForwardHelper::get_forward"]}
{"id": "C31", "title": "FX forward value is linear, mirrored and zero at the forward", "statement": "FXForward::mtm of a Buy is the negative of the same Sell, is linear in the notional, is zero exactly when the strike equals the outright forward (non-zero notional), and moves by delta * discount per unit of the outright forward; a domestic-currency notional N at strike K is worth minus a foreign notional N/K.", "quantifier": "every trade and market in exact arithmetic", "why_tests_cant": "Algebraic laws over all real inputs.", "anchors": ["src/derivatives/forex/forward.rs: FXForward::mtm, FXForward::delta"]}
{"id": "C32", "title": "FX option prices satisfy put-call parity and no-arbitrage bounds", "statement": "black_scholes(Call) - black_scholes(Put) = discount*(F-K); each price lies between its discounted intrinsic value and its discounted upper bound (F for the call, K for the put), and does not decrease when the variance increases.", "quantifier": "every forward, strike > 0, variance, discount >= 0 (exact arithmetic, true normal distribution)", "why_tests_cant": "Continuous inputs; needs calculus, not samples.", "anchors": ["src/derivatives/forex/option.rs: black_scholes"]}
{"id": "C33", "title": "FX option Greeks are the derivatives of the price", "statement": "FXVanillaOption's delta per unit is the derivative of the undiscounted price with respect to the forward, gamma and vega are the second derivative and the volatility derivative (per 1%), and flipping Buy/Sell flips the sign of every output.", "quantifier": "every option with positive forward, strike, volatility and time (exact arithmetic)", "why_tests_cant": "Derivative identities for all real inputs.", "anchors": ["src/derivatives/forex/option.rs: FXVanillaOption::mtm, delta, gamma, vega"]}
{"id": "C34", "title": "The FX smile reproduces every quote", "statement": "A smile built from a valid pillar returns exactly the quoted volatility at the strike of every quoted delta and at the ATM strike; risk-reversal/butterfly quotes are recovered as call-put difference and average minus ATM.", "quantifier": "every pillar with any number of deltas that the constructor accepts (exact arithmetic)", "why_tests_cant": "Any number of delta points; the pinning function must hit each of them.", "anchors": ["src/markets/forex/quotes/volsurface.rs: SmileSection, normalise_quotes, fit_quadratic_three_points, piecewise_linear_interp"]}
{"id": "C35", "title": "FX vol interpolation in time is linear in total variance", "statement": "Between two pillars the total variance is the linear interpolation, so it lies between the two pillars' total variances and grows with expiry when theirs does; before the first and after the last pillar the volatility is that of the nearest pillar; non-positive strikes and expiries not after valuation are errors.", "quantifier": "every surface, expiry and strike", "why_tests_cant": "Any number of pillars and all dates.", "anchors": ["src/markets/forex/quotes/volsurface.rs: FXVolSurface::volatility"]}
{"id": "C36", "title": "Discount factors are positive and consistent with forward rates", "statement": "YieldTermStructure::discount is always strictly positive, is 1 at the valuation date, is at most 1 for non-negative rates after it, and forward_rate over [s,e] satisfies exp(forward*(t_e-t_s)) * discount(e) = discount(s).", "quantifier": "every curve, every date and tenor", "why_tests_cant": "Arbitrary pillars, all dates.", "anchors": ["src/markets/termstructures/yieldcurve.rs: YieldTermStructure::discount, forward_rate, zero_rate"]}
{"id": "C37", "title": "A curve reproduces its pillars and extrapolates from the last one", "statement": "zero_rate at a pillar date equals that pillar's zero rate, lies between the neighbouring pillars' rates in between, and beyond the last pillar keeps the last rate.", "quantifier": "every curve with increasing pillar dates, every date", "why_tests_cant": "All pillar sets and all dates, including those past the end.", "anchors": ["src/markets/termstructures/yieldcurve.rs: step_function_forward_zero_rate"]}
{"id": "C38", "title": "A parallel shift equals bumping every pillar", "statement": "shifted_discount(date, s) equals discount(date) of the curve whose pillars all have their zero rate increased by s basis points; shifts compose additively and a zero shift changes nothing.", "quantifier": "every curve, date and shift", "why_tests_cant": "The doc comment asserts it for every interpolation; a test can only compare numbers.", "anchors": ["src/markets/termstructures/yieldcurve.rs: YieldTermStructure::shifted_discount"]}
{"id": "C39", "title": "A cash quote is repriced by its own pillar", "statement": "The zero rate stripped from a cash/OIS quote, compounded from settlement to maturity, gives back exactly the quoted simple rate; it has the same sign as the quote and increases with it.", "quantifier": "every quote with 1 + tau*rate > 0", "why_tests_cant": "All rates and dates.", "anchors": ["src/markets/termstructures/yieldcurve/oisratehelper.rs: OISRate::zero_rate, OISRate::discount"]}
{"id": "C40", "title": "Swap schedules are contiguous", "statement": "A generated swap schedule has duration/tenor periods, the first accrual starts at the effective date, each accrual period starts where the previous one ended, end dates are the convention-adjusted effective date plus n coupon periods, every pay date is pay_delay business days after the period end, and every period carries the leg notional.", "quantifier": "every leg, valuation date and calendar", "why_tests_cant": "Any number of periods.", "anchors": ["src/derivatives/interestrate/swap.rs: InterestRateSwapLeg::generate_schedule"]}
{"id": "C41", "title": "Swap values add up over legs and flip with direction", "statement": "The NPV of a swap is the sum of its legs' NPVs, is linear in notional and coupon, flips sign when every leg's direction flips, and npv equals mtm (the zero-shift value); dv01 and gamma are exactly the first and second differences of the value of the swap on the shifted curve; vega is 0.", "quantifier": "every swap with any number of legs and periods (exact arithmetic)", "why_tests_cant": "Unbounded legs and periods.", "anchors": ["src/derivatives/interestrate/swap.rs: npv, pv_under_shift, mtm, dv01, gamma, vega"]}
{"id": "C42", "title": "A floating leg without spread is worth its notional times the first discount factor", "statement": "For a spread-free floating leg whose pay dates equal accrual ends, NPV = notional * discount(first accrual start), whatever the curve; hence a par fixed leg has coupon (D(start) - D(end)) / annuity.", "quantifier": "every curve and every contiguous schedule (any length)", "why_tests_cant": "Telescoping over an arbitrary number of periods.", "anchors": ["src/derivatives/interestrate/swap.rs: npv, calculate_period_cashflow"]}
{"id": "C43", "title": "Cap minus floor is the forward swap", "statement": "For the same schedule, strike and surface, the value of a cap minus the value of the floor is the discounted sum of tau*N*(forward - strike); each caplet/floorlet is non-negative for a Buy with non-negative notional and accruals, and the cap value is non-decreasing in the volatility.", "quantifier": "every schedule, curve, surface, strike (exact arithmetic)", "why_tests_cant": "Any number of caplets and all real inputs.", "anchors": ["src/derivatives/interestrate/cap.rs: CapFloor::pv_under_shift, mtm", "src/models/common/bachelier.rs"]}
{"id": "C44", "title": "Caplet total variance is non-negative, monotone and continuous through the accrual period", "statement": "caplet_total_variance is never negative, non-decreasing in sigma and non-increasing as valuation time passes, a backward-looking caplet has at least the forward-looking variance, at most that of a caplet fixing at the period end, and the formula is continuous at the start of the accrual period and zero after it ends.", "quantifier": "all dates, times and volatilities", "why_tests_cant": "Continuous inputs and branch boundaries.", "anchors": ["src/derivatives/interestrate/basic.rs: caplet_total_variance"]}
{"id": "C45", "title": "Every live observer is notified once, in order", "statement": "notify_observers calls update on every attached observer that is still alive, exactly once per attachment and in attachment order, stopping at the first error; dead observers are skipped and never resurrected; attaching never drops an existing observer.", "quantifier": "every history of attach / drop / notify operations", "why_tests_cant": "Arbitrary histories.", "anchors": ["src/markets/forex/quotes/forwardpoints.rs: attach, notify_observers", "src/markets/termstructures/yieldcurve.rs: attach, notify_observers", "src/patterns/observer.rs"]}
{"id": "C46", "title": "Bachelier prices satisfy parity, bounds and monotonicity", "statement": "bachelier_call - bachelier_put = F-K; both are at least their intrinsic value; both are non-decreasing in the variance and bachelier_vega_variance is exactly the derivative with respect to the variance.", "quantifier": "all real forwards, strikes and variances (exact arithmetic, true normal distribution)", "why_tests_cant": "Calculus over all reals.", "anchors": ["src/models/common/bachelier.rs"]}
{"id": "C47", "title": "Implied volatility inverts the Black price", "statement": "bs_implied_vol returns None exactly when the target price lies outside the attainable range [price(1e-8)-tol, price(5)+tol]; otherwise it returns a volatility in [1e-8, 5] whose price is within tolerance of the target or which is within 1e-12 of such a volatility.", "quantifier": "every forward, strike, expiry, discount and target price (exact arithmetic)", "why_tests_cant": "Convergence of a bisection for all targets.", "anchors": ["src/models/common/black_scholes.rs: bs_implied_vol, bs_implied_vol_tol, bs_call_forward, bs_put_forward"]}
{"id": "C48", "title": "CIR moments and paths stay in their domain", "statement": "CirProcess::mean lies between sigma_0 and theta and converges monotonically, variance is non-negative, and a simulated path never becomes negative whatever the random draws.", "quantifier": "all parameters with positive kappa, theta, gamma, sigma_0, all times, all draw sequences", "why_tests_cant": "All draw sequences and path lengths.", "anchors": ["src/models/common/cir.rs"]}
{"id": "C49", "title": "Hull-White building blocks are consistent", "statement": "b(t,T) has b(T,T)=0 and composes as a mean-reverting kernel, short_rate_variance is non-negative and equals the integral of the squared volatility kernel, bond_log_variance equals its defining integral and is non-negative, and discount_affine at time 0 with the initial forward rate reproduces the initial curve.", "quantifier": "all parameters and times (exact arithmetic)", "why_tests_cant": "Integral identities over all reals.", "anchors": ["src/models/interestrate/hull_white.rs"]}
{"id": "C50", "title": "Monte Carlo observation dates are all captured", "statement": "simulate_at_dates returns for every path exactly one state per requested observation date, in order, each being the fold of the model's step over the grid up to that date; the grid contains every observation date, is strictly increasing and no step is longer than max_step_days.", "quantifier": "every model, observation list, path count, draw sequence and day counter", "why_tests_cant": "Arbitrary lists and models.", "anchors": ["src/models/common/simulation.rs: simulate_at_dates, DatedPaths"]}
{"id": "C51", "title": "Nelder-Mead never returns worse than it started with", "statement": "nelder_mead returns a point whose reported value is the objective there and is at most the value at the initial guess; the number of iterations is at most max_iter. The first simplex is the guess and its shifts along the axes. Each pass replaces the worst vertex by a point on the line through the mean of the others with a strictly smaller value, or moves every vertex halfway to the best one; the volume of the simplex changes by the factors -1, -2, 1/2 or 2^-n, so it never degenerates.", "quantifier": "every objective function, start point, option set", "why_tests_cant": "All objective functions.", "anchors": ["src/math/optimize.rs: nelder_mead"]}
{"id": "C52", "title": "Cholesky factor reproduces the correlation matrix", "statement": "The correlation factorisation returns L lower triangular with positive diagonal and L*L^T equal to the (symmetric) input, and returns None exactly when the matrix is not positive definite.", "quantifier": "every symmetric matrix of any size (exact arithmetic)", "why_tests_cant": "Any dimension; needs an inductive argument.", "anchors": ["src/models/interestrate/fmm.rs: cholesky", "src/models/forex/fx_hhw.rs: cholesky_4x4"]}
{"id": "C53", "title": "SABR formula is consistent at the money", "statement": "hagan_implied_vol at strike = forward equals hagan_atm_vol; the volatility is positive for admissible parameters; a SABR path's forward never becomes negative and its volatility stays positive whatever the draws; with nu = 0 and beta = 1 the smile is flat at alpha.", "quantifier": "all admissible parameters, strikes, expiries and draw sequences (exact arithmetic)", "why_tests_cant": "All reals and all draw sequences.", "anchors": ["src/models/forex/sabr.rs"]}
{"id": "C54", "title": "Caplet surface lookup", "statement": "The caplet volatility surface returns the node volatility at a node, the straight line between neighbouring nodes, the end node outside the quoted strikes, the first pillar not before the expiry and the last pillar beyond it; every result lies between two node volatilities of the pillar used; a stripped surface has increasing expiries and strikes and answers every query, an empty one refuses.", "quantifier": "every surface with increasing strikes, every expiry and strike; every set of quotes for the stripped surface", "why_tests_cant": "Arbitrary node lists and real strikes.", "anchors": ["src/markets/interestrate/volsurface.rs: caplet_volatility, interpolate_nodes, strip_caplet_vols"]}
{"id": "C55", "title": "Caplet stripping reprices the quotes", "statement": "After a successful strip, valuing each quoted cap or floor as a trade on the stripped surface and the same curve gives its quoted value, up to the residual left by the root finder.", "quantifier": "every quote set, curve, valuation date and root finder", "why_tests_cant": "Any number of strikes, maturities and caplets; needs an invariant of the bootstrap.", "anchors": ["src/markets/interestrate/volsurface.rs: strip_caplet_vols, strip_one_strike, price_cap_with_strip", "src/derivatives/interestrate/cap.rs: pv_under_shift"]}
{"id": "C56", "title": "Futures quotes on the curve", "statement": "A futures quote settles on the earliest IMM date with its code and matures on the third Wednesday of the month reached by its period; its discount factor makes the simple forward rate over the contract, taken from the nearest pillar at settlement, equal to the quoted rate plus convexity; its zero rate is the continuously compounded rate of that discount factor.", "quantifier": "every futures quote, valuation date and list of pillars", "why_tests_cant": "Every list of pillars and every real price; the first futures takes a different branch.", "anchors": ["src/markets/termstructures/yieldcurve/ratehelper.rs: FuturesRate", "src/markets/interestrate/futures.rs: maturity_date", "src/markets/termstructures/yieldcurve.rs: retrieve_related_stripped_curve"]}
{"id": "C57", "title": "The stripped curve", "statement": "Stripping returns one pillar per cash quote in order of maturity, then one per futures, then one per swap, each computed from the pillars before it; consecutive futures compound; and every instrument is repriced by the resulting curve.", "quantifier": "every list of cash, futures and swap quotes, valuation date and root finder", "why_tests_cant": "Any number of quotes of each kind; needs an invariant of the bootstrap.", "anchors": ["src/markets/termstructures/yieldcurve.rs: get_stripped_curve", "src/derivatives/interestrate/swap.rs: solve_zero_rate, calculate_npv, amend_last"]}
{"id": "C58", "title": "Rule-based calendars close exactly on weekends and the listed public holidays", "statement": "For TARGET and the calendars of the United Kingdom, Switzerland, Germany (settlement, Frankfurt, Xetra, Eurex, Euwax), France (Paris), Italy, Austria, the Nordic countries, the Czech Republic, Slovakia, Hungary, Poland, Romania, the United States (settlement, LIBOR, NYSE, government bonds, SOFR, NERC), Canada, Mexico, Brazil, Chile, South Africa, Botswana, Australia, New Zealand and Japan, a date in the supported years is a business day if and only if it is not a Saturday or Sunday and is not in the published list of that year's holidays, each given by its name as a rule (fixed day, n-th weekday of a month, offset from Easter, observance on Monday or nearest weekday, year of introduction or abolition).", "quantifier": "all dates of all supported years (1901-2199 where Easter is involved), all markets", "why_tests_cant": "The rules are long disjunctions of day/month/weekday/year conditions; a wrong bound, a missing year condition or a wrong move affects only dates that sampled tests do not hit.", "anchors": ["src/time/calendars/target.rs", "src/time/calendars/unitedkingdom.rs", "src/time/calendars/unitedstates.rs", "src/time/calendars/japan.rs", "src/time/calendars/france.rs", "src/time/calendars/argentina.rs", "src/time/calendars/ukraine.rs"]}
{"id": "C59", "title": "Actual/Actual (Euro) counts whole years back from the end and adds the remainder", "statement": "ActualActual with the Euro market returns n + r/D, where n is the number of whole years that fit between the dates counted back from the later one (28 and 29 February going to the end of February), r the number of days left between the first date and the anniversary, and D is 366 if those days contain a 29 February and 365 otherwise; reversing the dates flips the sign.", "quantifier": "every pair of dates", "why_tests_cant": "The loop runs once per year of the period, and the denominator depends on where leap days fall; no finite set of date pairs covers the leap-year cases.", "anchors": ["src/time/daycounters/actualactual.rs: euro_year_fraction"]}
{"id": "C60", "title": "Effective SABR parameters reproduce the moments of the time-dependent model", "statement": "For piecewise-constant vol-vol, term structure and correlation and an expiry on a knot: effective_vol_vol returns the unique solution of the moment equation (to bisection accuracy) built from the first and second moments, which are genuine integrals of the step functions; effective_term_structure gives the constant-parameter model the same first moment; effective_correlation preserves the average of rho*gamma/omega and stays in [-1, 1]; constant schedules map to themselves, and a constant omega or constant rho is returned exactly.", "quantifier": "every piecewise-constant schedule with any number of knots, every expiry on a knot", "why_tests_cant": "The tests check a handful of two- and three-segment schedules; the number of segments is unbounded, the double integral and the Taylor branches must agree with the integral for every schedule, and the range of the correlation depends on how strongly omega varies.", "anchors": ["src/models/forex/sabr_effective.rs: PiecewiseConstant, effective_vol_vol, effective_term_structure, effective_correlation"]}
{"id": "C61", "title": "The COS pricer converges to the discounted expected payoff", "statement": "chi_k and psi_k equal the integrals of e^y cos(k pi (y-a)/(b-a)) and cos(k pi (y-a)/(b-a)) over [c,d]; a call or put price is the discounted cosine series of its payoff on the truncation range, cut after n_terms terms with the first term halved; call minus put is the discounted forward minus strike exactly; and if the characteristic function is that of a probability law, the price differs from the discounted expected payoff by at most a constant times 1/(n_terms-1) plus the contribution of the mass outside the range. This holds for every strike.", "quantifier": "every characteristic function / probability law, every truncation range a<b, every number of terms, every strike and discount factor", "why_tests_cant": "The tests compare a few strikes of one Gaussian and one Heston-type model with a tolerance; convergence in the number of terms and exact parity are statements about all numbers of terms, laws and strikes.", "anchors": ["src/models/common/cos_pricer.rs: CosPricer, price_european, chi_k, psi_k"]}
{"id": "C62", "title": "The FX-HHW1 characteristic function solves its pricing equation", "statement": "evaluate(0) is one, evaluate(-i) is the initial forward, opposite real frequencies give conjugate values; C solves the Heston Riccati equation from zero, its divisor never vanishes and its real part is not positive for real frequencies; the cached path gives the value of the direct path; A is the composite Simpson sum of the drift rate that the pricing equation of the linearised model requires (coefficients at calendar time T - s when C is taken at time to maturity s); with deterministic rates the value tends to the Heston characteristic function with fourth-order error and has modulus at most one, and with constant variance it is the Gaussian characteristic function up to an explicit error.", "quantifier": "every parameter set with kappa > 0 and |rho| <= 1, every maturity, every even number of intervals, every frequency", "why_tests_cant": "The tests check one parameter set at a few frequencies, and the Monte Carlo comparison is run only with deterministic rates, where the terms that go wrong vanish.", "anchors": ["src/models/forex/fx_hhw1_chf.rs: FxHhw1ForwardChf, c_of_tau, a_of_tau, a_of_tau_cached, integrand, SimpsonGrid::build"]}
{"id": "C63", "title": "The FX-HLMM1 characteristic function solves its pricing equation", "statement": "A tenor is accepted exactly when its dates are non-negative, increasing and one more than the Libors; the active set is the set of Libors whose accrual period has not begun; psi are the loadings of the bonds and A_d, A_f, f add up to the variance of the log-forward at the expected square roots of the variances; the segments tile the life of the option and carry the coefficients of the open Libors; the closed form of A with the principal logarithm is the integral of C (no branch is crossed), and over each segment the Libor variance exponents solve their Riccati equations from any start with non-positive real part; the exponential form solves the pricing equation exactly when the components solve these equations; evaluate(0) is one, evaluate(-i) is the spot if gamma*rho < kappa, and for real frequencies the modulus is bounded by the deterministic part. Only Libors that accrue before the expiry enter.", "quantifier": "every tenor, every valid parameter set with kappa > 0 and unit symmetric positive semidefinite Libor correlations, every expiry, every even number of intervals, every frequency", "why_tests_cant": "The tests use one flat tenor ending at the expiry and a handful of frequencies; branch crossings of the logarithm depend on the frequency and the expiry, and the tests never use an expiry inside the tenor.", "anchors": ["src/models/forex/fx_hlmm1_chf.rs: FxHlmm1ForwardChf, with_simpson_steps, components, heston_a_closed, advance_d, simpson_f", "src/models/forex/fx_hlmm.rs: LiborTenor, DdSvLmm::psi, compute_a_d, compute_a_f, compute_f"]}
{"id": "C64", "title": "Smile calibrations return admissible parameters and an honest error", "statement": "softplus is positive and inv_softplus is its inverse on every positive value. For every start, option set and positive strikes the SABR, FX-HHW (plain and capped) and FX-HLMM calibrations return; the fitted parameters are admissible (alpha, nu, kappa - floor, gamma, theta, sigma_0 positive, |rho| < 1, gamma below its cap), nothing else changes, the reported rmse is the root mean square error of the smile that model_implied_vols gives for the returned parameters (one million per missing fit), it is never worse than the start moved into the search region, and a start that meets all quotes gives rmse zero and meets them. A model volatility reprices price_call. A strip taken from a surface carries the surface volatilities at the strikes. The discount factor is the bond to the expiry.", "quantifier": "every start, every list of targets with positive strikes, every expiry, floor and cap, every optimiser option set", "why_tests_cant": "The tests recover a few synthetic smiles from one start; they cannot show that no start or simplex path leaves the admissible region or that the reported error is that of the returned parameters.", "anchors": ["src/models/forex/sabr_calibrator.rs: calibrate, reify, model_implied_vols", "src/models/forex/fx_hhw_calibrator.rs: calibrate, calibrate_bounded, reify_params, model_implied_vols, price_call", "src/models/forex/fx_hlmm_calibrator.rs: calibrate, discount_factor, forward_fx, price_call", "src/models/forex/market_data.rs: smile_strip, hhw_targets, sabr_targets, pillar_target"]}
{"id": "C65", "title": "The FX-FMM1 characteristic function is the affine transform of the frozen-rate model", "statement": "FmmTenor::new accepts exactly the tenors with a rate, one more date than rates and non-negative increasing dates; eta is the first rate whose application period has not ended; the decay is one before the period, linear on it and zero after it. psi_at are the loadings of the bonds (volatility times decay times the derivative of log(1+tau R)); A is the variance they produce and A_d, A_f, f add up to the variance of the log-forward; the cached f equals the one computed from the parameters. The sub-segments tile the life of the option, cut every interval between neighbouring tenor dates into equal parts and carry the variances at the midpoint, whose error on the segment is at most half its length times a Lipschitz constant. The components solve the Riccati equations with these coefficients, phi(0) = 1, phi(-i) = forward, and the modulus for real u is bounded by the deterministic part. For every expiry the rates that matter are those accruing up to the expiry.", "quantifier": "every tenor, valid parameters, expiry, resolution and frequency", "why_tests_cant": "The tests check phi(0), phi(-i) and a few prices for one flat parameter set and one resolution.", "anchors": ["src/models/interestrate/fmm.rs: FmmTenor, LinearDecay", "src/models/forex/fx_fmm.rs: psi_at, compute_a_side, compute_f_linearised", "src/models/forex/fx_fmm1_chf.rs: with_resolution, components, evaluate, f_at, simpson_f_integral"]}
{"id": "C66", "title": "The forward market model is arbitrage-free and consistent with its curve", "statement": "Constructed models have matching dimensions; a piecewise-constant schedule gives the volatility of the last knot not after t. A simulation step moves every rate by its drift and its share of the noise, leaves rates alone whose period has ended, accumulates the variances up to the end of each period, and takes the snapshots of a rate at the start of its period; the increments have the covariances of the correlation matrix times dt. The drift is the only one under which every bond maturing on a tenor date is driftless in units of the bank account, and the bonds maturing between tenor dates (back stub and front stub) are driftless too. Bonds are worth one at maturity, the bank account on tenor dates is the product of the fixings, and at the start the model reprices the initial curve. With the Ho-Lee schedule the one-period bonds have the Hull-White volatility.", "quantifier": "every tenor, correlation matrix, schedule, displacement, state, step, draw and maturity", "why_tests_cant": "The tests compare Monte Carlo averages of a few bonds for one parameter set with wide tolerances, so wrong drifts, frozen state variables or late snapshots pass.", "anchors": ["src/models/interestrate/fmm.rs: Fmm, VolSchedule, FmmSimulator, back_stub_forward_bond, front_stub_bond, bond_price, bank_account"]}
{"id": "C67", "title": "The FX-HHW simulator is an exact martingale scheme for the FX rate", "statement": "The simulator is built exactly for positive definite correlations. Whatever the draws, every step of positive length gives a positive FX rate and a non-negative variance. Over independent standard normal draws the increments are centred with the configured correlations times dt, one step has the drifts and variances of the model, and over any number of steps the FX rate divided by the money-market accounts has the spot as its mean. Under the foreign measure (weighting by the discounted FX rate) the foreign rate follows its own mean-reverting scheme, so the quanto correction is exact. The domestic rate has the mean of its scheme, which follows an affine curve exactly. simulate runs one chain per path on its own block of draws; the date-driven simulation is the same chain with the targets of theta_fn at the middle of each step.", "quantifier": "every valid parameter set, starting state, number of steps, step lengths, time-dependent targets and stream of draws; expectations over all draws", "why_tests_cant": "Tests average a few thousand seeded paths for one parameter set with tolerances of several standard errors; a missing quanto term, a wrong correlation row or a biased scheme of that size passes.", "anchors": ["src/models/forex/fx_hhw.rs: FxHhwState::initial, FxHhwSimulator::{new, with_theta_fn, step, step_at_time, simulate}, impl SimulationModel for FxHhwSimulator"]}
{"id": "C68", "title": "The FX-FMM simulator composes two forward market models and an exact martingale scheme for the FX rate", "statement": "The simulator is built exactly for validated parameters whose joint correlation matrix (FX, variance, domestic and foreign rates) is positive definite. Every step of positive length succeeds, advances the common time and gives a positive FX rate and a non-negative variance. Over independent standard normal draws the 2+2M increments are centred with the configured correlations times dt. The domestic rates, variances, snapshots and x move exactly as in the domestic forward market model, the foreign rates as in the foreign one with the quanto shift; under the foreign measure (weighting by the FX rate) they have the drift for which foreign bonds are driftless. Over any number of steps the FX rate divided by the accounts that compound the running rates has the spot as its mean. simulate_terminal runs one chain per path on its own block of draws up to the requested time; the date-driven simulation is the same chain.", "quantifier": "every valid parameter set and number of rates, starting state, number and lengths of steps and stream of draws; expectations over all draws", "why_tests_cant": "Tests average seeded paths of one parameter set with loose tolerances; a wrong row of the joint matrix, a missing quanto term or a mixed-up block of increments of that size passes.", "anchors": ["src/models/forex/fx_fmm_simulator.rs: FxFmmState::initial, FxFmmSimulator::{new, step, simulate_terminal}, impl SimulationModel for FxFmmSimulator, side_adapted_vol, build_joint_correlation, cholesky"]}
{"id": "C69", "title": "The Dupire surface recovers the local variance of the quotes", "statement": "A surface is built exactly for a rectangular grid of at least three strictly increasing expiries and strikes and a positive spot. If the quotes come from a price surface that solves the forward equation with local variance s at a node, then on every sufficiently fine (possibly irregular) grid the variance at that node, interior or on the edge, is arbitrarily close to s (moved into the admissible band of volatilities, 1% to 200%) where the prices are convex enough for the floor 1e-8 on the denominator; Black prices with a volatility term structure have the derivative of the total variance as local variance, and flat quotes give back their volatility. The finite differences are exact on affine and quadratic functions. Between nodes the variance is bilinear, it is continuous, it is constant outside the grid, and it always belongs to a volatility between 1% and 200%.", "quantifier": "every grid of any size, every price surface twice differentiable in the strike, every time and strike", "why_tests_cant": "Tests rebuild one flat 10% surface on one or two grids with a tolerance of several percent and look at one interpolated point; no test can take the limit of fine grids or cover arbitrary smiles.", "anchors": ["src/models/forex/dupire_local_vol.rs: build, DupireLocalVol::{local_variance, local_vol}, bracket, fd_t, fd_k, fd_kk"]}
{"id": "C70", "title": "The time-dependent SABR simulator follows its schedules", "statement": "The constructor accepts exactly three schedules on the same knots with alpha > 0, nu >= 0, rho strictly inside (-1, 1), beta in [0, 1] and a positive forward. Every path of the simulator is the discretised SABR model with the volatility scale alpha(t), correlation rho(t) and vol-of-vol nu(t) of the middle of each step; its forward stays non-negative and its volatility positive, the two noise increments have variance dt and covariance rho dt, the forward is a martingale and the volatility is lognormal with E[vol^q] = alpha_0^q exp((q^2-q)/2 * integral of nu^2). With flat schedules it is the constant-parameter simulator and the model reduces to constant parameters. Simulation beyond the schedule panics, and the date-driven simulation is the same scheme on the dates.", "quantifier": "every admissible schedule with any number of knots, every number of steps and paths, every sequence of draws; expectations over independent standard normal draws", "why_tests_cant": "Tests simulate a few thousand paths with one seed and allow several percent of error; they use a constant alpha schedule, so they cannot see that later alpha values are ignored, nor the bias of the forward.", "anchors": ["src/models/forex/sabr_time_dependent.rs: TimeDependentSabrParams::{new, at, horizon}, TimeDependentSabrSimulator::{step, simulate, reduces_to_constant}, SimulationModel impl", "src/models/forex/sabr.rs: SabrSimulator::simulate", "src/models/forex/sabr_effective.rs: PiecewiseConstant::at"]}
{"id": "C71", "title": "The stochastic-local-volatility particles move with the local variance of the surface", "statement": "The population is split by increasing forward into at most n_bins groups of equal size (the last may be smaller); the bin means weighted by size add up to the total squared volatility. Every step moves each particle with the compensated volatility: local variance at the middle of the step and at its forward, divided by the mean squared volatility of its bin times F^(2 beta - 2). Hence in every bin the average of Var[dF]/(F^2 sigma_LV^2 dt) is one whatever the volatilities are (mimicking), with zero vol-of-vol the particles follow the pure local-volatility model, and the volatilities keep their SABR law. Forwards stay non-negative and volatilities positive, the forward is a martingale, zero is absorbing, and simulation panics exactly without paths, steps, time or bins or beyond the schedule.", "quantifier": "every population of any size, every number of bins, steps and paths, every admissible schedule and built surface, every sequence of draws; means over standard normal draws", "why_tests_cant": "Tests check the mean forward of one seeded run within 2%, one binning of 100 states, and repricing within tolerances; the equality of average variance and local variance in every bin for all populations is not observable from paths.", "anchors": ["src/models/forex/sabr_slv.rs: TimeDependentSabrSlvSimulator::{new, with_bins, simulate}, bin_vol_sq_by_forward, lookup_bin"]}
{"id": "C72", "title": "The foreign-stock simulator prices foreign equity without drift in both measures", "statement": "The simulator is built exactly for a positive definite base correlation and two numbers in [-1,1]. The FX, variance and rate factors are those of the FX-HHW simulator and never see the stock. The six increments are centred with covariances dt times the model correlations (base matrix, rho_xi_S, rho_S_omega and their products). Over any number of steps the stock converted into domestic currency and divided by the domestic account has its initial value as mean, and so has the FX rate with respect to the two accounts; under the foreign measure the stock grows at the foreign rate and its variance has the Heston mean and variance free of FX terms, so both quanto corrections are exact. FX rate and stock stay positive, variances non-negative; paths use disjoint blocks of draws; only empty requests and non-positive steps panic.", "quantifier": "every parameter set, state, step length, number of steps and paths; means over independent standard normal draws", "why_tests_cant": "Tests compare two seeded means with tolerances of a few percent; exact martingale and quanto identities for all parameters and step counts are out of reach of sampling.", "anchors": ["src/models/forex/fx_hhw_stock.rs: FxHhwStockSimulator::{new, step, simulate}, FxHhwStockState::initial, SimulationModel impl"]}
{"id": "C73", "title": "The FX-FMM calibration returns an admissible fit whose reported error is the true one", "statement": "For valid FX-FMM parameters, a positive expiry, a non-negative floor and any non-empty list of quotes at positive strikes the calibration returns. The reported RMSE is the root mean square difference between the quotes and model_implied_vols of the returned parameters; those are valid, positive, with mean reversion above the floor and correlation inside (-1,1); only the Heston block differs from the input; the error is not larger than at the (clipped) start, so a start that meets all quotes gives zero error. Invalid parameters give the penalty as error. Model volatilities reprice price_call. The strip wrapper fits exactly the pairs of the strip and ignores its forward; the discount factor is the bond at the last tenor date, extrapolated flat.", "quantifier": "every admissible parameter set, tenor length, target list, optimiser options", "why_tests_cant": "Tests run one synthetic round trip on one parameter set with a tolerance; the guarantees for every start, strike grid and option set are not testable.", "anchors": ["src/models/forex/fx_fmm_calibrator.rs: calibrate, reify_params, discount_factor, forward_fx, model_implied_vols, price_call, FxFmmSmileCalibrator", "src/models/common/cos_pricer.rs: ForwardChf for FxFmm1ForwardChf"]}
{"id": "C74", "title": "The time-dependent SABR calibration brackets its targets, and its correlation stage is exact until it clamps", "statement": "When the calibration returns: knots are zero and the expiries; each market fit is the admissible SABR calibration from its seed, with the true root-mean-square error reported; each vol-vol value is between two values at most 1e-10 apart whose exact effective vol-vols lie on both sides of the target (or is the floor 1e-6), and the exact effective vol-vol is nondecreasing in the last value; likewise for the term structure; each correlation makes the effective correlation at its pillar the target exactly unless some correlation up to it was clamped, and then the miss is the clamped part. One pillar in the usual range is recovered. The surface wrapper reports the largest stage-1 error. The monotonicity of the term-structure stage and the harmlessness of the clamp, which the comments claim, are checked.", "quantifier": "every number of pillars, expiries, market parameters and quotes", "why_tests_cant": "Tests check a few hand-picked pillar sets with tolerances; which schedules hit the targets, and when the bisection or the clamp lose them, is a statement over all term structures.", "anchors": ["src/models/forex/sabr_time_dependent_calibrator.rs: calibrate_time_dependent, bisect, SabrTimeDependentSurfaceCalibrator"]}
{"id": "C75", "title": "Converting a date to a year fraction and back returns the date", "statement": "For the counters Actual/360, Actual/364, Actual/365 and Actual/366 the date obtained from the year fraction of a date is that date again exactly within the tabulated number of days from the reference date; beyond it, it is another date. For every 30/360 variant it is within two days of that date over a thousand years. For every time, the year fraction of the date found is within a stated distance of it, and a first guess that is exact is returned unchanged. Whether the round trip holds for the usual maturities and for Actual/Actual is checked.", "quantifier": "every reference date, date and time; four day counters for the round trip, seven variants of 30/360 for the distance, all day counters for the exact guess", "why_tests_cant": "The pairs of dates are far too many to enumerate, and the first failure for Actual/360 lies beyond the maturities used in tests.", "anchors": ["src/time/daycounters.rs: DayCounters::year_fraction_to_date"]}
{"id": "C76", "title": "The risk figures of caps and floors are the slopes they claim to be", "statement": "The closed-form vega is the derivative of the value in a parallel shift of the volatilities, in basis points, and the bump vega of a long deal lies between the bump times the closed form before and after the bump; a shift of the volatilities is a revaluation on the raised surface; cap and floor have the same vega; the derivative in a parallel rate shift is the sum of the normal-model sensitivities of the periods; gamma divided by the squared bump tends to the second derivative; a long floor has a non-positive DV01. Whether a long cap has a positive DV01, as a comment says, is checked.", "quantifier": "every schedule, curve, surface, strike, notional and bump (exact arithmetic)", "why_tests_cant": "A derivative is a limit over all bumps, and the sign of DV01 is a statement over all curves; tests compare one deal with a screen.", "anchors": ["src/derivatives/interestrate/cap.rs: dv01, gamma, vega, analytic_vega_1bp"]}
{"id": "C77", "title": "The built-in rate indices follow the conventions of their market", "statement": "Every index code yields an index. Its currency, calendar and day count are those of its market. Euribor settles two TARGET days after the valuation date; a tenor in weeks ends on the first TARGET day from the last week, a tenor in months or years ends on a TARGET day of the month that many months later. A quote on an overnight index runs to the next business day. The claims about the Australian and Canadian index and about overnight indices are checked and refuted.", "quantifier": "every index code, tenor and valuation date from 1901 to 2199", "why_tests_cant": "The maturities depend on the holiday calendars over three centuries and on every tenor; tests construct a few indices and do not compare calendars.", "anchors": ["src/markets/interestrate/interestrateindex.rs: InterestRateIndex::from_enum"]}
{"id": "C78", "title": "Market contexts answer from the quotes they were built from", "statement": "A context built from raw quotes exists exactly when both curves strip and the surface builds, and the first failure is passed on. The forward points it reads at a quoted date are the quoted points and outside the quotes it refuses. The at-the-money, call and put volatilities at a quoted expiry are those quoted at their strikes, a flat set of quotes gives that volatility everywhere, and a context for linear products has the placeholder volatility of ten percent. An interest rate context without caps refuses volatilities and cap prices; with a full grid of caps it prices each of them at its quote. Rates and discount factors of each currency come from the curve of that currency's quotes and agree with each other. The claims that the forward is an outright rate, that it is on the pair's spot date, that covered interest parity holds and that all parts belong to one valuation date are checked and refuted.", "quantifier": "every valuation date, spot, pair, curve data, forward quotes, volatility pillars and cap quotes; every root finder", "why_tests_cant": "The contexts combine four constructions whose failure modes and dates interact; tests build one context of each kind and look at one or two numbers.", "anchors": ["src/markets/forex/market_context.rs: FxMarketContext::from_raw_quotes, for_linear, trivial_vol_surface, forward_at, implied_vol", "src/markets/interestrate/market_context.rs: IrMarketContext::from_raw_quotes, caplet_vol", "src/derivatives/forex/basic.rs: FXUnderlying::forward_helper"]}
{"id": "C79", "title": "Movable feasts in the tables fall where other calendars put them", "statement": "The tables of Jewish holidays agree with the Hebrew calendar (molad and four postponements), so that the two Israeli calendars are closed exactly on the weekends and the listed holidays. Turkey is closed for the whole of both Islamic feasts, Indonesia and Singapore next to them, and China, Hong Kong, South Korea, Taiwan and Singapore are closed on the first days of the lunar year, in every year the tables cover. Checked and refuted: the tables are right for Israel in 2001 and 2038, Turkey in 2011 and 2015, Taiwan in 2010, Singapore in 2010, 2011 and 2015 to 2018, Hong Kong in 2014 (the day in lieu of a Sunday); Tel Aviv keeps its Friday and Saturday weekend.", "quantifier": "every date of 2000 to 2050 for Israel; every Islamic year whose feasts fall in the years of the tables; every lunar year of the tables", "why_tests_cant": "Tests look at a few dates of a few years. A misprinted day or month in one row of some 2500 table entries is only found by comparing all rows with an independent calculation of the feast.", "anchors": ["src/time/calendars/israel.rs: tables, tel_aviv_is_business_day, shir_is_business_day", "src/time/calendars/turkey.rs: is_business_day", "src/time/calendars/indonesia.rs: is_business_day", "src/time/calendars/singapore.rs: is_business_day", "src/time/calendars/china.rs: is_business_day", "src/time/calendars/hongkong.rs: is_business_day", "src/time/calendars/southkorea.rs: is_business_day", "src/time/calendars/taiwan.rs: is_business_day"]}
{"id": "C80", "title": "Beyond their tables the calendars know fixed holidays only", "statement": "Each calendar with tables of movable feasts has a last year. In every later year it is closed exactly on the weekends and its fixed holidays, and it reports no error: from 2027 mainland China is closed on 1 January only, from 2051 Tel Aviv never, Hong Kong and Thailand run out in 2026, Singapore and Taiwan in 2027, Indonesia in 2015, India in 2026 and from 2015 to 2018, Turkey in 2035, South Korea in 2051, the Russian calendars in 2021.", "quantifier": "every date after the last year of the table, up to the end of the Easter tables or of the date type", "why_tests_cant": "What a calendar does in years its tables do not cover is a statement about all those years; tests use dates inside the tables.", "anchors": ["src/time/calendars/china.rs: is_business_day", "src/time/calendars/hongkong.rs: is_business_day", "src/time/calendars/india.rs: is_business_day", "src/time/calendars/indonesia.rs: is_business_day", "src/time/calendars/israel.rs: tel_aviv_is_business_day, shir_is_business_day", "src/time/calendars/russia.rs: settlement_is_business_day, exchange_is_business_day", "src/time/calendars/singapore.rs: is_business_day", "src/time/calendars/southkorea.rs: is_business_day", "src/time/calendars/taiwan.rs: is_business_day", "src/time/calendars/thailand.rs: is_business_day", "src/time/calendars/turkey.rs: is_business_day"]}
{"id": "C81", "title": "The mean of the square root of a CIR process", "statement": "The law of the process at a fixed time (a Poisson mixture of gamma laws) is a probability whose mean and variance are the computed ones, and it solves the stochastic equation: the mean of exp(-lambda sigma) changes at the rate given by the generator. In the series branch sqrt_mean is never above the mean of the square root under this law and less than one part in 10^12 below it, and the limit of 2000 terms is never reached. sqrt_mean_infinity is its limit at large times, the square root of sigma_0 at small times, and feller_satisfied is Feller's condition. Checked and refuted: accurate to the tolerance (default 1e-14), in the series branch by the omitted terms and in the small-time branch by a relative error above 3e-4; the small-time value is always too high.", "quantifier": "all positive kappa, theta, gamma at least 1e-14, all non-negative sigma_0, all positive times", "why_tests_cant": "Tests compare a few values with stored decimals. The accuracy of a truncated series with a data dependent stop is a bound over all parameters, and its reference is an integral against a law that tests do not have.", "anchors": ["src/models/common/cir.rs: mean, variance, sqrt_mean, sqrt_mean_tol, sqrt_mean_infinity, feller_satisfied"]}
{"id": "C82", "title": "Risk figures of interest rate swaps", "statement": "For a fixed leg against a floating leg without spread on the same schedule: if the side that receives the coupon has a non-negative value, or the swap starts on the valuation date, its dv01 is negative, and that of the other side positive. modified_duration is minus the relative change of value per unit of rate over one basis point and zero for values below 1e-12; it is positive for a receiver in the money. gamma does not depend on the sign of the bump, divided by the square of the bump it tends to the sum of the payments weighted by their squared times, and it is non-negative for the receiver of a spot-starting swap. Checked and refuted: the documented sign of dv01 for every receiver (a forward-starting swap below the market gains when rates rise), and a positive duration for every receiver.", "quantifier": "every curve without repeated pillar dates, every contiguous schedule of any length, every non-negative coupon, both directions, every bump", "why_tests_cant": "Tests compute the figures of one swap near par. The sign depends on coupon, start and curve together, and the scaling in the bump is a limit.", "anchors": ["src/derivatives/interestrate/swap.rs: dv01, gamma, pv_under_shift", "src/derivatives/interestrate/basic.rs: IRDerivatives::modified_duration"]}
{"id": "C83", "title": "The quadratures of the FX-HLMM1 and FX-FMM1 characteristic functions converge", "statement": "With the number of Simpson intervals going to infinity the component A of the characteristic function comes within any epsilon plus (2w + w^2) times the integral of the sizes of the covariances of the integral it stands for: that of kappa*theta*C + lambda_d*v_d*D_d + lambda_f*v_f*D_f plus ((iu)^2 - iu)/2 times the integral of the covariances between spot and rates at the mean roots of the variances under the law of the CIR process; w is the relative error of sqrt_mean, which is at most 1/249 at every time and 1e-12 where the series is summed throughout. The segments and the other components do not depend on the number of intervals.", "quantifier": "every tenor, every valid parameter set with variances of at least 1e-300 and vol-of-vol of at least 1e-14, every expiry (FX-FMM1: up to the last tenor date), every frequency and resolution", "why_tests_cant": "Tests use 16 or 32 intervals and one parameter set. Convergence is a limit, and the integrand is a discontinuous function (it changes from the expansion to the series), so that a smooth error bound does not apply.", "anchors": ["src/models/forex/fx_hlmm1_chf.rs: simpson_f, components, with_simpson_steps", "src/models/forex/fx_fmm1_chf.rs: simpson_f_integral, components, with_resolution", "src/models/common/cir.rs: sqrt_mean"]}
{"id": "C84", "title": "One FX contract, one risk: either currency of the notional, options against forwards", "statement": "The right to exchange N foreign for N*K domestic can be entered as a notional N in foreign or N*K in domestic currency. Its value and vega in domestic terms are those in foreign terms converted at spot; its delta (always in foreign currency) and gamma should be the same number. A bought call plus a sold put on the same terms should be the bought forward, in value and in delta.", "quantifier": "every option and market in exact arithmetic", "why_tests_cant": "Identities between trades for all real inputs; the tests price every trade in one currency only.", "anchors": ["src/derivatives/forex/option.rs: FXVanillaOption::mtm, delta, gamma, vega", "src/derivatives/forex/forward.rs: FXForward::mtm, delta"]}
{"id": "C85", "title": "Option formulas are discounted expected payoffs", "statement": "The Black formulas return the discount factor times the expected call or put payoff over a lognormal rate whose mean is the forward and whose logarithm has the given total variance; the Bachelier formulas return the expected payoff over a normal rate with mean the forward and the given total variance. Hence the value of an FX option and of every caplet or floorlet of a cap is its notional and conversion factors times a discounted expected payoff.", "quantifier": "all positive forwards and strikes (any for Bachelier), all non-negative variances and volatilities, all discount factors, calls and puts, all FX options and caps that price", "why_tests_cant": "A test compares one price with a number from elsewhere; that the closed form equals an integral for every input is a theorem of analysis.", "anchors": ["src/derivatives/forex/option.rs: black_scholes, FXVanillaOption::mtm", "src/models/common/black_scholes.rs: bs_call_forward, bs_put_forward", "src/models/common/bachelier.rs: bachelier_call, bachelier_put", "src/derivatives/interestrate/cap.rs: pv_under_shift"]}
{"id": "C86", "title": "Simulated paths are independent exact samples; Monte Carlo averages converge", "statement": "Fed with independent standard normal draws, the date-driven driver returns independent paths. Those of the Brownian and geometric simulators have exactly the law of Brownian motion with drift and of its exponential at the requested dates, whatever the maximal step. The average of a payoff over n paths is unbiased, has the variance of one path divided by n, converges almost surely to the expected payoff as n grows, and its scaled error is asymptotically normal; for calls and puts on the geometric simulator the limit is the closed-form price.", "quantifier": "every probability space and sequence of independent draws, all parameters, dates, step limits, path counts, measurable path functionals with finite first (second) moment", "why_tests_cant": "Almost-sure convergence and exact laws are statements about infinitely many paths and all outcomes; a test compares one finite sample with a tolerance.", "anchors": ["src/models/common/simulation.rs: simulate_at_dates, DatedPaths::states_at, BrownianMotion, GeometricBrownianMotion", "src/models/common/black_scholes.rs: bs_call_forward, bs_put_forward"]}
{"id": "C87", "title": "Input is accepted exactly on the documented conditions; the FX surface never aborts", "statement": "Parameter schedules, interest-rate tenors, the forward market model with its displacements and volatility schedules, the SABR formula, the mean of the square root of a CIR process, the normal quantile, the alignment of two schedules, a SABR simulation and the parameters of the two FX models with market models of interest rates (lengths, tenors, correlation tables) return a value exactly when their documented conditions hold, and stop the program otherwise: no accepted input breaks a condition and no condition is refused beyond the documented ones. Building an FX volatility surface from any quotes and reading any point of it gives a value or an error and never stops the program.", "quantifier": "all lists of knots, dates, rates, volatilities, correlation rows and quotes of any length and content; all real arguments, expiries and strikes", "why_tests_cant": "Refused inputs form an infinite set of malformed shapes; tests try a few. That no input at all makes the surface abort, and that nothing outside the condition is refused, are universal statements.", "anchors": ["src/models/forex/sabr_effective.rs: PiecewiseConstant::new, aligned_segments, effective_vol_vol, effective_term_structure, effective_correlation", "src/models/interestrate/fmm.rs: FmmTenor::new, Fmm::{new, with_betas, with_vol_schedule}", "src/models/forex/fx_hlmm.rs: LiborTenor::new", "src/models/common/cir.rs: sqrt_mean_tol, sqrt_mean_infinity, sqrt_mean_proxy", "src/models/forex/sabr.rs: SabrSimulator::simulate, hagan_implied_vol", "src/math/normal.rs: inverse_cdf", "src/markets/forex/quotes/volsurface.rs: FXVolSurface::{new, volatility}"]}
{"id": "C88", "title": "Monte Carlo averages of the model simulators converge", "statement": "With independent normal draws the terminal states of a simulation of the Heston/Hull-White model, of the foreign stock, of SABR with constant and with time-dependent parameters, and of the FX model with forward market models are independent and identically distributed, and adding paths leaves the earlier ones unchanged. So the average of any integrable payoff converges almost surely to its expectation under the discretised model; its error has mean zero, variance Var/n and is asymptotically normal. In particular the average domestic rate converges to the mean of the Euler scheme, with constant rates the average FX rate converges to the forward of covered interest parity and the average of the converted foreign stock to its domestic forward for every number of time steps, the average SABR volatility converges to alpha, and the average SABR forward converges to today's forward.", "quantifier": "all parameters accepted by the constructors, all horizons, numbers of steps and of paths; almost all draws; all measurable payoffs of the state with a finite mean (variance for the error)", "why_tests_cant": "A test with a fixed seed sees one run with finitely many paths; convergence almost surely and the absence of a bias in the limit concern all runs and infinitely many paths. A small bias is hidden by the sampling error.", "anchors": ["src/models/forex/fx_hhw.rs: FxHhwSimulator::{simulate, step_at_time}", "src/models/forex/fx_hhw_stock.rs: simulate", "src/models/forex/sabr.rs: SabrSimulator::simulate", "src/models/forex/sabr_time_dependent.rs: TimeDependentSabrSimulator::simulate", "src/models/forex/fx_fmm_simulator.rs: simulate_terminal"]}
{"id": "C89", "title": "Simulators agree with the closed formulas of their models", "statement": "When variance and rates of the Heston/Hull-White model are deterministic, the Monte Carlo price of a call or a put converges almost surely to Black's formula with the parity forward and the total variance of the scheme, for every number of time steps; with constant variance and rates this is exactly `bs_call_forward` and `bs_put_forward` with the square root of the variance as volatility. The simulated domestic rate, and a rate simulated with the Hull-White step towards a constant target, are exactly normal; as the steps get smaller their mean and variance converge to the Hull-White mean and to `short_rate_variance`, and the sums of deterministic quantities to their integrals. The simulated SABR volatility is exactly lognormal with variance nu^2 T for every number of steps.", "quantifier": "all accepted parameters meeting the stated conditions, all horizons, numbers of steps, strikes, discount factors; almost all draws; limits over all numbers of steps", "why_tests_cant": "A test compares one seed with one formula within a tolerance wide enough for the sampling error; a bias of the scheme smaller than that is invisible, and the limits concern infinitely many paths and steps.", "anchors": ["src/models/forex/fx_hhw.rs: FxHhwSimulator::{simulate, step_at_time}", "src/models/interestrate/hull_white.rs: HullWhite1F::{short_rate_variance, b}, HullWhiteSimulator", "src/models/common/black_scholes.rs: bs_call_forward, bs_put_forward", "src/models/forex/sabr_time_dependent.rs: TimeDependentSabrSimulator::step_with_noise"]}
{"id": "C90", "title": "Monte Carlo averages of the forward market model", "statement": "`FmmSimulator::simulate_terminal` returns one independent path per requested path, each using its own block of draws. The average of a function of the simulated rates converges almost surely if and only if the function has a mean under the law of the scheme, and then to that mean; bounded functions always converge. After a single step the average of a rate converges to the rate plus its drift. In particular averages of rates and of discounted unit payments converge as the number of paths grows.", "quantifier": "all valid models with an accepted correlation matrix, all horizons, numbers of steps and paths; almost all draws; limit over all numbers of paths", "why_tests_cant": "A test uses a fixed number of paths. An average without a limit looks stable for every number of paths one can afford, because the event that destroys it is extremely rare.", "anchors": ["src/models/interestrate/fmm.rs: FmmSimulator::{simulate_terminal, step}, bank_account"]}
{"id": "C91", "title": "Simulators driven by dates agree with their own loops", "statement": "`SimulateAtDates::simulate` integrates exactly over the requested dates and every max-step-th day up to the last of them. What it returns for a date is what the simulator itself would compute: on a regular grid the states at the last date are the ones the simulator's own `simulate` returns for the same draws (SABR, time-dependent SABR, forward market model, Heston/Hull-White with and without stock, FX forward market model), including its panics. States carry the time of their date (forward market model), keep their signs (SABR, square-root variance), and the Hull-White rate at a date is exactly normal with the mean and variance of the Euler steps between the integration dates. The state returned for a date does not depend on which other dates are requested.", "quantifier": "all valuation dates, request lists, numbers of paths, step sizes, day counters increasing in the date, all draws; normal law for the Hull-White part", "why_tests_cant": "Two independent loops agree for every list of dates and every stream of draws; a test compares them for one list, and usually only in mean up to Monte Carlo noise.", "anchors": ["src/models/common/simulation.rs: simulate_at_dates, DatedPaths::states_at", "src/models/interestrate/fmm.rs: impl SimulationModel for FmmSimulator", "src/models/forex/sabr.rs: impl SimulationModel for SabrSimulator", "src/models/interestrate/hull_white.rs: impl SimulationModel for HullWhiteSimulator", "src/models/common/cir.rs: impl SimulationModel for CirSimulator"]}
{"id": "C92", "title": "Hull-White rates fitted to a forward curve", "statement": "If the short rate at t is normal with mean f(0,t) and variance `short_rate_variance(0,t)`, the average of `discount_affine(t,T,r)` over the rate is the forward bond P(0,T)/P(0,t), for every mean reversion on both sides of the 1e-12 switch. With the target f + f'/lambda the simulator driven by dates gives at every requested date and for every path a normal rate whose mean, variance and average bond differ from f(0,t), `short_rate_variance(0,t)` and P(0,T)/P(0,t) by at most an explicit multiple of the longest integration step. With such a fit E[r(t)] = f(0,t) exactly.", "quantifier": "all mean reversions (non-negative with lambda h <= 1 for the error bounds), volatilities, maturities, market bonds, differentiable forward curves with Lipschitz target, all lists of dates, paths and step sizes", "why_tests_cant": "A Monte Carlo test sees the discretisation error and the sampling error together and has to allow for the larger one; it can neither show that the first is proportional to the step nor that it never vanishes.", "anchors": ["src/models/interestrate/hull_white.rs: HullWhite1F::{discount_affine, short_rate_variance, b}, HullWhiteSimulator::{with_theta_fn, step}", "src/models/common/simulation.rs: simulate_at_dates"]}
{"id": "C93", "title": "Cosine prices of normal log-forwards are Black prices", "statement": "For a normal log-forward with variance V and a range of half-width H around the log-forward, cosine call and put prices differ from Black's price by a series remainder of order exp(-V (n pi/2H)^2/2) and tails of order exp(-(H-V/2)^2/(2V)). Without volatility of variance the characteristic function of the FX-HHW1 model, with both rate volatilities and all correlations, is exactly that of a normal log-forward, so its cosine prices converge to Black's prices with the variance of the log-forward. With the default settings, constant variance and deterministic rates the prices are Black's to 2e-14 (F+K) plus an explicit effect of the Simpson rule. The default range catches the effective support.", "quantifier": "all forwards, strikes, variances, ranges, numbers of terms, discount factors; all FX-HHW1 parameters with kappa > 0 and no volatility of variance (for the default settings total deviation at most one, kappa T at most 128 and a strike within ten deviations)", "why_tests_cant": "The test compares three strikes for one set of parameters with a tolerance; a bound on truncation, tails and quadrature for all parameters is a statement about integrals and infinite series.", "anchors": ["src/models/common/cos_pricer.rs: CosPricer::{new, call, put, price_european}", "src/models/forex/fx_hhw1_chf.rs: FxHhw1ForwardChf::{new, with_simpson_steps, evaluate}"]}
{"id": "C94", "title": "Changing the unit of the domestic currency", "statement": "Counting the domestic currency in units c times smaller (spot, forward and strike multiplied by c) multiplies Black prices, cosine prices and the call prices of the FX-HHW, FX-HLMM and FX-FMM models by c, panics included, and multiplies the exchange rate along every simulated path of the FX-HHW, foreign-stock, FX-FMM, SABR and time-dependent SABR simulators by c, everything else unchanged (SABR alpha being multiplied by c^(1-beta)). Implied volatilities do not depend on the unit.", "quantifier": "all c > 0, all parameters with positive spot, strikes, expiries, volatilities, tolerances, draws, numbers of steps and paths", "why_tests_cant": "Tests use one currency pair in one unit; equality for every unit is a statement about all parameters and all paths, and the dependence of the implied volatility on the unit only shows for units no test uses.", "anchors": ["src/models/common/black_scholes.rs: bs_call_forward, bs_put_forward, bs_implied_vol, bs_implied_vol_tol", "src/derivatives/forex/option.rs: black_scholes", "src/models/common/cos_pricer.rs: CosPricer::{new, call, put}", "src/models/forex/fx_hhw_calibrator.rs: price_call, model_implied_vols", "src/models/forex/fx_hlmm_calibrator.rs: price_call", "src/models/forex/fx_fmm_calibrator.rs: price_call", "src/models/forex/fx_hhw.rs: FxHhwSimulator::simulate", "src/models/forex/fx_hhw_stock.rs: FxHhwStockSimulator::simulate", "src/models/forex/fx_fmm_simulator.rs: FxFmmSimulator::simulate_terminal", "src/models/forex/sabr.rs: SabrSimulator::simulate", "src/models/forex/sabr_time_dependent.rs: TimeDependentSabrSimulator::simulate"]}
{"id": "C95", "title": "Quoting the pair in the other direction", "statement": "An option on a currency pair is an option on the inverse pair: the Black price of a call with forward F and strike K is F*K times the price of the put with forward 1/F and strike 1/K (S*K times it when each side is discounted in its own currency), the implied volatilities of the two quotations agree, and the FX-HHW model of the inverse pair (rates exchanged, correlations with the exchange rate turned round, variance measured in the other currency) is accepted exactly when the original is, has the characteristic function that belongs to the same law, and gives the same option prices. The strikes of a quoted smile and the volatilities of a lognormal SABR smile are those of the inverse pair at reciprocal strikes.", "quantifier": "all positive forwards, strikes and spots; all variances, volatilities, expiries, discount factors, targets and tolerances; all FX-HHW parameters with positive mean reversion in both directions; all numbers of integration panels", "why_tests_cant": "The two directions use different parameters and different branches (call against put), so equality over all of them is a statement about a pair of functions; tests only ever price one direction.", "anchors": ["src/models/common/black_scholes.rs: bs_call_forward, bs_put_forward, bs_implied_vol_tol", "src/derivatives/forex/option.rs: black_scholes", "src/models/forex/fx_hhw.rs: Correlation4x4, FxHhwSimulator::new", "src/models/forex/fx_hhw1_chf.rs: FxHhw1ForwardChf::evaluate", "src/models/common/cos_pricer.rs: CosPricer::{call, put}", "src/markets/forex/quotes/volsurface.rs: atm_dns_strike, strike_from_call_delta, strike_from_put_delta", "src/models/forex/sabr.rs: hagan_implied_vol"]}
{"id": "C96", "title": "Smiles leave no arbitrage between strikes", "statement": "The undiscounted call prices that a smile gives to one expiry are the mean payoffs of one law of the exchange rate with the forward as mean; in particular calls do not get dearer, and puts per unit of strike do not get cheaper, with the strike. A law bounds the volatility by sqrt(2 log(K/F)/t) at high strikes. This holds for a flat smile, for the smile of Hagan's SABR formula and, in the wings, for quoted FX smiles, whose volatilities are positive when the quotes are.", "quantifier": "all forwards, expiries and volatilities; all admissible SABR parameters; all smile sections; all pairs of strikes and all strikes beyond the quoted ones", "why_tests_cant": "Arbitrage is a statement about all strikes at once (existence of a law) and shows only at strikes far from the forward; tests evaluate a handful of strikes near it.", "anchors": ["src/models/forex/sabr.rs: SabrParams::hagan_implied_vol", "src/models/common/black_scholes.rs: bs_call_forward, bs_put_forward", "src/markets/forex/quotes/volsurface.rs: SmileSection::{from_pillar, volatility}, fit_quadratic_three_points"]}
{"id": "C97", "title": "A quote acts only on its own part of a curve or surface", "statement": "Changing or adding one market quote changes results near it only, so that risk can be read off by bumping quotes one at a time: swaps and futures added behind the quoted ones leave all pillars and the discount factors up to the last of them alone; a deposit moves the pillars of its own maturity only; later cap quotes leave earlier caplet volatilities alone; FX volatilities and forward points at a date depend on the neighbouring quoted dates only; later expiries leave the time-dependent SABR parameters fitted to earlier ones alone; a local variance depends on the volatilities at the neighbouring grid points only.", "quantifier": "all curves, all lists of quotes of any length, all dates, strikes and grids for which the construction succeeds", "why_tests_cant": "Tests compare single results with reference numbers; that a result is independent of all the other quotes is a statement about pairs of inputs that differ arbitrarily.", "anchors": ["src/markets/termstructures/yieldcurve.rs: get_stripped_curve, step_function_forward_zero_rate", "src/markets/interestrate/volsurface.rs: strip_caplet_vols, caplet_volatility", "src/markets/forex/quotes/volsurface.rs: FXVolSurface::volatility", "src/markets/forex/quotes/forwardpoints.rs: get_forward", "src/models/forex/dupire_local_vol.rs: build, local_vol"]}
{"id": "C98", "title": "Small errors in the inputs cause proportionally small errors in the results", "statement": "Prices and interpolated market data react to errors in their inputs by at most a known multiple: Black and Bachelier prices move by at most the (discounted) change of forward and strike plus the change of the standard deviation over the square root of two pi (times the smaller of forward and strike for Black); no zero rate, caplet volatility, FX volatility or forward point moves by more than the largest move of a quote it is interpolated from; no discount factor changes by more than a factor e^(eps t); a cap moves by at most the notional times eps over the square root of two pi times the sum of accrual, discount factor and square root of time over its caplets; a forward rate moves by at most eps (t1+t2)/(t2-t1).", "quantifier": "all forwards, strikes, variances and discount factors (positive where Black needs it); all curves, surfaces and lists of quotes of any length; all error sizes", "why_tests_cant": "Tests look at single inputs; a bound on the reaction to every error, with its constant, is a statement about all pairs of inputs.", "anchors": ["src/derivatives/forex/option.rs: black_scholes", "src/models/common/bachelier.rs: bachelier_call, bachelier_put", "src/markets/termstructures/yieldcurve.rs: step_function_forward_zero_rate, discount, forward_rate", "src/markets/interestrate/volsurface.rs: caplet_volatility, interpolate_nodes", "src/derivatives/interestrate/cap.rs: pv_under_shift", "src/markets/forex/quotes/volsurface.rs: FXVolSurface::volatility", "src/markets/forex/quotes/forwardpoints.rs: get_forward"]}
{"id": "C99", "title": "Options to later expiries do not cost less", "statement": "Undiscounted prices of options on the same forward and strike do not decrease with the expiry, as they must if the forward is a martingale. For Black prices this says that total variances do not decrease. A price read from an FX volatility surface has the property for all pairs of days exactly when the total variances of the pillars do not decrease; prices with Hagan's volatilities have it; a local volatility grid falls back to the quoted volatility at nodes where it is broken.", "quantifier": "all martingales over any time index; all forwards, strikes and variances; all surfaces, all pairs of expiry days inside, outside and across the pillars; all admissible SABR parameters; all grids", "why_tests_cant": "Tests compare prices at a few expiries; the absence of arbitrage is a statement about all pairs of expiries and all surfaces.", "anchors": ["src/derivatives/forex/option.rs: black_scholes", "src/markets/forex/quotes/volsurface.rs: FXVolSurface::volatility", "src/models/forex/sabr.rs: hagan_implied_vol", "src/models/common/black_scholes.rs: bs_call_forward", "src/models/forex/dupire_local_vol.rs: build"]}
{"id": "C100", "title": "Values of swaps and caps react in proportion to errors in the curve", "statement": "If the zero rates of the pillars are off by at most eps, the value of a swap with any fixed and floating legs is off by at most the fraction exp(3 eps T) - 1 of its gross value, where T years contain all its dates. A fixed leg with a non-negative coupon is off by at most the fraction exp(eps T) - 1 of its own value and keeps its sign. The coupon that makes a swap worth nothing is off by at most exp(2 eps T) - exp(eps T) times the sum of the size of the coupon and the two outer discount factors over the annuity. The value of a cap or floor is off by at most the fraction exp(3 eps T) - 1 of its gross value. A floating leg without spread reacts only to the error at its first date. The zero rate of a deposit is off by at most the error in its quote times the ratio of the two year fractions, divided by the growth factor.", "quantifier": "all curves with visible pillars in order, all errors, all swaps and schedules, all day counters and calendars", "why_tests_cant": "Tests price one swap on one or two curves; a bound has to hold for all curves near a given one.", "anchors": ["src/derivatives/interestrate/swap.rs: npv", "src/derivatives/interestrate/swap.rs: calculate_period_cashflow", "src/derivatives/interestrate/cap.rs: pv_under_shift", "src/markets/termstructures/yieldcurve.rs: discount", "src/markets/termstructures/yieldcurve/oisratehelper.rs: zero_rate"]}
{"id": "C101", "title": "The rates of a curve react in proportion to errors in its quotes", "statement": "If the continuously compounded rates behind the quotes of deposits and futures are off by at most eps, all zero rates of the stripped curve are off by at most eps, and a discount factor t years away by at most the factor exp(eps t). An error of delta in the price of a futures and its convexity adjustment is an error of at most tau delta / (100 g t) in the rate of its period, where tau and t are its lengths by the index and by calendar days and g bounds the growth factors from below.", "quantifier": "all lists of deposit and futures quotes, all errors, all calendars and day counters, all valuation dates", "why_tests_cant": "Tests strip one curve from one set of quotes; a bound has to hold for all quotes near given ones and for strips of any length.", "anchors": ["src/markets/termstructures/yieldcurve.rs: get_stripped_curve", "src/markets/termstructures/yieldcurve.rs: retrieve_related_stripped_curve", "src/markets/termstructures/yieldcurve/ratehelper.rs: discount", "src/markets/termstructures/yieldcurve/ratehelper.rs: zero_rate", "src/markets/termstructures/yieldcurve/oisratehelper.rs: zero_rate"]}
{"id": "C102", "title": "Values of FX forwards and options react in proportion to errors in the market data", "statement": "If the spot is off by at most sigma, every forward-point quote by at most pi, every zero rate of the domestic curve by at most eps and the volatility by at most nu, the outright forward is off by at most w = sigma + pi / converter. The value of a forward contract is off by at most its foreign amount times D (exp(eps t) w + (exp(eps t) - 1) |F - K|). The price of an option per unit is off by at most D exp(eps t) (w + min(F, K) nu sqrt(T) / sqrt(2 pi)) plus the part exp(eps t) - 1 of the price, and the conversion of a foreign notional at the spot adds the relative error of the spot.", "quantifier": "all currency pairs, all market data and errors in it, all expiries, strikes, notionals, directions and option types", "why_tests_cant": "Tests value one trade in one market; a bound has to hold for all markets near a given one.", "anchors": ["src/derivatives/forex/forward.rs: FXForward::mtm", "src/derivatives/forex/option.rs: FXVanillaOption::mtm, black_scholes", "src/markets/forex/quotes/forwardpoints.rs: get_forward", "src/derivatives/forex/basic.rs: forward_points_converter"]}
{"id": "C103", "title": "Only the time between dates matters", "statement": "Moving the valuation date, the pillars of a curve, the settlement dates of the quotes, the expiries of a volatility surface and the dates of a trade by the same number of days changes no discount factor, no forward rate over days or weeks, no forward point, no volatility, and no value or risk figure of an FX forward, an FX option, a cap or a swap whose day counter counts the moved periods alike. Tenors in months are the exception: they count calendar months.", "quantifier": "all curves, surfaces, quotes and trades, all numbers of days in either direction for which the dates exist", "why_tests_cant": "Tests price trades on one valuation date; that no formula depends on the date itself has to hold for all dates.", "anchors": ["src/markets/termstructures/yieldcurve.rs: step_function_forward_zero_rate, discount, shifted_discount, forward_rate", "src/markets/forex/quotes/forwardpoints.rs: get_forward", "src/markets/forex/quotes/volsurface.rs: FXVolSurface::new, volatility", "src/markets/interestrate/volsurface.rs: caplet_volatility", "src/derivatives/forex/forward.rs: FXForward::mtm", "src/derivatives/forex/option.rs: FXVanillaOption::mtm, delta, gamma, vega", "src/derivatives/interestrate/cap.rs: pv_under_shift", "src/derivatives/interestrate/swap.rs: npv, pv_under_shift"]}
{"id": "C104", "title": "The order in which inputs are listed does not matter", "statement": "Listing the legs of a swap, the pillars of an FX volatility surface, the quotes of one of its smiles, the cash quotes of a curve, the cap quotes of a caplet surface, the targets of a smile calibration or the observation dates of a simulation in another order changes no value, no risk figure, no pillar, no volatility and no calibrated parameter, as long as the inputs can be told apart: different expiries, different maturities, strikes that are equal or clearly apart with different last periods, deltas that are equal or clearly apart with different kinds of quote. The exceptions are the currency of a swap whose legs are in several currencies, which is that of the leg listed first, and a quote given twice for one delta, of which the later counts.", "quantifier": "all lists of legs, pillars, quotes and dates and all their rearrangements; all curves, solvers, searches, models and valuation dates", "why_tests_cant": "Tests give their quotes in one order; a list has more rearrangements than can be tried.", "anchors": ["src/derivatives/interestrate/swap.rs: npv, pv_under_shift, dv01, currency", "src/markets/forex/quotes/volsurface.rs: FXVolSurface::new, normalise_quotes", "src/markets/termstructures/yieldcurve.rs: get_stripped_curve", "src/markets/interestrate/volsurface.rs: strip_caplet_vols, strip_one_strike", "src/models/forex/sabr_calibrator.rs: calibrate", "src/models/forex/fx_hhw_calibrator.rs: calibrate, calibrate_bounded", "src/models/forex/fx_hlmm_calibrator.rs: calibrate", "src/models/forex/fx_fmm_calibrator.rs: calibrate", "src/models/common/simulation.rs: simulate_at_dates"]}
