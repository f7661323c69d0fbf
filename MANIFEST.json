{
 "claims": [
  {
   "property": "C01",
   "status": "proved",
   "theorems": [
    "Verif.C01_following_iff",
    "Verif.C01_following_isLeast",
    "Verif.C01_following_panic_iff"
   ],
   "note": "Following returns r iff r is the first open day on or after d; total characterisation including the panic case."
  },
  {
   "property": "C02",
   "status": "proved",
   "theorems": [
    "Verif.C02_preceding_iff",
    "Verif.C02_preceding_isGreatest"
   ],
   "note": "Mirror image of C01 for Preceding."
  },
  {
   "property": "C03",
   "status": "proved",
   "theorems": [
    "Verif.C03_modifiedFollowing",
    "Verif.C03_modifiedPreceding",
    "Verif.C03_long_closure_leaves_month"
   ],
   "note": "Modified conventions stay in the month when the month has an open day on the right side, otherwise reverse; the exact condition and the exception (a month closed from d to its end and from its start to d) are theorems."
  },
  {
   "property": "C04",
   "status": "proved",
   "theorems": [
    "Verif.C04_firstHalf",
    "Verif.C04_secondHalf"
   ],
   "note": "Both halves of the month, including the reversal across the 15th."
  },
  {
   "property": "C05",
   "status": "partial",
   "theorems": [
    "Verif.C05_business_day_fixed",
    "Verif.C05_result_open",
    "Verif.C05_result_valid",
    "Verif.C05_idempotent_partial",
    "Verif.C05_nearest_not_idempotent_false"
   ],
   "note": "Business days are fixed and results are open for all conventions except Nearest; idempotence fails for Nearest (inverted loop), which is refuted by C05_nearest_not_idempotent_false."
  },
  {
   "property": "C06",
   "status": "proved",
   "theorems": [
    "Verif.C06_following_mono",
    "Verif.C06_preceding_mono"
   ],
   "note": "Following and Preceding are monotone."
  },
  {
   "property": "C07",
   "status": "partial",
   "theorems": [
    "Verif.C07_nearest_exact",
    "Verif.C07_nearest_partial",
    "Verif.C07_nearest_returns_holiday_false",
    "Verif.C07_nearest_weekend_false"
   ],
   "note": "False as stated: adjust(Nearest) loops while the day is open (inverted test) and returns holidays. Exact behaviour: C07_nearest_exact; refuted by the *_false theorems."
  },
  {
   "property": "C08",
   "status": "proved",
   "theorems": [
    "Verif.C08_joint_open_iff",
    "Verif.C08_joint_closed_iff",
    "Verif.C08_joint_order_irrelevant",
    "Verif.C08_joint_flatten",
    "Verif.C08_adjusted_open_for_members"
   ],
   "note": "Joint calendars: open iff all members open; order irrelevant; nesting flattens."
  },
  {
   "property": "C09",
   "status": "proved",
   "theorems": [
    "Verif.C09_advance_forward_iff",
    "Verif.C09_advance_backward_iff",
    "Verif.C09_valid",
    "Verif.C09_round_trip",
    "Verif.C09_compose_same_sign",
    "Verif.C09_compose"
   ],
   "note": "advance by n business days, both directions, iff-characterisation, composition and round trip."
  },
  {
   "property": "C10",
   "status": "proved",
   "theorems": [
    "Verif.C10_advance_months_iff",
    "Verif.C10_advance_years_iff",
    "Verif.C10_advance_months_eom",
    "Verif.C10_eom_flag_moves_mid_month_dates"
   ],
   "note": "advance by months/years is the clamped month shift followed by adjust; the end-of-month flag always moves to the month end (stated exactly)."
  },
  {
   "property": "C11",
   "status": "proved",
   "theorems": [
    "Verif.C11_lastDayOfMonth",
    "Verif.C11_lastDayOfMonth_last_year_panics",
    "Verif.C11_endOfMonth",
    "Verif.C11_endOfMonth_sound"
   ],
   "note": "last_day_of_month and end_of_month; the last representable month panics and is stated separately."
  },
  {
   "property": "C12",
   "status": "partial",
   "theorems": [
    "Verif.C12_count_partial",
    "Verif.C12_swap",
    "Verif.C12_include_first_false",
    "Verif.C12_not_additive_false",
    "Verif.C12_equal_dates_false"
   ],
   "note": "False as stated: include_first is inverted and equal dates run to the end of the calendar range. C12_count_partial gives the exact value for from < to; refutations are the *_false theorems."
  },
  {
   "property": "C13",
   "status": "proved",
   "theorems": [
    "Verif.C13_western",
    "Verif.C13_orthodox",
    "Verif.C13_outside",
    "Verif.C13_western_range"
   ],
   "note": "Both tables against the Gregorian and Julian computus for all 299 entries; lookups outside 1901-2199 panic."
  },
  {
   "property": "C14",
   "status": "proved",
   "theorems": [
    "Verif.C14_weekend_closed",
    "Verif.C14_weekend_closed_in_range",
    "Verif.C14_russia_exchange",
    "Verif.C14_weekendsOnly_iff"
   ],
   "note": "All 77 market variants; exception (Moscow exchange working weekends) characterised exactly."
  },
  {
   "property": "C15",
   "status": "proved",
   "theorems": [
    "Verif.C15_half_months",
    "Verif.C15_half_months_all_years",
    "Verif.C15_panics_outside",
    "Verif.C15_following",
    "Verif.C15_preceding",
    "Verif.C15_modifiedFollowing",
    "Verif.C15_modifiedPreceding",
    "Verif.C15_halfMonth",
    "Verif.C15_adjust"
   ],
   "note": "All shipped calendars, 1901-2199 (all years for those without Easter); bound 30 days; adjust succeeds for every convention."
  },
  {
   "property": "C16",
   "status": "proved",
   "theorems": [
    "Verif.C16_add_months_iff",
    "Verif.C16_add_years_eq_months",
    "Verif.C16_add_days_iff",
    "Verif.C16_add_weeks_eq_days",
    "Verif.C16_months_mono_date",
    "Verif.C16_months_mono_tenor",
    "Verif.C16_add_sub_days",
    "Verif.C16_add_sub_months"
   ],
   "note": "Clamped month addition, monotonicity, day/week shifts and the add-subtract laws."
  },
  {
   "property": "C17",
   "status": "proved",
   "theorems": [
    "Verif.C17_add_correct",
    "Verif.C17_add_complete",
    "Verif.C17_add_error_iff",
    "Verif.C17_mul_correct"
   ],
   "note": "A returned date is always the mathematically correct one; errors/panics occur exactly on unrepresentable results or counts."
  },
  {
   "property": "C18",
   "status": "proved",
   "theorems": [
    "Verif.C18_settlement",
    "Verif.C18_settlement_eq_modifiedFollowing",
    "Verif.C18_settlement_default"
   ],
   "note": "Settlement date characterisation and equality with modified following."
  },
  {
   "property": "C19",
   "status": "partial",
   "theorems": [
    "Verif.C19_near_eq_far_false",
    "Verif.C19_near_after_far_false",
    "Verif.C19_overnight_month_end_false",
    "Verif.C19_near_lt_far_partial",
    "Verif.C19_default_lag_partial"
   ],
   "note": "False as stated (near date can equal or follow the far date); C19_near_lt_far_partial gives the condition under which it holds."
  },
  {
   "property": "C20",
   "status": "proved",
   "theorems": [
    "Verif.C20_is_third_wednesday",
    "Verif.C20_exists_unique"
   ],
   "note": "is_imm_date is the third Wednesday; one per month."
  },
  {
   "property": "C21",
   "status": "proved",
   "theorems": [
    "Verif.C21_date_isLeast",
    "Verif.C21_round_trip",
    "Verif.C21_letter",
    "Verif.C21_rejected",
    "Verif.C21_ten_year_corner_false",
    "Verif.C21_lowercase_false",
    "Verif.C21_two_byte_false"
   ],
   "note": "date returns the earliest date with the code from the reference date on; round trip within ten calendar years. Lower-case codes and two-byte characters panic (separate theorems), and the ten-year wording is per calendar year (C21_ten_year_corner_false shows why)."
  },
  {
   "property": "C22",
   "status": "partial",
   "theorems": [
    "Verif.C22_diverges_false",
    "Verif.C22_december_panics_false",
    "Verif.C22_next_iff",
    "Verif.C22_next_partial",
    "Verif.C22_witness_diverges_false",
    "Verif.C22_main_cycle_false"
   ],
   "note": "False as stated: next_date never leaves the month of its argument, diverges after the IMM date of months 1-11 and panics in December. C22_next_iff is the exact behaviour, C22_next_partial the part of the property that holds."
  },
  {
   "property": "C23",
   "status": "partial",
   "theorems": [
    "Verif.C23_frequency_partial",
    "Verif.C23_once_false",
    "Verif.C23_unreachable",
    "Verif.C23_code_is_name",
    "Verif.C23_bdc_round_trip",
    "Verif.C23_bdc_code_is_name",
    "Verif.C23_period_months"
   ],
   "note": "Holds for all names with an own code; false for Once (C23_once_false). Business-day-convention names round-trip completely."
  },
  {
   "property": "C24",
   "status": "proved",
   "theorems": [
    "Verif.C24_count_eq_card",
    "Verif.C24_actual",
    "Verif.C24_fraction",
    "Verif.C24_counts"
   ],
   "note": "Act/x counters."
  },
  {
   "property": "C25",
   "status": "proved",
   "theorems": [
    "Verif.C25_european",
    "Verif.C25_italian",
    "Verif.C25_thirty365",
    "Verif.C25_additive",
    "Verif.C25_european_mono",
    "Verif.C25_plain",
    "Verif.C25_whole_years",
    "Verif.C25_bounds",
    "Verif.C25_isma_rule",
    "Verif.C25_isma_not_additive_false",
    "Verif.C25_nasd_rule",
    "Verif.C25_isda_rule",
    "Verif.C25_us_rule"
   ],
   "note": "Each 30/360 variant in closed form, whole years, bounds, additivity of the European and Italian variants and of 30/365."
  },
  {
   "property": "C26",
   "status": "partial",
   "theorems": [
    "Verif.C26_exact",
    "Verif.C26_noleap_partial",
    "Verif.C26_december_false",
    "Verif.C26_wrong_into_december_false"
   ],
   "note": "False as stated: the December month offset is 344 instead of 334. C26_exact gives the exact value (error of ten days when exactly one date is in December)."
  },
  {
   "property": "C27",
   "status": "partial",
   "theorems": [
    "Verif.C27_exact",
    "Verif.C27_always_wrong_false",
    "Verif.C27_isda_partial",
    "Verif.C27_full_year_false"
   ],
   "note": "False as stated: both partial-year terms have the wrong sign; C27_always_wrong_false shows that the result is wrong for every pair of different dates, C27_exact gives the value."
  },
  {
   "property": "C28",
   "status": "partial",
   "theorems": [
    "Verif.C28_exact",
    "Verif.C28_next_month",
    "Verif.C28_month_start_false",
    "Verif.C28_easter_panic_false",
    "Verif.C28_september_false",
    "Verif.C28_same_month_partial",
    "Verif.C28_one_day_false",
    "Verif.C28_cross_month_false"
   ],
   "note": "False as stated. The exact value is proved for every ordered pair of dates: within a month (C28_same_month_partial), across months (C28_exact, C28_next_month), and for end dates on the first of a month, where it counts to the end of the date type or panics (C28_month_start_false, C28_easter_panic_false)."
  },
  {
   "property": "C29",
   "status": "partial",
   "theorems": [
    "Verif.C29_currencies",
    "Verif.C29_names",
    "Verif.C29_home_market",
    "Verif.C29_calendar_open_iff",
    "Verif.C29_calendar_closed_iff",
    "Verif.C29_spot_lag",
    "Verif.C29_cutoff",
    "Verif.C29_before_cutoff",
    "Verif.C29_after_cutoff",
    "Verif.C29_common_open_day",
    "Verif.C29_after_cutoff_exists",
    "Verif.C29_settlement",
    "Verif.C29_near_date",
    "Verif.C29_no_near_date",
    "Verif.C29_day_count",
    "Verif.C29_day_count_false"
   ],
   "note": "Proved for all 60 pairs: currencies, home markets, joint calendar, spot lags, cut-offs, effective valuation date, settlement, near dates and the day counters as coded. Refuted: Actual/360 for pairs of two Actual/360 money markets (C29_day_count_false)."
  },
  {
   "property": "C30",
   "status": "proved",
   "theorems": [
    "Verif.C30_none_before",
    "Verif.C30_none_few",
    "Verif.C30_cases",
    "Verif.C30_none_outside",
    "Verif.C30_exact",
    "Verif.C30_exact_duplicate",
    "Verif.C30_linear",
    "Verif.C30_no_overshoot",
    "Verif.C30_order_irrelevant",
    "Verif.C30_error"
   ],
   "note": "All cases of get_forward; std sort and binary search enter through their documented contract only."
  },
  {
   "property": "C31",
   "status": "proved",
   "theorems": [
    "Verif.C31_value_foreign",
    "Verif.C31_outright",
    "Verif.C31_expired",
    "Verif.C31_mirror",
    "Verif.C31_linear",
    "Verif.C31_zero",
    "Verif.C31_delta",
    "Verif.C31_domestic",
    "Verif.C31_gamma_vega"
   ],
   "note": "All clauses, for every trade and market; the outright forward is spot plus the points of get_forward."
  },
  {
   "property": "C32",
   "status": "proved",
   "theorems": [
    "Verif.C32_parity",
    "Verif.C32_call_bounds",
    "Verif.C32_put_bounds",
    "Verif.C32_monotone",
    "Verif.C32_strict"
   ],
   "note": "For positive forwards and strikes, every variance; the strict version needs positive variance."
  },
  {
   "property": "C33",
   "status": "proved",
   "theorems": [
    "Verif.C33_delta",
    "Verif.C33_gamma",
    "Verif.C33_vega",
    "Verif.C33_flip_mtm",
    "Verif.C33_flip_delta",
    "Verif.C33_flip_gamma",
    "Verif.C33_flip_vega",
    "Verif.C33_value"
   ],
   "note": "Delta, gamma and vega are Mathlib derivatives (HasDerivAt) of the model price; every output flips with the direction."
  },
  {
   "property": "C34",
   "status": "proved",
   "theorems": [
    "Verif.C34_atm",
    "Verif.C34_call_put",
    "Verif.C34_rr_bf"
   ],
   "note": "Every quoted delta (call/put or risk reversal/butterfly) and ATM, any number of deltas; quoted deltas equal or at least 1e-9 apart (the code merges closer ones), positive volatilities. When a delta carries both a call/put pair and a risk reversal/butterfly the code uses the former, hence the hypothesis in C34_rr_bf."
  },
  {
   "property": "C35",
   "status": "proved",
   "theorems": [
    "Verif.C35_strike_error",
    "Verif.C35_expiry_error",
    "Verif.C35_answered",
    "Verif.C35_interpolation",
    "Verif.C35_between",
    "Verif.C35_before",
    "Verif.C35_after",
    "Verif.C35_pillar",
    "Verif.C35_monotone"
   ],
   "note": "All clauses, plus totality (no panic) and global monotonicity of total variance across pillars and extrapolation."
  },
  {
   "property": "C36",
   "status": "partial",
   "theorems": [
    "Verif.C36_discount_pos",
    "Verif.C36_discount_valuation",
    "Verif.C36_discount_exists",
    "Verif.C36_rate_range",
    "Verif.C36_discount_le_one",
    "Verif.C36_forward",
    "Verif.C36_forward_exists",
    "Verif.C36_discount_le_one_hidden_false"
   ],
   "note": "Positivity, value one at the valuation date, the forward identity and existence are proved without restriction; the bound by one for non-negative rates needs all pillars visible: C36_discount_le_one_hidden_false refutes it for hidden pillars."
  },
  {
   "property": "C37",
   "status": "partial",
   "theorems": [
    "Verif.C37_pillar_false",
    "Verif.C37_extrapolation_false",
    "Verif.C37_pillar_partial",
    "Verif.C37_between_partial",
    "Verif.C37_flat_partial",
    "Verif.C37_hidden_first",
    "Verif.C37_hidden_between",
    "Verif.C37_hidden_end"
   ],
   "note": "False as stated: the lookup is for the following day and beyond the last pillar the first rate is used (C37_pillar_false, C37_extrapolation_false). The *_partial theorems give the actual values for curves without hidden pillars and C37_hidden_first, C37_hidden_between, C37_hidden_end those for curves with hidden pillars."
  },
  {
   "property": "C38",
   "status": "proved",
   "theorems": [
    "Verif.C38_shift_eq_bump",
    "Verif.C38_zero_shift",
    "Verif.C38_shift_add",
    "Verif.C38_shift_lowers"
   ],
   "note": "For pillars with pairwise distinct dates (with equal dates the interpolation divides by zero)."
  },
  {
   "property": "C39",
   "status": "proved",
   "theorems": [
    "Verif.C39_reprices",
    "Verif.C39_sign",
    "Verif.C39_increasing",
    "Verif.C39_discount"
   ],
   "note": "Repricing, sign, monotonicity and the stored discount factor, for quotes with 1 + tau * rate > 0 and settlement before maturity."
  },
  {
   "property": "C40",
   "status": "partial",
   "theorems": [
    "Verif.C40_contiguous",
    "Verif.C40_effective",
    "Verif.C40_count_partial",
    "Verif.C40_end_months",
    "Verif.C40_end_weeks",
    "Verif.C40_end_open",
    "Verif.C40_pay",
    "Verif.C40_pay_zero",
    "Verif.C40_reset",
    "Verif.C40_given",
    "Verif.C40_units_false",
    "Verif.C40_units_years_false",
    "Verif.C40_maturity_panic_false",
    "Verif.C40_maturity",
    "Verif.C40_zero_tenor_panics"
   ],
   "note": "Contiguity, effective date, end dates, pay and reset dates and balances are proved for every leg. The count duration/tenor holds when both are in the same unit (C40_count_partial); across units it is false (C40_units_false, C40_units_years_false) because the code divides the bare numbers."
  },
  {
   "property": "C41",
   "status": "proved",
   "theorems": [
    "Verif.C41_additive",
    "Verif.C41_sum",
    "Verif.C41_flip",
    "Verif.C41_scale",
    "Verif.C41_coupon",
    "Verif.C41_mtm",
    "Verif.C41_npv",
    "Verif.C41_shift",
    "Verif.C41_dv01",
    "Verif.C41_gamma",
    "Verif.C41_gamma_modes"
   ],
   "note": "Any number of legs and periods; curve with distinct pillar dates for the shift clauses (duplicated dates make the lookup ambiguous). C41_mtm assumes day counts exist where year fractions do; C41_npv needs no such hypothesis."
  },
  {
   "property": "C42",
   "status": "proved",
   "theorems": [
    "Verif.C42_float",
    "Verif.C42_float_generated",
    "Verif.C42_fixed",
    "Verif.C42_par"
   ],
   "note": "Telescoping for every contiguous schedule with a constant balance, also for generated schedules; par coupon as an equivalence."
  },
  {
   "property": "C43",
   "status": "proved",
   "theorems": [
    "Verif.C43_parity",
    "Verif.C43_same_failures",
    "Verif.C43_parity_swap",
    "Verif.C43_cap_intrinsic",
    "Verif.C43_nonneg",
    "Verif.C43_flip",
    "Verif.C43_monotone_vol",
    "Verif.C43_vega_nonneg",
    "Verif.C43_mtm",
    "Verif.C43_shift",
    "Verif.C43_dv01",
    "Verif.C43_gamma"
   ],
   "note": "Parity, its swap form, intrinsic bound, sign flip, monotonicity in the volatilities and non-negative vega; dv01/gamma as differences on bumped curves."
  },
  {
   "property": "C44",
   "status": "proved",
   "theorems": [
    "Verif.C44_backward_integral",
    "Verif.C44_forward",
    "Verif.C44_nonneg",
    "Verif.C44_monotone_sigma",
    "Verif.C44_antitone_time",
    "Verif.C44_between",
    "Verif.C44_continuous",
    "Verif.C44_expired"
   ],
   "note": "All clauses; in addition the backward-looking variance is identified with the integral of the squared linearly decaying volatility."
  },
  {
   "property": "C45",
   "status": "proved",
   "theorems": [
    "Verif.C45_targets",
    "Verif.C45_all_called",
    "Verif.C45_stops_at_error",
    "Verif.C45_attach_keeps",
    "Verif.C45_drop_only_self"
   ],
   "note": "All histories of attach/drop/notify, both implementations (pruning and not); re-entrant updates (a RefCell double borrow) are not modelled."
  },
  {
   "property": "C46",
   "status": "proved",
   "theorems": [
    "Verif.C46_parity",
    "Verif.C46_intrinsic",
    "Verif.C46_time_value",
    "Verif.C46_monotone",
    "Verif.C46_vega",
    "Verif.C46_vega_expired"
   ],
   "note": "Parity, intrinsic and time value, monotonicity and vega for all real inputs."
  },
  {
   "property": "C47",
   "status": "proved",
   "theorems": [
    "Verif.C47_none",
    "Verif.C47_some",
    "Verif.C47_round_trip",
    "Verif.C47_default"
   ],
   "note": "None-iff, accuracy of the returned volatility and the round trip, in exact arithmetic for any tolerance."
  },
  {
   "property": "C48",
   "status": "proved",
   "theorems": [
    "Verif.C48_mean_start",
    "Verif.C48_mean_between",
    "Verif.C48_mean_monotone",
    "Verif.C48_mean_tendsto",
    "Verif.C48_mean_ode",
    "Verif.C48_variance_ode",
    "Verif.C48_variance_nonneg",
    "Verif.C48_variance_pos",
    "Verif.C48_variance_tendsto",
    "Verif.C48_step_nonneg",
    "Verif.C48_path_nonneg",
    "Verif.C48_step_euler",
    "Verif.C48_sqrt_mean_series",
    "Verif.C48_sqrt_mean_le",
    "Verif.C48_sqrt_mean_small_time_false",
    "Verif.C48_sqrt_mean_degenerate",
    "Verif.C48_sqrt_mean_infinity",
    "Verif.C48_proxy"
   ],
   "note": "All clauses, with the mean and variance identified as solutions of the CIR moment equations. The helper sqrt_mean_tol disagrees with its own comment at small times (C48_sqrt_mean_small_time_false), which is outside the statement."
  },
  {
   "property": "C49",
   "status": "partial",
   "theorems": [
    "Verif.C49_b_self",
    "Verif.C49_b_integral",
    "Verif.C49_b_compose",
    "Verif.C49_kernel_false",
    "Verif.C49_b_sign",
    "Verif.C49_short_rate_variance",
    "Verif.C49_short_rate_variance_nonneg",
    "Verif.C49_short_rate_variance_compose",
    "Verif.C49_bond_log_variance_partial",
    "Verif.C49_bond_log_variance_false",
    "Verif.C49_bond_log_variance_panics",
    "Verif.C49_bond_log_variance_nonneg_partial",
    "Verif.C49_bond_log_variance_nonneg_false",
    "Verif.C49_bond_log_variance_additive",
    "Verif.C49_discount_initial",
    "Verif.C49_discount_maturity",
    "Verif.C49_discount_rate",
    "Verif.C49_discount_convexity",
    "Verif.C49_discount_short_end",
    "Verif.C49_step_drift"
   ],
   "note": "The kernel, short-rate variance and affine bond clauses are proved (the kernel as an integral for lambda = 0 or |lambda| >= 1e-12; below it the code switches to the Ho-Lee limit, C49_kernel_false). bond_log_variance equals its integral and is non-negative only in the Ho-Lee case (C49_bond_log_variance_partial); for mean reversion the antiderivative has wrong signs (C49_bond_log_variance_false, C49_bond_log_variance_nonneg_false)."
  },
  {
   "property": "C50",
   "status": "partial",
   "theorems": [
    "Verif.C50_grid",
    "Verif.C50_captured_partial",
    "Verif.C50_total",
    "Verif.C50_states_at_partial",
    "Verif.C50_lost_observation_false",
    "Verif.C50_gbm_positive",
    "Verif.C50_gbm_exponential",
    "Verif.C50_gbm_mean",
    "Verif.C50_bm_moments",
    "Verif.C50_drift_exact"
   ],
   "note": "Grid, order, one state per date and the fold are proved when every step has positive length in the day counter (C50_captured_partial). A day counter that gives a zero-length step loses observations (C50_lost_observation_false)."
  },
  {
   "property": "C51",
   "status": "proved",
   "theorems": [
    "Verif.C51_value",
    "Verif.C51_not_worse",
    "Verif.C51_iterations",
    "Verif.C51_nan_start",
    "Verif.C51_converged",
    "Verif.C51_total",
    "Verif.C51_moves",
    "Verif.C51_centroid",
    "Verif.C51_shrink",
    "Verif.C51_progress",
    "Verif.C51_rules",
    "Verif.C51_volume",
    "Verif.C51_initial",
    "Verif.C51_nondegenerate"
   ],
   "note": "Any objective (including one that returns NaN), any dimension and options; NaN is modelled as an unordered value. C51_nan_start says what happens if the start value is NaN."
  },
  {
   "property": "C52",
   "status": "proved",
   "theorems": [
    "Verif.C52_factor",
    "Verif.C52_iff",
    "Verif.C52_unique",
    "Verif.C52_correlation4"
   ],
   "note": "Any size; also uniqueness of the factor and the 4x4 correlation matrix of the FX Hull-White model."
  },
  {
   "property": "C53",
   "status": "partial",
   "theorems": [
    "Verif.C53_new",
    "Verif.C53_atm",
    "Verif.C53_flat",
    "Verif.C53_positive_partial",
    "Verif.C53_positive_moderate_partial",
    "Verif.C53_positive_false",
    "Verif.C53_series_false",
    "Verif.C53_symmetric",
    "Verif.C53_x_symmetric",
    "Verif.C53_scaling",
    "Verif.C53_atm_limit",
    "Verif.C53_step",
    "Verif.C53_path",
    "Verif.C53_simulate",
    "Verif.C53_absorbing"
   ],
   "note": "At-the-money equality, continuity through the money, flat smile, symmetry, scaling and all path clauses are proved. Positivity holds exactly when the expiry correction is positive (C53_positive_partial); it is false for some admissible parameters (C53_positive_false). The second-order term of the small-argument series has the wrong sign (C53_series_false)."
  },
  {
   "property": "C54",
   "status": "proved",
   "theorems": [
    "Verif.C54_linear",
    "Verif.C54_flat",
    "Verif.C54_node",
    "Verif.C54_bounds",
    "Verif.C54_pillar",
    "Verif.C54_beyond",
    "Verif.C54_stripped",
    "Verif.C54_total"
   ],
   "note": ""
  },
  {
   "property": "C55",
   "status": "partial",
   "theorems": [
    "Verif.C55_reprices",
    "Verif.C55_nonrectangular_false"
   ],
   "note": "Proved for rectangular grids (every strike quoted to every maturity, strikes equal or at least 1e-12 apart, no point quoted twice). False for ragged grids, which the documentation calls supported (C55_nonrectangular_false)."
  },
  {
   "property": "C56",
   "status": "partial",
   "theorems": [
    "Verif.C56_settle",
    "Verif.C56_maturity",
    "Verif.C56_anchor_partial",
    "Verif.C56_anchor_first",
    "Verif.C56_gap",
    "Verif.C56_gap_false",
    "Verif.C56_forward",
    "Verif.C56_implied",
    "Verif.C56_zero_partial",
    "Verif.C56_first",
    "Verif.C56_first_false"
   ],
   "note": "Proved: settlement and maturity dates, implied rate, forward repricing, anchor choice when a pillar covers the settlement date, zero rate once a futures pillar exists. False otherwise: a settlement date beyond all pillars is anchored on the first pillar (C56_gap_false); the zero rate of the first futures is a forward rate from the last pillar (C56_first_false)."
  },
  {
   "property": "C57",
   "status": "partial",
   "theorems": [
    "Verif.C57_blocks_partial",
    "Verif.C57_cash_partial",
    "Verif.C57_cash_repeat",
    "Verif.C57_cash_false",
    "Verif.C57_needs_cash",
    "Verif.C57_needs_cash_panic",
    "Verif.C57_futures_chain",
    "Verif.C57_blind",
    "Verif.C57_solvable_false",
    "Verif.C57_repriced_false"
   ],
   "note": "Proved: the three blocks, one cash pillar per quote in increasing order when maturities differ, chain of futures, and each swap worth nothing on the curve ending with its own pillar. False: cash quotes with equal maturities are repeated (C57_cash_false); the rate solved for does not enter the discount factor at the swap maturity (C57_blind, C57_solvable_false); swaps are not repriced by the final curve (C57_repriced_false)."
  },
  {
   "property": "C58",
   "status": "partial",
   "theorems": [
    "Verif.C58_target",
    "Verif.C58_unitedKingdom",
    "Verif.C58_switzerland",
    "Verif.C58_germany",
    "Verif.C58_frankfurt",
    "Verif.C58_xetra",
    "Verif.C58_eurex",
    "Verif.C58_euwax",
    "Verif.C58_paris",
    "Verif.C58_france_partial",
    "Verif.C58_italy",
    "Verif.C58_milan",
    "Verif.C58_austria",
    "Verif.C58_vienna",
    "Verif.C58_denmark",
    "Verif.C58_norway",
    "Verif.C58_sweden",
    "Verif.C58_finland",
    "Verif.C58_iceland",
    "Verif.C58_czechRepublic",
    "Verif.C58_slovakia",
    "Verif.C58_hungary",
    "Verif.C58_poland",
    "Verif.C58_romania",
    "Verif.C58_ukraine_partial",
    "Verif.C58_wse",
    "Verif.C58_defaults_europe",
    "Verif.C58_france_false",
    "Verif.C58_ukraine_false",
    "Verif.C58_us",
    "Verif.C58_us_nerc",
    "Verif.C58_us_fed_partial",
    "Verif.C58_us_bonds",
    "Verif.C58_us_sofr",
    "Verif.C58_tsx",
    "Verif.C58_canada",
    "Verif.C58_mexico",
    "Verif.C58_brazil",
    "Verif.C58_bovespa",
    "Verif.C58_argentina_partial",
    "Verif.C58_southAfrica",
    "Verif.C58_botswana",
    "Verif.C58_asx",
    "Verif.C58_australia",
    "Verif.C58_wellington",
    "Verif.C58_auckland",
    "Verif.C58_nyse_partial",
    "Verif.C58_nyse",
    "Verif.C58_nyse_false",
    "Verif.C58_us_libor",
    "Verif.C58_us_fed_false",
    "Verif.C58_argentina_false",
    "Verif.C58_japan_partial",
    "Verif.C58_japan",
    "Verif.C58_japan_false",
    "Verif.C58_chile",
    "Verif.C58_defaults_world"
   ],
   "note": "Proved for TARGET and the calendars of 27 countries, all markets. False for French settlement, Ukraine, Argentina, the Federal Reserve, NYSE election days before 1981 and Japan outside 2017-2030 (C58_*_false); the _partial theorems state what is coded there. Calendars that are plain tables of dates are covered by C79 and C80."
  },
  {
   "property": "C59",
   "status": "partial",
   "theorems": [
    "Verif.C59_value_partial",
    "Verif.C59_spec_unique",
    "Verif.C59_correct_iff",
    "Verif.C59_half_year_false",
    "Verif.C59_reversed_false"
   ],
   "note": "The whole years and the denominator are right (C59_value_partial), but the remainder is subtracted: the result is correct exactly for whole numbers of years (C59_correct_iff); C59_half_year_false and C59_reversed_false are witnesses."
  },
  {
   "property": "C60",
   "status": "partial",
   "theorems": [
    "Verif.C60_schedule",
    "Verif.C60_constant_schedule",
    "Verif.C60_moments",
    "Verif.C60_vol_vol",
    "Verif.C60_term_structure",
    "Verif.C60_no_vol_vol",
    "Verif.C60_constant",
    "Verif.C60_correlation",
    "Verif.C60_correlation_neg",
    "Verif.C60_correlation_range_false",
    "Verif.C60_constant_omega_false"
   ],
   "note": "Moments, effective vol-vol, term structure and correlation identities are proved for every schedule; the documented exact return of a constant omega or rho and the range of the correlation are false (C60_constant_omega_false, C60_correlation_range_false)."
  },
  {
   "property": "C61",
   "status": "partial",
   "theorems": [
    "Verif.C61_chi",
    "Verif.C61_psi",
    "Verif.C61_default_range",
    "Verif.C61_setters",
    "Verif.C61_total",
    "Verif.C61_call_series",
    "Verif.C61_put_series",
    "Verif.C61_parity",
    "Verif.C61_call_error",
    "Verif.C61_put_error",
    "Verif.C61_put_total_error",
    "Verif.C61_call_total_error",
    "Verif.C61_converges",
    "Verif.C61_outside_false"
   ],
   "note": "Proved for strikes whose logarithm lies in the truncation range (parity without restriction). Outside the range the limits of integration are reversed and a worthless call gets a positive price (C61_outside_false)."
  },
  {
   "property": "C62",
   "status": "partial",
   "theorems": [
    "Verif.C62_panics",
    "Verif.C62_tau_range",
    "Verif.C62_divisor",
    "Verif.C62_divisor_martingale",
    "Verif.C62_zero",
    "Verif.C62_martingale",
    "Verif.C62_conjugate",
    "Verif.C62_cached",
    "Verif.C62_riccati",
    "Verif.C62_damping",
    "Verif.C62_affine",
    "Verif.C62_integrand",
    "Verif.C62_drift_partial",
    "Verif.C62_two_interval_gap",
    "Verif.C62_drift_false",
    "Verif.C62_heston",
    "Verif.C62_modulus",
    "Verif.C62_black_scholes"
   ],
   "note": "All parts proved except that A is the Simpson sum of the required rate: the code evaluates the rate coefficients at calendar time s while C is at time to maturity s (C62_drift_false). Proved when the variance is not coupled to the short rates (C62_drift_partial)."
  },
  {
   "property": "C63",
   "status": "partial",
   "theorems": [
    "Verif.C63_new",
    "Verif.C63_new_ordered",
    "Verif.C63_active",
    "Verif.C63_loading",
    "Verif.C63_a_side",
    "Verif.C63_variance",
    "Verif.C63_panics",
    "Verif.C63_segments",
    "Verif.C63_default",
    "Verif.C63_heston_a",
    "Verif.C63_heston_c",
    "Verif.C63_advance",
    "Verif.C63_components_partial",
    "Verif.C63_affine",
    "Verif.C63_zero",
    "Verif.C63_martingale",
    "Verif.C63_divisor",
    "Verif.C63_modulus",
    "Verif.C63_expiry_partial",
    "Verif.C63_expiry_false"
   ],
   "note": "All parts proved except: for an expiry inside the tenor Libors accruing after the expiry enter (C63_expiry_false; proved when the tenor ends by the expiry, C63_expiry_partial). C63_components_partial leaves the Simpson sums of f as sums; their convergence is C83."
  },
  {
   "property": "C64",
   "status": "partial",
   "theorems": [
    "Verif.C64_softplus",
    "Verif.C64_softplus_error",
    "Verif.C64_softplus_monotone_false",
    "Verif.C64_error_bound",
    "Verif.C64_error_zero",
    "Verif.C64_sabr",
    "Verif.C64_sabr_exact",
    "Verif.C64_sabr_panics",
    "Verif.C64_hhw",
    "Verif.C64_hhw_bounded",
    "Verif.C64_clip",
    "Verif.C64_hhw_exact",
    "Verif.C64_hhw_forward",
    "Verif.C64_hhw_reprice",
    "Verif.C64_hhw_panics",
    "Verif.C64_hlmm_discount",
    "Verif.C64_hlmm_discount_false",
    "Verif.C64_hlmm",
    "Verif.C64_hlmm_invalid",
    "Verif.C64_hlmm_panics",
    "Verif.C64_hlmm_reprice",
    "Verif.C64_grid",
    "Verif.C64_strip",
    "Verif.C64_strip_total",
    "Verif.C64_wrappers",
    "Verif.C64_forward_unused",
    "Verif.C64_surface_to_sabr"
   ],
   "note": "Everything proved except the last sentence of the statement: for an expiry before the last tenor date fx_hlmm discount_factor is the bond to the last date (C64_hlmm_discount_false; C64_hlmm_discount gives what it computes)."
  },
  {
   "property": "C65",
   "status": "partial",
   "theorems": [
    "Verif.C65_new",
    "Verif.C65_new_ordered",
    "Verif.C65_eta",
    "Verif.C65_decay",
    "Verif.C65_loading",
    "Verif.C65_a_side",
    "Verif.C65_variance",
    "Verif.C65_f_cached",
    "Verif.C65_panics",
    "Verif.C65_segments",
    "Verif.C65_resolution",
    "Verif.C65_live_partial",
    "Verif.C65_default",
    "Verif.C65_closed_forms",
    "Verif.C65_components_partial",
    "Verif.C65_zero",
    "Verif.C65_martingale",
    "Verif.C65_modulus",
    "Verif.C65_expiry_partial",
    "Verif.C65_expiry_false",
    "Verif.C65_tail_false"
   ],
   "note": "The last sentence is false for expiries other than the last tenor date (C65_expiry_false, C65_tail_false; C65_expiry_partial, C65_live_partial give the good cases). The convergence of the Simpson sums of the cross terms is C83."
  },
  {
   "property": "C66",
   "status": "partial",
   "theorems": [
    "Verif.C66_valid",
    "Verif.C66_knots",
    "Verif.C66_displacement",
    "Verif.C66_step",
    "Verif.C66_frozen",
    "Verif.C66_covariance",
    "Verif.C66_simulate",
    "Verif.C66_drift",
    "Verif.C66_tenor_bonds",
    "Verif.C66_back_stub",
    "Verif.C66_front_stub",
    "Verif.C66_maturity",
    "Verif.C66_bank",
    "Verif.C66_initial",
    "Verif.C66_first_step_false",
    "Verif.C66_snapshot_false",
    "Verif.C66_start_false",
    "Verif.C66_ho_lee_partial",
    "Verif.C66_ho_lee_false",
    "Verif.C66_simulate_all"
   ],
   "note": "Refuted in part: C66_first_step_false, C66_snapshot_false, C66_start_false, C66_ho_lee_false (C66_ho_lee_partial gives the exact factor). Driftless is stated by the generator of the diffusion; the martingale property and the Euler error are not modelled."
  },
  {
   "property": "C67",
   "status": "partial",
   "theorems": [
    "Verif.C67_new",
    "Verif.C67_step",
    "Verif.C67_noise",
    "Verif.C67_fx_mean",
    "Verif.C67_quanto",
    "Verif.C67_moments",
    "Verif.C67_martingale",
    "Verif.C67_foreign_mean",
    "Verif.C67_domestic_mean",
    "Verif.C67_scheme_mean",
    "Verif.C67_simulate",
    "Verif.C67_dated",
    "Verif.C67_theta_fn_false",
    "Verif.C67_full_truncation_false"
   ],
   "note": "Refuted in part: C67_full_truncation_false (clamped variance is biased upwards), C67_theta_fn_false (simulate ignores with_theta_fn). The distribution of the seeded generator is not modelled."
  },
  {
   "property": "C68",
   "status": "partial",
   "theorems": [
    "Verif.C68_new",
    "Verif.C68_initial",
    "Verif.C68_step",
    "Verif.C68_noise",
    "Verif.C68_domestic",
    "Verif.C68_foreign_partial",
    "Verif.C68_fx_mean",
    "Verif.C68_martingale",
    "Verif.C68_moments",
    "Verif.C68_quanto",
    "Verif.C68_simulate",
    "Verif.C68_dated",
    "Verif.C68_cross_false",
    "Verif.C68_foreign_x_false",
    "Verif.C68_account_false",
    "Verif.C68_full_truncation_false"
   ],
   "note": "Refuted in part: C68_foreign_x_false (the foreign x lacks the quanto shift; C68_foreign_partial is the rest), C68_cross_false (cross correlations averaged), C68_account_false (accounts are not those of the forward market model), C68_full_truncation_false. The distribution of the seeded generator is not modelled."
  },
  {
   "property": "C69",
   "status": "proved",
   "theorems": [
    "Verif.C69_build",
    "Verif.C69_band",
    "Verif.C69_bilinear",
    "Verif.C69_continuous",
    "Verif.C69_stencils",
    "Verif.C69_recovers",
    "Verif.C69_term_structure",
    "Verif.C69_flat",
    "Verif.C69_arbitrage",
    "Verif.C69_band_false",
    "Verif.C69_scale_false"
   ],
   "note": "The documentation is refuted in part: C69_band_false (volatilities outside 1%-200%), C69_scale_false (the absolute floor on the denominator makes the surface depend on the unit of the rate)."
  },
  {
   "property": "C70",
   "status": "partial",
   "theorems": [
    "Verif.C70_new",
    "Verif.C70_at",
    "Verif.C70_noise",
    "Verif.C70_range",
    "Verif.C70_simulate_partial",
    "Verif.C70_constant_alpha",
    "Verif.C70_alpha_false",
    "Verif.C70_flat",
    "Verif.C70_reduces",
    "Verif.C70_reduces_none",
    "Verif.C70_volatility",
    "Verif.C70_martingale_partial",
    "Verif.C70_martingale_false",
    "Verif.C70_straddle_false",
    "Verif.C70_dated",
    "Verif.C70_initial"
   ],
   "note": "Refuted in part: C70_alpha_false (alpha values after the first are ignored), C70_martingale_false (the truncated forward has mean above the initial one for every parameter set), C70_straddle_false (a step across a knot uses the value at its middle, and at a knot the value before it)."
  },
  {
   "property": "C71",
   "status": "partial",
   "theorems": [
    "Verif.C71_with_bins",
    "Verif.C71_bins",
    "Verif.C71_simulate",
    "Verif.C71_range",
    "Verif.C71_volatility",
    "Verif.C71_mimicking",
    "Verif.C71_local_vol",
    "Verif.C71_martingale_partial",
    "Verif.C71_martingale_false",
    "Verif.C71_ties_false",
    "Verif.C71_zero_false"
   ],
   "note": "Refuted in part: C71_martingale_false (strict upward drift from the cut at zero), C71_ties_false (particles with equal forwards in different bins), C71_zero_false (particles at zero restart from 1e-12 with the mean of another bin)."
  },
  {
   "property": "C72",
   "status": "partial",
   "theorems": [
    "Verif.C72_new",
    "Verif.C72_step",
    "Verif.C72_base",
    "Verif.C72_noise",
    "Verif.C72_means",
    "Verif.C72_quanto",
    "Verif.C72_martingale",
    "Verif.C72_fx_martingale",
    "Verif.C72_full_truncation_false",
    "Verif.C72_simulate",
    "Verif.C72_dated"
   ],
   "note": "Refuted in part: C72_full_truncation_false (the stored stock variance is clamped, so its mean exceeds that of the documented full-truncation scheme). Everything else is proved."
  },
  {
   "property": "C73",
   "status": "partial",
   "theorems": [
    "Verif.C73_discount",
    "Verif.C73_discount_false",
    "Verif.C73_fit",
    "Verif.C73_exact",
    "Verif.C73_invalid",
    "Verif.C73_panics",
    "Verif.C73_reprice",
    "Verif.C73_forward",
    "Verif.C73_wrapper"
   ],
   "note": "Refuted in part: C73_discount_false (before the last tenor date the discount factor is that of the last date, not of the expiry). Convergence of the optimiser is not claimed."
  },
  {
   "property": "C74",
   "status": "partial",
   "theorems": [
    "Verif.C74_vol_vol_monotone",
    "Verif.C74_nu",
    "Verif.C74_alpha",
    "Verif.C74_alpha_monotone_false",
    "Verif.C74_rho",
    "Verif.C74_rho_exact",
    "Verif.C74_single",
    "Verif.C74_calibrate",
    "Verif.C74_panics",
    "Verif.C74_surface",
    "Verif.C74_clamp_false",
    "Verif.C74_single_run"
   ],
   "note": "Refuted in part: C74_alpha_monotone_false, C74_clamp_false. Success of the stages is proved for one pillar; for more pillars the theorems describe every returned result."
  },
  {
   "property": "C75",
   "status": "partial",
   "theorems": [
    "Verif.C75_thirty360",
    "Verif.C75_thirty360_two_days",
    "Verif.C75_thirty360_false",
    "Verif.C75_thirty365_false",
    "Verif.C75_business252_false",
    "Verif.C75_round_trip",
    "Verif.C75_actual360_false",
    "Verif.C75_close",
    "Verif.C75_guess",
    "Verif.C75_isda_false",
    "Verif.C75_euro_false"
   ],
   "note": "Refuted in part: C75_actual360_false, C75_isda_false, C75_euro_false, C75_thirty360_false, C75_thirty365_false, C75_business252_false. Round trip settled as an equivalence for the four actual counters and up to two days for 30/360."
  },
  {
   "property": "C76",
   "status": "partial",
   "theorems": [
    "Verif.C76_defined",
    "Verif.C76_vol_shift",
    "Verif.C76_analytic",
    "Verif.C76_bracket",
    "Verif.C76_vega_parity",
    "Verif.C76_floor_dv01",
    "Verif.C76_rate_delta",
    "Verif.C76_gamma",
    "Verif.C76_cap_dv01_false"
   ],
   "note": "Refuted in part: C76_cap_dv01_false (a long cap can lose when rates rise). Everything else is proved."
  },
  {
   "property": "C77",
   "status": "partial",
   "theorems": [
    "Verif.C77_total",
    "Verif.C77_market_partial",
    "Verif.C77_aonia_false",
    "Verif.C77_cdor_false",
    "Verif.C77_overnight_false",
    "Verif.C77_euribor_settle",
    "Verif.C77_euribor_weeks",
    "Verif.C77_euribor_months",
    "Verif.C77_euribor_years"
   ],
   "note": "Refuted in part: C77_aonia_false, C77_cdor_false, C77_overnight_false. Everything else is proved."
  },
  {
   "property": "C78",
   "status": "partial",
   "theorems": [
    "Verif.C78_fx_raw",
    "Verif.C78_fx_error",
    "Verif.C78_quoted_points",
    "Verif.C78_outside",
    "Verif.C78_atm",
    "Verif.C78_call_put",
    "Verif.C78_flat",
    "Verif.C78_for_linear",
    "Verif.C78_for_linear_panic",
    "Verif.C78_forward_points",
    "Verif.C78_forward_false",
    "Verif.C78_lag_false",
    "Verif.C78_parity_false",
    "Verif.C78_fx_rates",
    "Verif.C78_ir_linear",
    "Verif.C78_ir_rates",
    "Verif.C78_ir_refuses",
    "Verif.C78_ir_reprices",
    "Verif.C78_ir_vol",
    "Verif.C78_stale_false"
   ],
   "note": "Refuted in part: C78_forward_false, C78_lag_false, C78_parity_false, C78_stale_false. Everything else is proved."
  },
  {
   "property": "C79",
   "status": "partial",
   "theorems": [
    "Verif.C79_telAviv_partial",
    "Verif.C79_telAviv",
    "Verif.C79_telAviv_2001_false",
    "Verif.C79_telAviv_2038_false",
    "Verif.C79_shir_partial",
    "Verif.C79_shir",
    "Verif.C79_shir_false",
    "Verif.C79_telAviv_weekend_false",
    "Verif.C79_turkey_ramadan",
    "Verif.C79_turkey_sacrifice",
    "Verif.C79_turkey_2011_false",
    "Verif.C79_turkey_2015_false",
    "Verif.C79_indonesia",
    "Verif.C79_singapore_islamic",
    "Verif.C79_singapore_islamic_false",
    "Verif.C79_china",
    "Verif.C79_hongKong",
    "Verif.C79_hongKong_substitute",
    "Verif.C79_hongKong_2014_false",
    "Verif.C79_korea",
    "Verif.C79_taiwan",
    "Verif.C79_taiwan_2010_false",
    "Verif.C79_singapore",
    "Verif.C79_singapore_false"
   ],
   "note": "Refuted in part: misprinted or missing years (C79_telAviv_2001_false, C79_telAviv_2038_false, C79_shir_false, C79_turkey_2011_false, C79_turkey_2015_false, C79_taiwan_2010_false, C79_singapore_false, C79_singapore_islamic_false) and the weekend of Tel Aviv (C79_telAviv_weekend_false). Proved for all other years of the tables."
  },
  {
   "property": "C80",
   "status": "proved",
   "theorems": [
    "Verif.C80_china",
    "Verif.C80_taiwan",
    "Verif.C80_turkey",
    "Verif.C80_korea",
    "Verif.C80_moscow",
    "Verif.C80_russia",
    "Verif.C80_hongKong",
    "Verif.C80_singapore",
    "Verif.C80_indonesia",
    "Verif.C80_india",
    "Verif.C80_thailand",
    "Verif.C80_india_gap",
    "Verif.C80_telAviv",
    "Verif.C80_shir"
   ],
   "note": ""
  },
  {
   "property": "C81",
   "status": "partial",
   "theorems": [
    "Verif.C81_law",
    "Verif.C81_generator",
    "Verif.C81_series",
    "Verif.C81_sqrt_mean",
    "Verif.C81_small_time",
    "Verif.C81_small_time_false",
    "Verif.C81_tolerance_false",
    "Verif.C81_infinity",
    "Verif.C81_start",
    "Verif.C81_feller"
   ],
   "note": "Refuted in part: accurate to the tolerance (C81_tolerance_false in the series branch, C81_small_time_false in the small-time branch). Proved: the law, two-sided error bounds of both branches, the limits and the Feller condition."
  },
  {
   "property": "C82",
   "status": "partial",
   "theorems": [
    "Verif.C82_dv01",
    "Verif.C82_dv01_spot",
    "Verif.C82_duration",
    "Verif.C82_duration_pos",
    "Verif.C82_gamma_even",
    "Verif.C82_gamma_spot",
    "Verif.C82_gamma_scale",
    "Verif.C82_receiver_false",
    "Verif.C82_duration_false"
   ],
   "note": "Refuted in part: the documented sign of dv01 for every receiver (C82_receiver_false) and a positive duration (C82_duration_false). Signs under stated conditions, duration identity, and parity, sign and scaling of gamma are proved."
  },
  {
   "property": "C83",
   "status": "proved",
   "theorems": [
    "Verif.C83_root_error",
    "Verif.C83_root_error_series",
    "Verif.C83_root_continuous",
    "Verif.C83_hlmm",
    "Verif.C83_hlmm_limit",
    "Verif.C83_fmm",
    "Verif.C83_fmm_limit"
   ],
   "note": "Limits, not rates. Parameters below the thresholds of the code are excluded by Cir.Fine."
  },
  {
   "property": "C84",
   "status": "partial",
   "theorems": [
    "Verif.C84_value",
    "Verif.C84_vega",
    "Verif.C84_delta_strike",
    "Verif.C84_gamma_strike",
    "Verif.C84_delta_false",
    "Verif.C84_synthetic_foreign",
    "Verif.C84_synthetic_domestic"
   ],
   "note": "Value and vega agree between the two currencies of the notional. The claim is false for delta and gamma, which are multiplied by the strike when the notional is domestic (C84_delta_false), and for the value of a synthetic forward on a foreign notional, which has the opposite sign (C84_synthetic_foreign)."
  },
  {
   "property": "C85",
   "status": "proved",
   "theorems": [
    "Verif.C85_levels",
    "Verif.C85_black",
    "Verif.C85_black_forward",
    "Verif.C85_bachelier",
    "Verif.C85_fx",
    "Verif.C85_cap"
   ],
   "note": "Over the real numbers; the normal distribution function is modelled as the integral of its density."
  },
  {
   "property": "C86",
   "status": "proved",
   "theorems": [
    "Verif.C86_converges",
    "Verif.C86_error",
    "Verif.C86_brownian",
    "Verif.C86_geometric",
    "Verif.C86_lognormal",
    "Verif.C86_option"
   ],
   "note": "The draws of the random generator are taken to be independent standard normals. Day counters must increase strictly along the grid (see C50)."
  },
  {
   "property": "C87",
   "status": "proved",
   "theorems": [
    "Verif.C87_schedule",
    "Verif.C87_tenors",
    "Verif.C87_fmm",
    "Verif.C87_betas",
    "Verif.C87_vol_schedule",
    "Verif.C87_quantile",
    "Verif.C87_hagan",
    "Verif.C87_cir",
    "Verif.C87_fx_surface",
    "Verif.C87_aligned",
    "Verif.C87_effective",
    "Verif.C87_simulate",
    "Verif.C87_hlmm_parameters",
    "Verif.C87_fx_fmm_parameters"
   ],
   "note": "Real arithmetic: NaN and infinite inputs are outside the model."
  },
  {
   "property": "C88",
   "status": "partial",
   "theorems": [
    "Verif.C88_average",
    "Verif.C88_error",
    "Verif.C88_hhw",
    "Verif.C88_hhw_rate",
    "Verif.C88_hhw_parity",
    "Verif.C88_stock",
    "Verif.C88_stock_parity",
    "Verif.C88_td_sabr",
    "Verif.C88_td_sabr_forward_false",
    "Verif.C88_td_sabr_vol",
    "Verif.C88_sabr",
    "Verif.C88_fx_fmm"
   ],
   "note": "All parts proved except the last: the average SABR forward converges to a number strictly above today's forward for every number of steps (C88_td_sabr_forward_false, C88_sabr). The draws of the generator are taken to be independent standard normals."
  },
  {
   "property": "C89",
   "status": "proved",
   "theorems": [
    "Verif.C89_domestic_law",
    "Verif.C89_hull_white_law",
    "Verif.C89_rate_limit",
    "Verif.C89_sum_limit",
    "Verif.C89_fx_law",
    "Verif.C89_black",
    "Verif.C89_black_scholes",
    "Verif.C89_sabr_vol"
   ],
   "note": "The draws of the generator are taken to be independent standard normals. Deterministic case for the FX price: gamma and both rate volatilities zero, 0 <= kappa T/N <= 1."
  },
  {
   "property": "C90",
   "status": "partial",
   "theorems": [
    "Verif.C90_average_iff",
    "Verif.C90_sample",
    "Verif.C90_bounded",
    "Verif.C90_rate_false",
    "Verif.C90_one_step",
    "Verif.C90_bank_false"
   ],
   "note": "Refuted in part: C90_rate_false, C90_bank_false (averages of rates after two or more steps and of one over the bank account have no limit). The draws of the generator are taken to be independent standard normals over the reals."
  },
  {
   "property": "C91",
   "status": "partial",
   "theorems": [
    "Verif.C91_grid",
    "Verif.C91_causal",
    "Verif.C91_invariant",
    "Verif.C91_regular",
    "Verif.C91_sabr",
    "Verif.C91_td_sabr",
    "Verif.C91_fmm",
    "Verif.C91_hhw",
    "Verif.C91_stock",
    "Verif.C91_fx_fmm",
    "Verif.C91_fmm_time",
    "Verif.C91_sabr_signs",
    "Verif.C91_cir",
    "Verif.C91_hull_white_law",
    "Verif.C91_other_dates_false"
   ],
   "note": "Refuted in part: C91_other_dates_false (additional requested dates change the simulated states at the others). Heston/Hull-White only with the constant targets of its parameters, since its own loop knows no others (C67_theta_fn_false)."
  },
  {
   "property": "C92",
   "status": "partial",
   "theorems": [
    "Verif.C92_bond_mean",
    "Verif.C92_forward_bond",
    "Verif.C92_mean_error",
    "Verif.C92_variance_error",
    "Verif.C92_fitted",
    "Verif.C92_exact_fit_false",
    "Verif.C92_dated"
   ],
   "note": "Refuted in part: C92_exact_fit_false (for a rising linear forward curve the simulated mean is above the forward rate after every step). Error bounds for non-negative mean reversion with lambda times step at most one."
  },
  {
   "property": "C93",
   "status": "partial",
   "theorems": [
    "Verif.C93_decay",
    "Verif.C93_normal",
    "Verif.C93_hhw_law",
    "Verif.C93_variance",
    "Verif.C93_wide",
    "Verif.C93_converges",
    "Verif.C93_ten_deviations",
    "Verif.C93_default",
    "Verif.C93_default_range_false"
   ],
   "note": "Refuted in part: C93_default_range_false (the default range uses the mean variance only and misses a twentieth of the forward when the initial variance is far above it). Strikes inside the range; no volatility of variance for the FX-HHW1 statements."
  },
  {
   "property": "C94",
   "status": "partial",
   "theorems": [
    "Verif.C94_black",
    "Verif.C94_cos",
    "Verif.C94_hhw",
    "Verif.C94_hlmm",
    "Verif.C94_fmm",
    "Verif.C94_paths",
    "Verif.C94_simulators",
    "Verif.C94_sabr_paths",
    "Verif.C94_td_paths",
    "Verif.C94_implied",
    "Verif.C94_default_tolerance",
    "Verif.C94_small_unit",
    "Verif.C94_large_unit",
    "Verif.C94_implied_false",
    "Verif.C94_hhw_vols_false"
   ],
   "note": "Refuted in part: C94_implied_false and C94_hhw_vols_false (the default tolerance of the implied volatility is an absolute amount, in small units every volatility is 2.500000005). FX-HLMM and FX-FMM prices for ordered tenors with positive period factors."
  },
  {
   "property": "C95",
   "status": "partial",
   "theorems": [
    "Verif.C95_black",
    "Verif.C95_implied",
    "Verif.C95_correlations",
    "Verif.C95_involution",
    "Verif.C95_hhw_partial",
    "Verif.C95_prices",
    "Verif.C95_strikes",
    "Verif.C95_strikes_false",
    "Verif.C95_sabr",
    "Verif.C95_sabr_false"
   ],
   "note": "Refuted in part: C95_strikes_false (strikes of a smile have no premium adjustment) and C95_sabr_false (time term of the lognormal formula). C95_hhw_partial: deterministic rates or variance uncorrelated with the exchange rate."
  },
  {
   "property": "C96",
   "status": "partial",
   "theorems": [
    "Verif.C96_law",
    "Verif.C96_flat",
    "Verif.C96_high",
    "Verif.C96_low",
    "Verif.C96_hagan_puts_false",
    "Verif.C96_hagan_calls_false",
    "Verif.C96_hagan",
    "Verif.C96_fx_wings",
    "Verif.C96_fx_negative_false"
   ],
   "note": "Refuted in part: C96_hagan shows that Hagan volatilities leave no arbitrage only for beta = 1 and nu = 0 (witness strikes in C96_hagan_puts_false and C96_hagan_calls_false); C96_fx_negative_false (positive quotes, negative volatility beyond the quoted strikes). For beta = 1 the time term is assumed positive."
  },
  {
   "property": "C97",
   "status": "partial",
   "theorems": [
    "Verif.C97_swaps",
    "Verif.C97_own_date_false",
    "Verif.C97_futures",
    "Verif.C97_cash",
    "Verif.C97_caplets",
    "Verif.C97_fx_vol",
    "Verif.C97_forward_points",
    "Verif.C97_local_vol",
    "Verif.C97_local_vol_time",
    "Verif.C97_td_sabr"
   ],
   "note": "Refuted in part: C97_own_date_false (a longer swap moves the discount factor at the maturity of the one before it). Cap quotes must come in the order of their last fixings and later ones use strikes already quoted; swaps and futures are added at the end."
  },
  {
   "property": "C98",
   "status": "proved",
   "theorems": [
    "Verif.C98_black",
    "Verif.C98_bachelier",
    "Verif.C98_zero_rate",
    "Verif.C98_discount",
    "Verif.C98_forward_rate",
    "Verif.C98_forward_rate_false",
    "Verif.C98_caplet_vol",
    "Verif.C98_cap",
    "Verif.C98_fx_vol",
    "Verif.C98_forward_points"
   ],
   "note": "C98_forward_rate_false shows that for forward rates the factor (t1+t2)/(t2-t1) cannot be replaced by one or two. Curves have visible pillars in date order; the errors are those of pillars, nodes and smiles, not of the quotes these are solved from."
  },
  {
   "property": "C99",
   "status": "partial",
   "theorems": [
    "Verif.C99_martingale",
    "Verif.C99_black",
    "Verif.C99_fx",
    "Verif.C99_hagan",
    "Verif.C99_hagan_false",
    "Verif.C99_local_vol"
   ],
   "note": "Refuted in part: C99_hagan_false (wherever the slope of the formula in the expiry is negative a later option costs less; C99_hagan gives the exact range). One forward for both expiries."
  },
  {
   "property": "C100",
   "status": "proved",
   "theorems": [
    "Verif.C100_swap",
    "Verif.C100_fixed",
    "Verif.C100_float",
    "Verif.C100_par",
    "Verif.C100_cap",
    "Verif.C100_deposit"
   ],
   "note": "Curves whose pillars are visible and in order of their dates; year fractions different from zero."
  },
  {
   "property": "C101",
   "status": "partial",
   "theorems": [
    "Verif.C101_quote",
    "Verif.C101_cash",
    "Verif.C101_discount",
    "Verif.C101_strip",
    "Verif.C101_first",
    "Verif.C101_first_false",
    "Verif.C101_curve",
    "Verif.C101_discounts"
   ],
   "note": "Refuted in part: C101_first_false (the first futures multiplies errors of the deposits; C101_first bounds the factor). Pillars in order of their dates, futures settling from the valuation date on, no swaps."
  },
  {
   "property": "C102",
   "status": "proved",
   "theorems": [
    "Verif.C102_outright",
    "Verif.C102_forward",
    "Verif.C102_option_domestic",
    "Verif.C102_option_foreign"
   ],
   "note": "Curves whose pillars are visible and in order of their dates; quotes for distinct dates. Options: expiry not before the valuation date, positive strike, forward above its error, and spot above its error when the notional is foreign."
  },
  {
   "property": "C103",
   "status": "proved",
   "theorems": [
    "Verif.C103_curve",
    "Verif.C103_forward_rate",
    "Verif.C103_days",
    "Verif.C103_months",
    "Verif.C103_points",
    "Verif.C103_surface",
    "Verif.C103_vol",
    "Verif.C103_fx_forward",
    "Verif.C103_fx_option",
    "Verif.C103_caplet_vol",
    "Verif.C103_cap",
    "Verif.C103_cap_risk",
    "Verif.C103_swap",
    "Verif.C103_swap_risk"
   ],
   "note": "Quotes and expiries for distinct dates; swaps that carry their schedules. Calendars are not moved: generated schedules and settlement dates are supposed to move along."
  },
  {
   "property": "C104",
   "status": "proved",
   "theorems": [
    "Verif.C104_swap",
    "Verif.C104_swap_risk",
    "Verif.C104_mtm",
    "Verif.C104_mtm_false",
    "Verif.C104_surface",
    "Verif.C104_cash",
    "Verif.C104_caps",
    "Verif.C104_observations",
    "Verif.C104_smile",
    "Verif.C104_smile_false",
    "Verif.C104_sabr",
    "Verif.C104_hhw",
    "Verif.C104_hlmm",
    "Verif.C104_fmm"
   ],
   "note": "Inputs that can be told apart. Futures and swaps of a curve are outside the claim: they are stripped in the order given."
  }
 ]
}