import Verif.Props.ActActEuro
import Verif.Props.Adjust
import Verif.Props.Advance
import Verif.Props.Arbitrage
import Verif.Props.Business252
import Verif.Props.Calibrate
import Verif.Props.Cap
import Verif.Props.CapRisk
import Verif.Props.CapletSurface
import Verif.Props.Checks
import Verif.Props.Cholesky
import Verif.Props.CirLaw
import Verif.Props.ClosedForms
import Verif.Props.Cos
import Verif.Props.CosBlack
import Verif.Props.CurveStrip
import Verif.Props.DateShift
import Verif.Props.Dated
import Verif.Props.DayCount
import Verif.Props.Dupire
import Verif.Props.Easter
import Verif.Props.ExpectedPayoff
import Verif.Props.Expiries
import Verif.Props.Feasts
import Verif.Props.Fmm
import Verif.Props.FmmMc
import Verif.Props.Forwards
import Verif.Props.FxFmm
import Verif.Props.FxFmmCal
import Verif.Props.FxFmmSim
import Verif.Props.FxNotional
import Verif.Props.FxPair
import Verif.Props.FxTrade
import Verif.Props.FxVol
import Verif.Props.HhwChf
import Verif.Props.HhwSim
import Verif.Props.HhwStock
import Verif.Props.Hlmm
import Verif.Props.HolidaysEurope
import Verif.Props.HolidaysWorld
import Verif.Props.Horizon
import Verif.Props.HullWhite
import Verif.Props.HwFit
import Verif.Props.Imm
import Verif.Props.InputOrder
import Verif.Props.Inverse
import Verif.Props.Locality
import Verif.Props.MarketContext
import Verif.Props.MarketErrors
import Verif.Props.ModelMc
import Verif.Props.Observer
import Verif.Props.Optimize
import Verif.Props.Options
import Verif.Props.Period
import Verif.Props.Quadrature
import Verif.Props.QuoteErrors
import Verif.Props.RateIndex
import Verif.Props.Sabr
import Verif.Props.SabrEffective
import Verif.Props.SabrSlv
import Verif.Props.Sensitivity
import Verif.Props.Shipped
import Verif.Props.ShortRate
import Verif.Props.SimLaw
import Verif.Props.Simulation
import Verif.Props.SmileOrder
import Verif.Props.Swap
import Verif.Props.SwapRisk
import Verif.Props.SwapSensitivity
import Verif.Props.SwapValue
import Verif.Props.TargetOrder
import Verif.Props.TdSabr
import Verif.Props.TdSabrCal
import Verif.Props.Units
import Verif.Props.YfThirty
import Verif.Props.YfToDate
import Verif.Props.YieldCurve

/-! Prints the axioms every property theorem depends on (generated from MANIFEST.json). -/

#print axioms Verif.C01_following_iff
#print axioms Verif.C01_following_isLeast
#print axioms Verif.C01_following_panic_iff
#print axioms Verif.C02_preceding_iff
#print axioms Verif.C02_preceding_isGreatest
#print axioms Verif.C03_modifiedFollowing
#print axioms Verif.C03_modifiedPreceding
#print axioms Verif.C03_long_closure_leaves_month
#print axioms Verif.C04_firstHalf
#print axioms Verif.C04_secondHalf
#print axioms Verif.C05_business_day_fixed
#print axioms Verif.C05_result_open
#print axioms Verif.C05_result_valid
#print axioms Verif.C05_idempotent_partial
#print axioms Verif.C05_nearest_not_idempotent_false
#print axioms Verif.C06_following_mono
#print axioms Verif.C06_preceding_mono
#print axioms Verif.C07_nearest_exact
#print axioms Verif.C07_nearest_partial
#print axioms Verif.C07_nearest_returns_holiday_false
#print axioms Verif.C07_nearest_weekend_false
#print axioms Verif.C08_joint_open_iff
#print axioms Verif.C08_joint_closed_iff
#print axioms Verif.C08_joint_order_irrelevant
#print axioms Verif.C08_joint_flatten
#print axioms Verif.C08_adjusted_open_for_members
#print axioms Verif.C09_advance_forward_iff
#print axioms Verif.C09_advance_backward_iff
#print axioms Verif.C09_valid
#print axioms Verif.C09_round_trip
#print axioms Verif.C09_compose_same_sign
#print axioms Verif.C09_compose
#print axioms Verif.C10_advance_months_iff
#print axioms Verif.C10_advance_years_iff
#print axioms Verif.C10_advance_months_eom
#print axioms Verif.C10_eom_flag_moves_mid_month_dates
#print axioms Verif.C11_lastDayOfMonth
#print axioms Verif.C11_lastDayOfMonth_last_year_panics
#print axioms Verif.C11_endOfMonth
#print axioms Verif.C11_endOfMonth_sound
#print axioms Verif.C12_count_partial
#print axioms Verif.C12_swap
#print axioms Verif.C12_include_first_false
#print axioms Verif.C12_not_additive_false
#print axioms Verif.C12_equal_dates_false
#print axioms Verif.C13_western
#print axioms Verif.C13_orthodox
#print axioms Verif.C13_outside
#print axioms Verif.C13_western_range
#print axioms Verif.C14_weekend_closed
#print axioms Verif.C14_weekend_closed_in_range
#print axioms Verif.C14_russia_exchange
#print axioms Verif.C14_weekendsOnly_iff
#print axioms Verif.C15_half_months
#print axioms Verif.C15_half_months_all_years
#print axioms Verif.C15_panics_outside
#print axioms Verif.C15_following
#print axioms Verif.C15_preceding
#print axioms Verif.C15_modifiedFollowing
#print axioms Verif.C15_modifiedPreceding
#print axioms Verif.C15_halfMonth
#print axioms Verif.C15_adjust
#print axioms Verif.C16_add_months_iff
#print axioms Verif.C16_add_years_eq_months
#print axioms Verif.C16_add_days_iff
#print axioms Verif.C16_add_weeks_eq_days
#print axioms Verif.C16_months_mono_date
#print axioms Verif.C16_months_mono_tenor
#print axioms Verif.C16_add_sub_days
#print axioms Verif.C16_add_sub_months
#print axioms Verif.C17_add_correct
#print axioms Verif.C17_add_complete
#print axioms Verif.C17_add_error_iff
#print axioms Verif.C17_mul_correct
#print axioms Verif.C18_settlement
#print axioms Verif.C18_settlement_eq_modifiedFollowing
#print axioms Verif.C18_settlement_default
#print axioms Verif.C19_near_eq_far_false
#print axioms Verif.C19_near_after_far_false
#print axioms Verif.C19_overnight_month_end_false
#print axioms Verif.C19_near_lt_far_partial
#print axioms Verif.C19_default_lag_partial
#print axioms Verif.C20_is_third_wednesday
#print axioms Verif.C20_exists_unique
#print axioms Verif.C21_date_isLeast
#print axioms Verif.C21_round_trip
#print axioms Verif.C21_letter
#print axioms Verif.C21_rejected
#print axioms Verif.C21_ten_year_corner_false
#print axioms Verif.C21_lowercase_false
#print axioms Verif.C21_two_byte_false
#print axioms Verif.C22_diverges_false
#print axioms Verif.C22_december_panics_false
#print axioms Verif.C22_next_iff
#print axioms Verif.C22_next_partial
#print axioms Verif.C22_witness_diverges_false
#print axioms Verif.C22_main_cycle_false
#print axioms Verif.C23_frequency_partial
#print axioms Verif.C23_once_false
#print axioms Verif.C23_unreachable
#print axioms Verif.C23_code_is_name
#print axioms Verif.C23_bdc_round_trip
#print axioms Verif.C23_bdc_code_is_name
#print axioms Verif.C23_period_months
#print axioms Verif.C24_count_eq_card
#print axioms Verif.C24_actual
#print axioms Verif.C24_fraction
#print axioms Verif.C24_counts
#print axioms Verif.C25_european
#print axioms Verif.C25_italian
#print axioms Verif.C25_thirty365
#print axioms Verif.C25_additive
#print axioms Verif.C25_european_mono
#print axioms Verif.C25_plain
#print axioms Verif.C25_whole_years
#print axioms Verif.C25_bounds
#print axioms Verif.C25_isma_rule
#print axioms Verif.C25_isma_not_additive_false
#print axioms Verif.C25_nasd_rule
#print axioms Verif.C25_isda_rule
#print axioms Verif.C25_us_rule
#print axioms Verif.C26_exact
#print axioms Verif.C26_noleap_partial
#print axioms Verif.C26_december_false
#print axioms Verif.C26_wrong_into_december_false
#print axioms Verif.C27_exact
#print axioms Verif.C27_always_wrong_false
#print axioms Verif.C27_isda_partial
#print axioms Verif.C27_full_year_false
#print axioms Verif.C28_exact
#print axioms Verif.C28_next_month
#print axioms Verif.C28_month_start_false
#print axioms Verif.C28_easter_panic_false
#print axioms Verif.C28_september_false
#print axioms Verif.C28_same_month_partial
#print axioms Verif.C28_one_day_false
#print axioms Verif.C28_cross_month_false
#print axioms Verif.C29_currencies
#print axioms Verif.C29_names
#print axioms Verif.C29_home_market
#print axioms Verif.C29_calendar_open_iff
#print axioms Verif.C29_calendar_closed_iff
#print axioms Verif.C29_spot_lag
#print axioms Verif.C29_cutoff
#print axioms Verif.C29_before_cutoff
#print axioms Verif.C29_after_cutoff
#print axioms Verif.C29_common_open_day
#print axioms Verif.C29_after_cutoff_exists
#print axioms Verif.C29_settlement
#print axioms Verif.C29_near_date
#print axioms Verif.C29_no_near_date
#print axioms Verif.C29_day_count
#print axioms Verif.C29_day_count_false
#print axioms Verif.C30_none_before
#print axioms Verif.C30_none_few
#print axioms Verif.C30_cases
#print axioms Verif.C30_none_outside
#print axioms Verif.C30_exact
#print axioms Verif.C30_exact_duplicate
#print axioms Verif.C30_linear
#print axioms Verif.C30_no_overshoot
#print axioms Verif.C30_order_irrelevant
#print axioms Verif.C30_error
#print axioms Verif.C31_value_foreign
#print axioms Verif.C31_outright
#print axioms Verif.C31_expired
#print axioms Verif.C31_mirror
#print axioms Verif.C31_linear
#print axioms Verif.C31_zero
#print axioms Verif.C31_delta
#print axioms Verif.C31_domestic
#print axioms Verif.C31_gamma_vega
#print axioms Verif.C32_parity
#print axioms Verif.C32_call_bounds
#print axioms Verif.C32_put_bounds
#print axioms Verif.C32_monotone
#print axioms Verif.C32_strict
#print axioms Verif.C33_delta
#print axioms Verif.C33_gamma
#print axioms Verif.C33_vega
#print axioms Verif.C33_flip_mtm
#print axioms Verif.C33_flip_delta
#print axioms Verif.C33_flip_gamma
#print axioms Verif.C33_flip_vega
#print axioms Verif.C33_value
#print axioms Verif.C34_atm
#print axioms Verif.C34_call_put
#print axioms Verif.C34_rr_bf
#print axioms Verif.C35_strike_error
#print axioms Verif.C35_expiry_error
#print axioms Verif.C35_answered
#print axioms Verif.C35_interpolation
#print axioms Verif.C35_between
#print axioms Verif.C35_before
#print axioms Verif.C35_after
#print axioms Verif.C35_pillar
#print axioms Verif.C35_monotone
#print axioms Verif.C36_discount_pos
#print axioms Verif.C36_discount_valuation
#print axioms Verif.C36_discount_exists
#print axioms Verif.C36_rate_range
#print axioms Verif.C36_discount_le_one
#print axioms Verif.C36_forward
#print axioms Verif.C36_forward_exists
#print axioms Verif.C36_discount_le_one_hidden_false
#print axioms Verif.C37_pillar_false
#print axioms Verif.C37_extrapolation_false
#print axioms Verif.C37_pillar_partial
#print axioms Verif.C37_between_partial
#print axioms Verif.C37_flat_partial
#print axioms Verif.C37_hidden_first
#print axioms Verif.C37_hidden_between
#print axioms Verif.C37_hidden_end
#print axioms Verif.C38_shift_eq_bump
#print axioms Verif.C38_zero_shift
#print axioms Verif.C38_shift_add
#print axioms Verif.C38_shift_lowers
#print axioms Verif.C39_reprices
#print axioms Verif.C39_sign
#print axioms Verif.C39_increasing
#print axioms Verif.C39_discount
#print axioms Verif.C40_contiguous
#print axioms Verif.C40_effective
#print axioms Verif.C40_count_partial
#print axioms Verif.C40_end_months
#print axioms Verif.C40_end_weeks
#print axioms Verif.C40_end_open
#print axioms Verif.C40_pay
#print axioms Verif.C40_pay_zero
#print axioms Verif.C40_reset
#print axioms Verif.C40_given
#print axioms Verif.C40_units_false
#print axioms Verif.C40_units_years_false
#print axioms Verif.C40_maturity_panic_false
#print axioms Verif.C40_maturity
#print axioms Verif.C40_zero_tenor_panics
#print axioms Verif.C41_additive
#print axioms Verif.C41_sum
#print axioms Verif.C41_flip
#print axioms Verif.C41_scale
#print axioms Verif.C41_coupon
#print axioms Verif.C41_mtm
#print axioms Verif.C41_npv
#print axioms Verif.C41_shift
#print axioms Verif.C41_dv01
#print axioms Verif.C41_gamma
#print axioms Verif.C41_gamma_modes
#print axioms Verif.C42_float
#print axioms Verif.C42_float_generated
#print axioms Verif.C42_fixed
#print axioms Verif.C42_par
#print axioms Verif.C43_parity
#print axioms Verif.C43_same_failures
#print axioms Verif.C43_parity_swap
#print axioms Verif.C43_cap_intrinsic
#print axioms Verif.C43_nonneg
#print axioms Verif.C43_flip
#print axioms Verif.C43_monotone_vol
#print axioms Verif.C43_vega_nonneg
#print axioms Verif.C43_mtm
#print axioms Verif.C43_shift
#print axioms Verif.C43_dv01
#print axioms Verif.C43_gamma
#print axioms Verif.C44_backward_integral
#print axioms Verif.C44_forward
#print axioms Verif.C44_nonneg
#print axioms Verif.C44_monotone_sigma
#print axioms Verif.C44_antitone_time
#print axioms Verif.C44_between
#print axioms Verif.C44_continuous
#print axioms Verif.C44_expired
#print axioms Verif.C45_targets
#print axioms Verif.C45_all_called
#print axioms Verif.C45_stops_at_error
#print axioms Verif.C45_attach_keeps
#print axioms Verif.C45_drop_only_self
#print axioms Verif.C46_parity
#print axioms Verif.C46_intrinsic
#print axioms Verif.C46_time_value
#print axioms Verif.C46_monotone
#print axioms Verif.C46_vega
#print axioms Verif.C46_vega_expired
#print axioms Verif.C47_none
#print axioms Verif.C47_some
#print axioms Verif.C47_round_trip
#print axioms Verif.C47_default
#print axioms Verif.C48_mean_start
#print axioms Verif.C48_mean_between
#print axioms Verif.C48_mean_monotone
#print axioms Verif.C48_mean_tendsto
#print axioms Verif.C48_mean_ode
#print axioms Verif.C48_variance_ode
#print axioms Verif.C48_variance_nonneg
#print axioms Verif.C48_variance_pos
#print axioms Verif.C48_variance_tendsto
#print axioms Verif.C48_step_nonneg
#print axioms Verif.C48_path_nonneg
#print axioms Verif.C48_step_euler
#print axioms Verif.C48_sqrt_mean_series
#print axioms Verif.C48_sqrt_mean_le
#print axioms Verif.C48_sqrt_mean_small_time_false
#print axioms Verif.C48_sqrt_mean_degenerate
#print axioms Verif.C48_sqrt_mean_infinity
#print axioms Verif.C48_proxy
#print axioms Verif.C49_b_self
#print axioms Verif.C49_b_integral
#print axioms Verif.C49_b_compose
#print axioms Verif.C49_kernel_false
#print axioms Verif.C49_b_sign
#print axioms Verif.C49_short_rate_variance
#print axioms Verif.C49_short_rate_variance_nonneg
#print axioms Verif.C49_short_rate_variance_compose
#print axioms Verif.C49_bond_log_variance_partial
#print axioms Verif.C49_bond_log_variance_false
#print axioms Verif.C49_bond_log_variance_panics
#print axioms Verif.C49_bond_log_variance_nonneg_partial
#print axioms Verif.C49_bond_log_variance_nonneg_false
#print axioms Verif.C49_bond_log_variance_additive
#print axioms Verif.C49_discount_initial
#print axioms Verif.C49_discount_maturity
#print axioms Verif.C49_discount_rate
#print axioms Verif.C49_discount_convexity
#print axioms Verif.C49_discount_short_end
#print axioms Verif.C49_step_drift
#print axioms Verif.C50_grid
#print axioms Verif.C50_captured_partial
#print axioms Verif.C50_total
#print axioms Verif.C50_states_at_partial
#print axioms Verif.C50_lost_observation_false
#print axioms Verif.C50_gbm_positive
#print axioms Verif.C50_gbm_exponential
#print axioms Verif.C50_gbm_mean
#print axioms Verif.C50_bm_moments
#print axioms Verif.C50_drift_exact
#print axioms Verif.C51_value
#print axioms Verif.C51_not_worse
#print axioms Verif.C51_iterations
#print axioms Verif.C51_nan_start
#print axioms Verif.C51_converged
#print axioms Verif.C51_total
#print axioms Verif.C51_moves
#print axioms Verif.C51_centroid
#print axioms Verif.C51_shrink
#print axioms Verif.C51_progress
#print axioms Verif.C51_rules
#print axioms Verif.C51_volume
#print axioms Verif.C51_initial
#print axioms Verif.C51_nondegenerate
#print axioms Verif.C52_factor
#print axioms Verif.C52_iff
#print axioms Verif.C52_unique
#print axioms Verif.C52_correlation4
#print axioms Verif.C53_new
#print axioms Verif.C53_atm
#print axioms Verif.C53_flat
#print axioms Verif.C53_positive_partial
#print axioms Verif.C53_positive_moderate_partial
#print axioms Verif.C53_positive_false
#print axioms Verif.C53_series_false
#print axioms Verif.C53_symmetric
#print axioms Verif.C53_x_symmetric
#print axioms Verif.C53_scaling
#print axioms Verif.C53_atm_limit
#print axioms Verif.C53_step
#print axioms Verif.C53_path
#print axioms Verif.C53_simulate
#print axioms Verif.C53_absorbing
#print axioms Verif.C54_linear
#print axioms Verif.C54_flat
#print axioms Verif.C54_node
#print axioms Verif.C54_bounds
#print axioms Verif.C54_pillar
#print axioms Verif.C54_beyond
#print axioms Verif.C54_stripped
#print axioms Verif.C54_total
#print axioms Verif.C55_reprices
#print axioms Verif.C55_nonrectangular_false
#print axioms Verif.C56_settle
#print axioms Verif.C56_maturity
#print axioms Verif.C56_anchor_partial
#print axioms Verif.C56_anchor_first
#print axioms Verif.C56_gap
#print axioms Verif.C56_gap_false
#print axioms Verif.C56_forward
#print axioms Verif.C56_implied
#print axioms Verif.C56_zero_partial
#print axioms Verif.C56_first
#print axioms Verif.C56_first_false
#print axioms Verif.C57_blocks_partial
#print axioms Verif.C57_cash_partial
#print axioms Verif.C57_cash_repeat
#print axioms Verif.C57_cash_false
#print axioms Verif.C57_needs_cash
#print axioms Verif.C57_needs_cash_panic
#print axioms Verif.C57_futures_chain
#print axioms Verif.C57_blind
#print axioms Verif.C57_solvable_false
#print axioms Verif.C57_repriced_false
#print axioms Verif.C58_target
#print axioms Verif.C58_unitedKingdom
#print axioms Verif.C58_switzerland
#print axioms Verif.C58_germany
#print axioms Verif.C58_frankfurt
#print axioms Verif.C58_xetra
#print axioms Verif.C58_eurex
#print axioms Verif.C58_euwax
#print axioms Verif.C58_paris
#print axioms Verif.C58_france_partial
#print axioms Verif.C58_italy
#print axioms Verif.C58_milan
#print axioms Verif.C58_austria
#print axioms Verif.C58_vienna
#print axioms Verif.C58_denmark
#print axioms Verif.C58_norway
#print axioms Verif.C58_sweden
#print axioms Verif.C58_finland
#print axioms Verif.C58_iceland
#print axioms Verif.C58_czechRepublic
#print axioms Verif.C58_slovakia
#print axioms Verif.C58_hungary
#print axioms Verif.C58_poland
#print axioms Verif.C58_romania
#print axioms Verif.C58_ukraine_partial
#print axioms Verif.C58_wse
#print axioms Verif.C58_defaults_europe
#print axioms Verif.C58_france_false
#print axioms Verif.C58_ukraine_false
#print axioms Verif.C58_us
#print axioms Verif.C58_us_nerc
#print axioms Verif.C58_us_fed_partial
#print axioms Verif.C58_us_bonds
#print axioms Verif.C58_us_sofr
#print axioms Verif.C58_tsx
#print axioms Verif.C58_canada
#print axioms Verif.C58_mexico
#print axioms Verif.C58_brazil
#print axioms Verif.C58_bovespa
#print axioms Verif.C58_argentina_partial
#print axioms Verif.C58_southAfrica
#print axioms Verif.C58_botswana
#print axioms Verif.C58_asx
#print axioms Verif.C58_australia
#print axioms Verif.C58_wellington
#print axioms Verif.C58_auckland
#print axioms Verif.C58_nyse_partial
#print axioms Verif.C58_nyse
#print axioms Verif.C58_nyse_false
#print axioms Verif.C58_us_libor
#print axioms Verif.C58_us_fed_false
#print axioms Verif.C58_argentina_false
#print axioms Verif.C58_japan_partial
#print axioms Verif.C58_japan
#print axioms Verif.C58_japan_false
#print axioms Verif.C58_chile
#print axioms Verif.C58_defaults_world
#print axioms Verif.C59_value_partial
#print axioms Verif.C59_spec_unique
#print axioms Verif.C59_correct_iff
#print axioms Verif.C59_half_year_false
#print axioms Verif.C59_reversed_false
#print axioms Verif.C60_schedule
#print axioms Verif.C60_constant_schedule
#print axioms Verif.C60_moments
#print axioms Verif.C60_vol_vol
#print axioms Verif.C60_term_structure
#print axioms Verif.C60_no_vol_vol
#print axioms Verif.C60_constant
#print axioms Verif.C60_correlation
#print axioms Verif.C60_correlation_neg
#print axioms Verif.C60_correlation_range_false
#print axioms Verif.C60_constant_omega_false
#print axioms Verif.C61_chi
#print axioms Verif.C61_psi
#print axioms Verif.C61_default_range
#print axioms Verif.C61_setters
#print axioms Verif.C61_total
#print axioms Verif.C61_call_series
#print axioms Verif.C61_put_series
#print axioms Verif.C61_parity
#print axioms Verif.C61_call_error
#print axioms Verif.C61_put_error
#print axioms Verif.C61_put_total_error
#print axioms Verif.C61_call_total_error
#print axioms Verif.C61_converges
#print axioms Verif.C61_outside_false
#print axioms Verif.C62_panics
#print axioms Verif.C62_tau_range
#print axioms Verif.C62_divisor
#print axioms Verif.C62_divisor_martingale
#print axioms Verif.C62_zero
#print axioms Verif.C62_martingale
#print axioms Verif.C62_conjugate
#print axioms Verif.C62_cached
#print axioms Verif.C62_riccati
#print axioms Verif.C62_damping
#print axioms Verif.C62_affine
#print axioms Verif.C62_integrand
#print axioms Verif.C62_drift_partial
#print axioms Verif.C62_two_interval_gap
#print axioms Verif.C62_drift_false
#print axioms Verif.C62_heston
#print axioms Verif.C62_modulus
#print axioms Verif.C62_black_scholes
#print axioms Verif.C63_new
#print axioms Verif.C63_new_ordered
#print axioms Verif.C63_active
#print axioms Verif.C63_loading
#print axioms Verif.C63_a_side
#print axioms Verif.C63_variance
#print axioms Verif.C63_panics
#print axioms Verif.C63_segments
#print axioms Verif.C63_default
#print axioms Verif.C63_heston_a
#print axioms Verif.C63_heston_c
#print axioms Verif.C63_advance
#print axioms Verif.C63_components_partial
#print axioms Verif.C63_affine
#print axioms Verif.C63_zero
#print axioms Verif.C63_martingale
#print axioms Verif.C63_divisor
#print axioms Verif.C63_modulus
#print axioms Verif.C63_expiry_partial
#print axioms Verif.C63_expiry_false
#print axioms Verif.C64_softplus
#print axioms Verif.C64_softplus_error
#print axioms Verif.C64_softplus_monotone_false
#print axioms Verif.C64_error_bound
#print axioms Verif.C64_error_zero
#print axioms Verif.C64_sabr
#print axioms Verif.C64_sabr_exact
#print axioms Verif.C64_sabr_panics
#print axioms Verif.C64_hhw
#print axioms Verif.C64_hhw_bounded
#print axioms Verif.C64_clip
#print axioms Verif.C64_hhw_exact
#print axioms Verif.C64_hhw_forward
#print axioms Verif.C64_hhw_reprice
#print axioms Verif.C64_hhw_panics
#print axioms Verif.C64_hlmm_discount
#print axioms Verif.C64_hlmm_discount_false
#print axioms Verif.C64_hlmm
#print axioms Verif.C64_hlmm_invalid
#print axioms Verif.C64_hlmm_panics
#print axioms Verif.C64_hlmm_reprice
#print axioms Verif.C64_grid
#print axioms Verif.C64_strip
#print axioms Verif.C64_strip_total
#print axioms Verif.C64_wrappers
#print axioms Verif.C64_forward_unused
#print axioms Verif.C64_surface_to_sabr
#print axioms Verif.C65_new
#print axioms Verif.C65_new_ordered
#print axioms Verif.C65_eta
#print axioms Verif.C65_decay
#print axioms Verif.C65_loading
#print axioms Verif.C65_a_side
#print axioms Verif.C65_variance
#print axioms Verif.C65_f_cached
#print axioms Verif.C65_panics
#print axioms Verif.C65_segments
#print axioms Verif.C65_resolution
#print axioms Verif.C65_live_partial
#print axioms Verif.C65_default
#print axioms Verif.C65_closed_forms
#print axioms Verif.C65_components_partial
#print axioms Verif.C65_zero
#print axioms Verif.C65_martingale
#print axioms Verif.C65_modulus
#print axioms Verif.C65_expiry_partial
#print axioms Verif.C65_expiry_false
#print axioms Verif.C65_tail_false
#print axioms Verif.C66_valid
#print axioms Verif.C66_knots
#print axioms Verif.C66_displacement
#print axioms Verif.C66_step
#print axioms Verif.C66_frozen
#print axioms Verif.C66_covariance
#print axioms Verif.C66_simulate
#print axioms Verif.C66_drift
#print axioms Verif.C66_tenor_bonds
#print axioms Verif.C66_back_stub
#print axioms Verif.C66_front_stub
#print axioms Verif.C66_maturity
#print axioms Verif.C66_bank
#print axioms Verif.C66_initial
#print axioms Verif.C66_first_step_false
#print axioms Verif.C66_snapshot_false
#print axioms Verif.C66_start_false
#print axioms Verif.C66_ho_lee_partial
#print axioms Verif.C66_ho_lee_false
#print axioms Verif.C66_simulate_all
#print axioms Verif.C67_new
#print axioms Verif.C67_step
#print axioms Verif.C67_noise
#print axioms Verif.C67_fx_mean
#print axioms Verif.C67_quanto
#print axioms Verif.C67_moments
#print axioms Verif.C67_martingale
#print axioms Verif.C67_foreign_mean
#print axioms Verif.C67_domestic_mean
#print axioms Verif.C67_scheme_mean
#print axioms Verif.C67_simulate
#print axioms Verif.C67_dated
#print axioms Verif.C67_theta_fn_false
#print axioms Verif.C67_full_truncation_false
#print axioms Verif.C68_new
#print axioms Verif.C68_initial
#print axioms Verif.C68_step
#print axioms Verif.C68_noise
#print axioms Verif.C68_domestic
#print axioms Verif.C68_foreign_partial
#print axioms Verif.C68_fx_mean
#print axioms Verif.C68_martingale
#print axioms Verif.C68_moments
#print axioms Verif.C68_quanto
#print axioms Verif.C68_simulate
#print axioms Verif.C68_dated
#print axioms Verif.C68_cross_false
#print axioms Verif.C68_foreign_x_false
#print axioms Verif.C68_account_false
#print axioms Verif.C68_full_truncation_false
#print axioms Verif.C69_build
#print axioms Verif.C69_band
#print axioms Verif.C69_bilinear
#print axioms Verif.C69_continuous
#print axioms Verif.C69_stencils
#print axioms Verif.C69_recovers
#print axioms Verif.C69_term_structure
#print axioms Verif.C69_flat
#print axioms Verif.C69_arbitrage
#print axioms Verif.C69_band_false
#print axioms Verif.C69_scale_false
#print axioms Verif.C70_new
#print axioms Verif.C70_at
#print axioms Verif.C70_noise
#print axioms Verif.C70_range
#print axioms Verif.C70_simulate_partial
#print axioms Verif.C70_constant_alpha
#print axioms Verif.C70_alpha_false
#print axioms Verif.C70_flat
#print axioms Verif.C70_reduces
#print axioms Verif.C70_reduces_none
#print axioms Verif.C70_volatility
#print axioms Verif.C70_martingale_partial
#print axioms Verif.C70_martingale_false
#print axioms Verif.C70_straddle_false
#print axioms Verif.C70_dated
#print axioms Verif.C70_initial
#print axioms Verif.C71_with_bins
#print axioms Verif.C71_bins
#print axioms Verif.C71_simulate
#print axioms Verif.C71_range
#print axioms Verif.C71_volatility
#print axioms Verif.C71_mimicking
#print axioms Verif.C71_local_vol
#print axioms Verif.C71_martingale_partial
#print axioms Verif.C71_martingale_false
#print axioms Verif.C71_ties_false
#print axioms Verif.C71_zero_false
#print axioms Verif.C72_new
#print axioms Verif.C72_step
#print axioms Verif.C72_base
#print axioms Verif.C72_noise
#print axioms Verif.C72_means
#print axioms Verif.C72_quanto
#print axioms Verif.C72_martingale
#print axioms Verif.C72_fx_martingale
#print axioms Verif.C72_full_truncation_false
#print axioms Verif.C72_simulate
#print axioms Verif.C72_dated
#print axioms Verif.C73_discount
#print axioms Verif.C73_discount_false
#print axioms Verif.C73_fit
#print axioms Verif.C73_exact
#print axioms Verif.C73_invalid
#print axioms Verif.C73_panics
#print axioms Verif.C73_reprice
#print axioms Verif.C73_forward
#print axioms Verif.C73_wrapper
#print axioms Verif.C74_vol_vol_monotone
#print axioms Verif.C74_nu
#print axioms Verif.C74_alpha
#print axioms Verif.C74_alpha_monotone_false
#print axioms Verif.C74_rho
#print axioms Verif.C74_rho_exact
#print axioms Verif.C74_single
#print axioms Verif.C74_calibrate
#print axioms Verif.C74_panics
#print axioms Verif.C74_surface
#print axioms Verif.C74_clamp_false
#print axioms Verif.C74_single_run
#print axioms Verif.C75_thirty360
#print axioms Verif.C75_thirty360_two_days
#print axioms Verif.C75_thirty360_false
#print axioms Verif.C75_thirty365_false
#print axioms Verif.C75_business252_false
#print axioms Verif.C75_round_trip
#print axioms Verif.C75_actual360_false
#print axioms Verif.C75_close
#print axioms Verif.C75_guess
#print axioms Verif.C75_isda_false
#print axioms Verif.C75_euro_false
#print axioms Verif.C76_defined
#print axioms Verif.C76_vol_shift
#print axioms Verif.C76_analytic
#print axioms Verif.C76_bracket
#print axioms Verif.C76_vega_parity
#print axioms Verif.C76_floor_dv01
#print axioms Verif.C76_rate_delta
#print axioms Verif.C76_gamma
#print axioms Verif.C76_cap_dv01_false
#print axioms Verif.C77_total
#print axioms Verif.C77_market_partial
#print axioms Verif.C77_aonia_false
#print axioms Verif.C77_cdor_false
#print axioms Verif.C77_overnight_false
#print axioms Verif.C77_euribor_settle
#print axioms Verif.C77_euribor_weeks
#print axioms Verif.C77_euribor_months
#print axioms Verif.C77_euribor_years
#print axioms Verif.C78_fx_raw
#print axioms Verif.C78_fx_error
#print axioms Verif.C78_quoted_points
#print axioms Verif.C78_outside
#print axioms Verif.C78_atm
#print axioms Verif.C78_call_put
#print axioms Verif.C78_flat
#print axioms Verif.C78_for_linear
#print axioms Verif.C78_for_linear_panic
#print axioms Verif.C78_forward_points
#print axioms Verif.C78_forward_false
#print axioms Verif.C78_lag_false
#print axioms Verif.C78_parity_false
#print axioms Verif.C78_fx_rates
#print axioms Verif.C78_ir_linear
#print axioms Verif.C78_ir_rates
#print axioms Verif.C78_ir_refuses
#print axioms Verif.C78_ir_reprices
#print axioms Verif.C78_ir_vol
#print axioms Verif.C78_stale_false
#print axioms Verif.C79_telAviv_partial
#print axioms Verif.C79_telAviv
#print axioms Verif.C79_telAviv_2001_false
#print axioms Verif.C79_telAviv_2038_false
#print axioms Verif.C79_shir_partial
#print axioms Verif.C79_shir
#print axioms Verif.C79_shir_false
#print axioms Verif.C79_telAviv_weekend_false
#print axioms Verif.C79_turkey_ramadan
#print axioms Verif.C79_turkey_sacrifice
#print axioms Verif.C79_turkey_2011_false
#print axioms Verif.C79_turkey_2015_false
#print axioms Verif.C79_indonesia
#print axioms Verif.C79_singapore_islamic
#print axioms Verif.C79_singapore_islamic_false
#print axioms Verif.C79_china
#print axioms Verif.C79_hongKong
#print axioms Verif.C79_hongKong_substitute
#print axioms Verif.C79_hongKong_2014_false
#print axioms Verif.C79_korea
#print axioms Verif.C79_taiwan
#print axioms Verif.C79_taiwan_2010_false
#print axioms Verif.C79_singapore
#print axioms Verif.C79_singapore_false
#print axioms Verif.C80_china
#print axioms Verif.C80_taiwan
#print axioms Verif.C80_turkey
#print axioms Verif.C80_korea
#print axioms Verif.C80_moscow
#print axioms Verif.C80_russia
#print axioms Verif.C80_hongKong
#print axioms Verif.C80_singapore
#print axioms Verif.C80_indonesia
#print axioms Verif.C80_india
#print axioms Verif.C80_thailand
#print axioms Verif.C80_india_gap
#print axioms Verif.C80_telAviv
#print axioms Verif.C80_shir
#print axioms Verif.C81_law
#print axioms Verif.C81_generator
#print axioms Verif.C81_series
#print axioms Verif.C81_sqrt_mean
#print axioms Verif.C81_small_time
#print axioms Verif.C81_small_time_false
#print axioms Verif.C81_tolerance_false
#print axioms Verif.C81_infinity
#print axioms Verif.C81_start
#print axioms Verif.C81_feller
#print axioms Verif.C82_dv01
#print axioms Verif.C82_dv01_spot
#print axioms Verif.C82_duration
#print axioms Verif.C82_duration_pos
#print axioms Verif.C82_gamma_even
#print axioms Verif.C82_gamma_spot
#print axioms Verif.C82_gamma_scale
#print axioms Verif.C82_receiver_false
#print axioms Verif.C82_duration_false
#print axioms Verif.C83_root_error
#print axioms Verif.C83_root_error_series
#print axioms Verif.C83_root_continuous
#print axioms Verif.C83_hlmm
#print axioms Verif.C83_hlmm_limit
#print axioms Verif.C83_fmm
#print axioms Verif.C83_fmm_limit
#print axioms Verif.C84_value
#print axioms Verif.C84_vega
#print axioms Verif.C84_delta_strike
#print axioms Verif.C84_gamma_strike
#print axioms Verif.C84_delta_false
#print axioms Verif.C84_synthetic_foreign
#print axioms Verif.C84_synthetic_domestic
#print axioms Verif.C85_levels
#print axioms Verif.C85_black
#print axioms Verif.C85_black_forward
#print axioms Verif.C85_bachelier
#print axioms Verif.C85_fx
#print axioms Verif.C85_cap
#print axioms Verif.C86_converges
#print axioms Verif.C86_error
#print axioms Verif.C86_brownian
#print axioms Verif.C86_geometric
#print axioms Verif.C86_lognormal
#print axioms Verif.C86_option
#print axioms Verif.C87_schedule
#print axioms Verif.C87_tenors
#print axioms Verif.C87_fmm
#print axioms Verif.C87_betas
#print axioms Verif.C87_vol_schedule
#print axioms Verif.C87_quantile
#print axioms Verif.C87_hagan
#print axioms Verif.C87_cir
#print axioms Verif.C87_fx_surface
#print axioms Verif.C87_aligned
#print axioms Verif.C87_effective
#print axioms Verif.C87_simulate
#print axioms Verif.C87_hlmm_parameters
#print axioms Verif.C87_fx_fmm_parameters
#print axioms Verif.C88_average
#print axioms Verif.C88_error
#print axioms Verif.C88_hhw
#print axioms Verif.C88_hhw_rate
#print axioms Verif.C88_hhw_parity
#print axioms Verif.C88_stock
#print axioms Verif.C88_stock_parity
#print axioms Verif.C88_td_sabr
#print axioms Verif.C88_td_sabr_forward_false
#print axioms Verif.C88_td_sabr_vol
#print axioms Verif.C88_sabr
#print axioms Verif.C88_fx_fmm
#print axioms Verif.C89_domestic_law
#print axioms Verif.C89_hull_white_law
#print axioms Verif.C89_rate_limit
#print axioms Verif.C89_sum_limit
#print axioms Verif.C89_fx_law
#print axioms Verif.C89_black
#print axioms Verif.C89_black_scholes
#print axioms Verif.C89_sabr_vol
#print axioms Verif.C90_average_iff
#print axioms Verif.C90_sample
#print axioms Verif.C90_bounded
#print axioms Verif.C90_rate_false
#print axioms Verif.C90_one_step
#print axioms Verif.C90_bank_false
#print axioms Verif.C91_grid
#print axioms Verif.C91_causal
#print axioms Verif.C91_invariant
#print axioms Verif.C91_regular
#print axioms Verif.C91_sabr
#print axioms Verif.C91_td_sabr
#print axioms Verif.C91_fmm
#print axioms Verif.C91_hhw
#print axioms Verif.C91_stock
#print axioms Verif.C91_fx_fmm
#print axioms Verif.C91_fmm_time
#print axioms Verif.C91_sabr_signs
#print axioms Verif.C91_cir
#print axioms Verif.C91_hull_white_law
#print axioms Verif.C91_other_dates_false
#print axioms Verif.C92_bond_mean
#print axioms Verif.C92_forward_bond
#print axioms Verif.C92_mean_error
#print axioms Verif.C92_variance_error
#print axioms Verif.C92_fitted
#print axioms Verif.C92_exact_fit_false
#print axioms Verif.C92_dated
#print axioms Verif.C93_decay
#print axioms Verif.C93_normal
#print axioms Verif.C93_hhw_law
#print axioms Verif.C93_variance
#print axioms Verif.C93_wide
#print axioms Verif.C93_converges
#print axioms Verif.C93_ten_deviations
#print axioms Verif.C93_default
#print axioms Verif.C93_default_range_false
#print axioms Verif.C94_black
#print axioms Verif.C94_cos
#print axioms Verif.C94_hhw
#print axioms Verif.C94_hlmm
#print axioms Verif.C94_fmm
#print axioms Verif.C94_paths
#print axioms Verif.C94_simulators
#print axioms Verif.C94_sabr_paths
#print axioms Verif.C94_td_paths
#print axioms Verif.C94_implied
#print axioms Verif.C94_default_tolerance
#print axioms Verif.C94_small_unit
#print axioms Verif.C94_large_unit
#print axioms Verif.C94_implied_false
#print axioms Verif.C94_hhw_vols_false
#print axioms Verif.C95_black
#print axioms Verif.C95_implied
#print axioms Verif.C95_correlations
#print axioms Verif.C95_involution
#print axioms Verif.C95_hhw_partial
#print axioms Verif.C95_prices
#print axioms Verif.C95_strikes
#print axioms Verif.C95_strikes_false
#print axioms Verif.C95_sabr
#print axioms Verif.C95_sabr_false
#print axioms Verif.C96_law
#print axioms Verif.C96_flat
#print axioms Verif.C96_high
#print axioms Verif.C96_low
#print axioms Verif.C96_hagan_puts_false
#print axioms Verif.C96_hagan_calls_false
#print axioms Verif.C96_hagan
#print axioms Verif.C96_fx_wings
#print axioms Verif.C96_fx_negative_false
#print axioms Verif.C97_swaps
#print axioms Verif.C97_own_date_false
#print axioms Verif.C97_futures
#print axioms Verif.C97_cash
#print axioms Verif.C97_caplets
#print axioms Verif.C97_fx_vol
#print axioms Verif.C97_forward_points
#print axioms Verif.C97_local_vol
#print axioms Verif.C97_local_vol_time
#print axioms Verif.C97_td_sabr
#print axioms Verif.C98_black
#print axioms Verif.C98_bachelier
#print axioms Verif.C98_zero_rate
#print axioms Verif.C98_discount
#print axioms Verif.C98_forward_rate
#print axioms Verif.C98_forward_rate_false
#print axioms Verif.C98_caplet_vol
#print axioms Verif.C98_cap
#print axioms Verif.C98_fx_vol
#print axioms Verif.C98_forward_points
#print axioms Verif.C99_martingale
#print axioms Verif.C99_black
#print axioms Verif.C99_fx
#print axioms Verif.C99_hagan
#print axioms Verif.C99_hagan_false
#print axioms Verif.C99_local_vol
#print axioms Verif.C100_swap
#print axioms Verif.C100_fixed
#print axioms Verif.C100_float
#print axioms Verif.C100_par
#print axioms Verif.C100_cap
#print axioms Verif.C100_deposit
#print axioms Verif.C101_quote
#print axioms Verif.C101_cash
#print axioms Verif.C101_discount
#print axioms Verif.C101_strip
#print axioms Verif.C101_first
#print axioms Verif.C101_first_false
#print axioms Verif.C101_curve
#print axioms Verif.C101_discounts
#print axioms Verif.C102_outright
#print axioms Verif.C102_forward
#print axioms Verif.C102_option_domestic
#print axioms Verif.C102_option_foreign
#print axioms Verif.C103_curve
#print axioms Verif.C103_forward_rate
#print axioms Verif.C103_days
#print axioms Verif.C103_months
#print axioms Verif.C103_points
#print axioms Verif.C103_surface
#print axioms Verif.C103_vol
#print axioms Verif.C103_fx_forward
#print axioms Verif.C103_fx_option
#print axioms Verif.C103_caplet_vol
#print axioms Verif.C103_cap
#print axioms Verif.C103_cap_risk
#print axioms Verif.C103_swap
#print axioms Verif.C103_swap_risk
#print axioms Verif.C104_swap
#print axioms Verif.C104_swap_risk
#print axioms Verif.C104_mtm
#print axioms Verif.C104_mtm_false
#print axioms Verif.C104_surface
#print axioms Verif.C104_cash
#print axioms Verif.C104_caps
#print axioms Verif.C104_observations
#print axioms Verif.C104_smile
#print axioms Verif.C104_smile_false
#print axioms Verif.C104_sabr
#print axioms Verif.C104_hhw
#print axioms Verif.C104_hlmm
#print axioms Verif.C104_fmm
