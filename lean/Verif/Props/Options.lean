import Verif.Lemmas.ImpliedVol
import Mathlib.Tactic.NormNum

/-!
# C32, C46, C47: closed-form option prices
-/

namespace Verif

open Set

variable {F K V V' D : ℝ}

/-! ## C32: the Black formula of the FX option -/

/-- Put-call parity, for every variance. -/
theorem C32_parity (hF : 0 < F) (hK : 0 < K) :
    blackScholes F K V D .call - blackScholes F K V D .put = D * (F - K) := by
  rcases le_or_gt V 0 with hV | hV
  · rw [blackScholes_intrinsic_call hV, blackScholes_intrinsic_put hV, ← mul_sub]
    congr 1
    rcases le_total F K with h | h
    · rw [max_eq_right (by linarith), max_eq_left (by linarith)]; ring
    · rw [max_eq_left (by linarith), max_eq_right (by linarith)]; ring
  · rw [blackScholes_call hV, blackScholes_put hF hK hV, ← mul_sub,
      blackCore_parity hF hK (Real.sqrt_pos.2 hV).ne']

/-- A call is worth at least its discounted intrinsic value and at most the discounted
forward. -/
theorem C32_call_bounds (hF : 0 < F) (hK : 0 < K) (hD : 0 ≤ D) :
    D * max (F - K) 0 ≤ blackScholes F K V D .call ∧ blackScholes F K V D .call ≤ D * F := by
  rcases le_or_gt V 0 with hV | hV
  · rw [blackScholes_intrinsic_call hV]
    exact ⟨le_rfl, mul_le_mul_of_nonneg_left (max_le (by linarith) hF.le) hD⟩
  · rw [blackScholes_call hV]
    exact ⟨mul_le_mul_of_nonneg_left (blackCore_lower hF hK (Real.sqrt_pos.2 hV)) hD,
      mul_le_mul_of_nonneg_left (blackCore_upper hF hK).le hD⟩

/-- A put is worth at least its discounted intrinsic value and at most the discounted
strike. -/
theorem C32_put_bounds (hF : 0 < F) (hK : 0 < K) (hD : 0 ≤ D) :
    D * max (K - F) 0 ≤ blackScholes F K V D .put ∧ blackScholes F K V D .put ≤ D * K := by
  rcases le_or_gt V 0 with hV | hV
  · rw [blackScholes_intrinsic_put hV]
    exact ⟨le_rfl, mul_le_mul_of_nonneg_left (max_le (by linarith) hK.le) hD⟩
  · rw [blackScholes_put hF hK hV]
    exact ⟨mul_le_mul_of_nonneg_left (blackCore_lower hK hF (Real.sqrt_pos.2 hV)) hD,
      mul_le_mul_of_nonneg_left (blackCore_upper hK hF).le hD⟩

/-- Prices do not decrease when the variance increases. -/
theorem C32_monotone (hF : 0 < F) (hK : 0 < K) (hD : 0 ≤ D) (h : V ≤ V') (ot : OptionType) :
    blackScholes F K V D ot ≤ blackScholes F K V' D ot := by
  rcases le_or_gt V' 0 with h' | h'
  · cases ot
    · rw [blackScholes_intrinsic_call h', blackScholes_intrinsic_call (h.trans h')]
    · rw [blackScholes_intrinsic_put h', blackScholes_intrinsic_put (h.trans h')]
  rcases le_or_gt V 0 with hV | hV
  · cases ot
    · rw [blackScholes_intrinsic_call hV]; exact (C32_call_bounds hF hK hD).1
    · rw [blackScholes_intrinsic_put hV]; exact (C32_put_bounds hF hK hD).1
  · have hs := Real.sqrt_le_sqrt h
    cases ot
    · rw [blackScholes_call hV, blackScholes_call h']
      exact mul_le_mul_of_nonneg_left ((blackCore_strictMono hF hK).monotoneOn
        (Real.sqrt_pos.2 hV) (Real.sqrt_pos.2 h') hs) hD
    · rw [blackScholes_put hF hK hV, blackScholes_put hF hK h']
      exact mul_le_mul_of_nonneg_left ((blackCore_strictMono hK hF).monotoneOn
        (Real.sqrt_pos.2 hV) (Real.sqrt_pos.2 h') hs) hD

/-- A larger positive variance makes an option strictly dearer. -/
theorem C32_strict (hF : 0 < F) (hK : 0 < K) (hD : 0 < D) (hV : 0 < V) (h : V < V')
    (ot : OptionType) : blackScholes F K V D ot < blackScholes F K V' D ot := by
  have h' := hV.trans h
  have hs := Real.sqrt_lt_sqrt hV.le h
  cases ot
  · rw [blackScholes_call hV, blackScholes_call h']
    exact mul_lt_mul_of_pos_left ((blackCore_strictMono hF hK)
      (Real.sqrt_pos.2 hV) (Real.sqrt_pos.2 h') hs) hD
  · rw [blackScholes_put hF hK hV, blackScholes_put hF hK h']
    exact mul_lt_mul_of_pos_left ((blackCore_strictMono hK hF)
      (Real.sqrt_pos.2 hV) (Real.sqrt_pos.2 h') hs) hD

/-- At the money with variance 4: the call is `D (F Φ(1) − F Φ(−1))`. -/
example : blackScholes 100 100 4 (1 / 2) .call = 1 / 2 * (100 * (2 * normCdf 1 - 1)) := by
  rw [blackScholes_call (by norm_num)]
  have h4 : √(4 : ℝ) = 2 := by
    rw [show (4 : ℝ) = 2 ^ 2 by norm_num]; exact Real.sqrt_sq (by norm_num)
  have e1 : bd1 100 100 2 = 1 := by unfold bd1; norm_num
  have e2 : bd2 100 100 2 = -1 := by unfold bd2; rw [e1]; norm_num
  rw [h4, blackCore, e1, e2, normCdf_neg]; ring

example : 1 / 2 * max ((110 : ℝ) - 100) 0 ≤ blackScholes 110 100 4 (1 / 2) .call ∧
    blackScholes 110 100 4 (1 / 2) .call ≤ 1 / 2 * 110 :=
  C32_call_bounds (by norm_num) (by norm_num) (by norm_num)

example : blackScholes 110 100 0 (1 / 2) .put < blackScholes 110 100 4 (1 / 2) .put := by
  have h1 : blackScholes 110 100 0 (1 / 2) .put ≤ blackScholes 110 100 1 (1 / 2) .put :=
    C32_monotone (by norm_num) (by norm_num) (by norm_num) (by norm_num) _
  exact lt_of_le_of_lt h1 (C32_strict (by norm_num) (by norm_num) (by norm_num) (by norm_num)
    (by norm_num) _)

/-! ## C46: the Bachelier formula -/

/-- Put-call parity, for every forward, strike and variance. -/
theorem C46_parity : bachelierCall F K V - bachelierPut F K V = F - K := by
  rcases le_or_gt V 0 with hV | hV
  · unfold bachelierCall bachelierPut
    rw [if_pos hV, if_pos hV]
    rcases le_total F K with h | h
    · rw [max_eq_right (by linarith), max_eq_left (by linarith)]; ring
    · rw [max_eq_left (by linarith), max_eq_right (by linarith)]; ring
  · rw [bachelierCall_eq hV, bachelierPut_eq hV]
    have e : (K - F) / √V = -((F - K) / √V) := by ring
    have hs := (Real.sqrt_pos.2 hV).ne'
    rw [e, bachCore_neg]
    field_simp
    ring

/-- Both prices are at least the intrinsic value. -/
theorem C46_intrinsic :
    max (F - K) 0 ≤ bachelierCall F K V ∧ max (K - F) 0 ≤ bachelierPut F K V := by
  rcases le_or_gt V 0 with hV | hV
  · unfold bachelierCall bachelierPut
    rw [if_pos hV, if_pos hV]
    exact ⟨le_rfl, le_rfl⟩
  · rw [bachelierCall_eq hV, bachelierPut_eq hV]
    exact ⟨(bach_lower (Real.sqrt_pos.2 hV)).le, (bach_lower (Real.sqrt_pos.2 hV)).le⟩

/-- Time value is strictly positive for a positive variance. -/
theorem C46_time_value (hV : 0 < V) :
    max (F - K) 0 < bachelierCall F K V ∧ max (K - F) 0 < bachelierPut F K V := by
  rw [bachelierCall_eq hV, bachelierPut_eq hV]
  exact ⟨bach_lower (Real.sqrt_pos.2 hV), bach_lower (Real.sqrt_pos.2 hV)⟩

/-- Both prices are non-decreasing in the variance. -/
theorem C46_monotone (h : V ≤ V') :
    bachelierCall F K V ≤ bachelierCall F K V' ∧ bachelierPut F K V ≤ bachelierPut F K V' := by
  rcases le_or_gt V 0 with hV | hV
  · have h1 := C46_intrinsic (F := F) (K := K) (V := V')
    unfold bachelierCall bachelierPut at h1 ⊢
    rw [if_pos hV, if_pos hV]
    exact h1
  · have h' : 0 < V' := lt_of_lt_of_le hV h
    have hs := Real.sqrt_le_sqrt h
    rw [bachelierCall_eq hV, bachelierPut_eq hV, bachelierCall_eq h', bachelierPut_eq h']
    exact ⟨(bach_strictMono _).monotoneOn (Real.sqrt_pos.2 hV) (Real.sqrt_pos.2 h') hs,
      (bach_strictMono _).monotoneOn (Real.sqrt_pos.2 hV) (Real.sqrt_pos.2 h') hs⟩

/-- `bachelier_vega_variance` is the derivative of both prices in the variance. -/
theorem C46_vega (hV : 0 < V) :
    HasDerivAt (fun V => bachelierCall F K V) (bachelierVegaVariance F K V) V ∧
    HasDerivAt (fun V => bachelierPut F K V) (bachelierVegaVariance F K V) V := by
  have e0 : bachelierVegaVariance F K V = normPdf ((F - K) / √V) / (2 * √V) := by
    unfold bachelierVegaVariance; rw [if_neg (not_le.2 hV)]
  have hev : ∀ᶠ v in nhds V, 0 < v := lt_mem_nhds hV
  rw [e0]
  constructor
  · exact (hasDerivAt_bach_V hV).congr_of_eventuallyEq
      (hev.mono fun v hv => bachelierCall_eq hv)
  · have e : normPdf ((F - K) / √V) = normPdf ((K - F) / √V) := by
      rw [← normPdf_neg]; congr 1; ring
    rw [e]
    exact (hasDerivAt_bach_V hV).congr_of_eventuallyEq
      (hev.mono fun v hv => bachelierPut_eq hv)

/-- Once the variance is used up, the vega is reported as zero. -/
theorem C46_vega_expired (hV : V ≤ 0) : bachelierVegaVariance F K V = 0 := by
  unfold bachelierVegaVariance; rw [if_pos hV]

/-- At the money the price is `√V / √(2π)`. -/
example : bachelierCall (3 / 100) (3 / 100) 4 = 2 / √(2 * Real.pi) := by
  rw [bachelierCall_eq (by norm_num)]
  have h4 : √(4 : ℝ) = 2 := by
    rw [show (4 : ℝ) = 2 ^ 2 by norm_num]; exact Real.sqrt_sq (by norm_num)
  rw [h4]
  simp [bachCore, normPdf]
  ring

example : max ((-1 / 100 : ℝ) - 2 / 100) 0 < bachelierCall (-1 / 100) (2 / 100) (1 / 10000) :=
  (C46_time_value (by norm_num)).1

/-! ## C47: implied volatility -/

variable {t tol target sg : ℝ}

/-- No volatility is returned exactly when the target is outside the attainable range,
widened by the tolerance. -/
theorem C47_none (isCall : Bool) :
    bsImpliedVolTol target F K t D isCall tol = none ↔
      target < blackPrice isCall F K (1 / 10 ^ 8) t D - tol ∨
      blackPrice isCall F K 5 t D + tol < target := by
  rw [impliedVol_eq]
  by_cases h : target < blackPrice isCall F K (1 / 10 ^ 8) t D - tol ∨
    target > blackPrice isCall F K 5 t D + tol
  · rw [if_pos h]; exact ⟨fun _ => h, fun _ => rfl⟩
  · rw [if_neg h]; exact ⟨fun h => (by cases h), fun h' => absurd h' h⟩

/-- A returned volatility lies between 1e-8 and 5, and either prices the target within
the tolerance or is within 1e-12 of a volatility that does. -/
theorem C47_some (isCall : Bool) (hF : 0 < F) (hK : 0 < K) (htol : 0 ≤ tol)
    (h : bsImpliedVolTol target F K t D isCall tol = some sg) :
    1 / 10 ^ 8 ≤ sg ∧ sg ≤ 5 ∧
    (|blackPrice isCall F K sg t D - target| < tol ∨
      ∃ x, 1 / 10 ^ 8 ≤ x ∧ x ≤ 5 ∧ |blackPrice isCall F K x t D - target| ≤ tol ∧
        |sg - x| < 1 / 10 ^ 12) := by
  rw [impliedVol_eq] at h
  by_cases hr : target < blackPrice isCall F K (1 / 10 ^ 8) t D - tol ∨
    target > blackPrice isCall F K 5 t D + tol
  · rw [if_pos hr] at h; cases h
  · rw [if_neg hr] at h
    rw [not_or] at hr
    cases h
    exact bisectVol_spec htol 200 (1 / 10 ^ 8) 5 (by norm_num)
      (continuousOn_blackPrice isCall hF hK (by norm_num)) (by linarith [not_lt.1 hr.1])
      (by linarith [not_lt.1 hr.2]) (by norm_num)

/-- A price generated with a volatility in the search range is always inverted. -/
theorem C47_round_trip (isCall : Bool) (hF : 0 < F) (hK : 0 < K) (hD : 0 ≤ D) (htol : 0 ≤ tol)
    (h1 : 1 / 10 ^ 8 ≤ sg) (h2 : sg ≤ 5) :
    ∃ s, bsImpliedVolTol (blackPrice isCall F K sg t D) F K t D isCall tol = some s := by
  have mono : ∀ a b : ℝ, 0 < a → a ≤ b →
      blackPrice isCall F K a t D ≤ blackPrice isCall F K b t D := by
    intro a b ha hab
    rcases le_or_gt t 0 with ht | ht
    · cases isCall
      · show bsPutForward F K a t D ≤ bsPutForward F K b t D
        unfold bsPutForward
        rw [if_pos (.inr ht), if_pos (.inr ht)]
      · show bsCallForward F K a t D ≤ bsCallForward F K b t D
        unfold bsCallForward
        rw [if_pos (.inr ht), if_pos (.inr ht)]
    · have hq := Real.sqrt_pos.2 ht
      have hab' := mul_le_mul_of_nonneg_right hab hq.le
      have p1 : 0 < a * √t := by positivity
      have p2 : 0 < b * √t := lt_of_lt_of_le p1 hab'
      unfold blackPrice
      cases isCall
      · simp only [Bool.false_eq_true, if_false]
        rw [bsPut_core hF hK ha ht, bsPut_core hF hK (lt_of_lt_of_le ha hab) ht]
        exact mul_le_mul_of_nonneg_left ((blackCore_strictMono hK hF).monotoneOn p1 p2 hab') hD
      · simp only [if_true]
        rw [bsCall_core ha ht, bsCall_core (lt_of_lt_of_le ha hab) ht]
        exact mul_le_mul_of_nonneg_left ((blackCore_strictMono hF hK).monotoneOn p1 p2 hab') hD
  apply Option.ne_none_iff_exists'.1
  rw [Ne, C47_none, not_or, not_lt, not_lt]
  have m1 := mono (1 / 10 ^ 8) sg (by norm_num) h1
  have m2 := mono sg 5 (lt_of_lt_of_le (by norm_num) h1) h2
  exact ⟨by linarith, by linarith⟩

/-- The default tolerance is 1e-8. -/
theorem C47_default (isCall : Bool) :
    bsImpliedVol target F K t D isCall = bsImpliedVolTol target F K t D isCall (1 / 10 ^ 8) := rfl

/-- Negative prices have no implied volatility. -/
example : bsImpliedVolTol (-1) 100 100 1 1 true (1 / 10 ^ 8) = none := by
  rw [C47_none]
  left
  have : 0 ≤ blackPrice true 100 100 (1 / 10 ^ 8) 1 1 := by
    unfold blackPrice
    rw [if_pos rfl, bsCall_core (by norm_num) (by norm_num), one_mul]
    exact blackCore_nonneg (by norm_num) (by norm_num) (by norm_num)
  linarith

/-- The 20% price is inverted. -/
example : ∃ s, bsImpliedVolTol (blackPrice true 100 105 (1 / 5) 1 1) 100 105 1 1 true
    (1 / 10 ^ 8) = some s ∧ s ≤ 5 := by
  obtain ⟨s, hs⟩ := C47_round_trip (F := 100) (K := 105) (t := 1) (D := 1) (sg := 1 / 5)
    (tol := 1 / 10 ^ 8) true (by norm_num) (by norm_num) (by norm_num) (by norm_num) (by norm_num)
    (by norm_num)
  exact ⟨s, hs, (C47_some true (by norm_num) (by norm_num) (by norm_num) hs).2.1⟩

end Verif
