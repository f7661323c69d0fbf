import Verif.Spec.Sensitivity
import Verif.Lemmas.Locality
import Verif.Lemmas.ExpectedPayoff
import Verif.Props.ExpectedPayoff
import Verif.Props.Options
import Verif.Props.CapletSurface
import Verif.Props.FxVol
import Verif.Props.Forwards
import Verif.Props.YieldCurve

/-!
# How results react to errors in the inputs
-/

namespace Verif

open Outcome MeasureTheory ProbabilityTheory

/-! ## Option formulas -/

theorem normPdf_le_top (x : ℝ) : normPdf x ≤ 1 / √(2 * Real.pi) := by
  unfold normPdf
  gcongr
  rw [Real.exp_le_one_iff]
  have := sq_nonneg x
  linarith

/-- A function of the standard deviation with a bounded slope. -/
theorem slope_bound {f f' : ℝ → ℝ} {C : ℝ} (hd : ∀ s, 0 < s → HasDerivAt f (f' s) s)
    (hb : ∀ s, 0 < s → 0 ≤ f' s ∧ f' s ≤ C) {s s' : ℝ} (hs : 0 < s) (h : s ≤ s') :
    0 ≤ f s' - f s ∧ f s' - f s ≤ C * (s' - s) := by
  rcases h.eq_or_lt with rfl | hlt
  · simp
  obtain ⟨c, hc, e⟩ := exists_hasDerivAt_eq_slope f f' hlt
    (fun x hx => (hd x (hs.trans_le hx.1)).continuousAt.continuousWithinAt)
    fun x hx => hd x (hs.trans hx.1)
  have hp : 0 < s' - s := sub_pos.2 hlt
  rw [eq_div_iff hp.ne'] at e
  obtain ⟨b1, b2⟩ := hb c (hs.trans hc.1)
  rw [← e]
  exact ⟨mul_nonneg b1 hp.le, mul_le_mul_of_nonneg_right b2 hp.le⟩

/-- Calls at the money. -/
theorem blackCore_atm {F s : ℝ} (hF : 0 < F) (hs : 0 < s) : blackCore F F s ≤ F * (s / √(2 * Real.pi)) := by
  have e1 : bd1 F F s = s / 2 := by
    unfold bd1
    rw [div_self hF.ne', Real.log_one]
    field_simp
    ring
  have e2 : bd2 F F s = -(s / 2) := by
    unfold bd2
    rw [e1]; ring
  unfold blackCore
  rw [e1, e2, ← mul_sub, normCdf_sub]
  refine mul_le_mul_of_nonneg_left ?_ hF.le
  have : ∫ t in (-(s / 2))..(s / 2), normPdf t ≤ ∫ t in (-(s / 2))..(s / 2), 1 / √(2 * Real.pi) :=
    intervalIntegral.integral_mono_on (by linarith) (continuous_normPdf.intervalIntegrable _ _)
      (continuous_const.intervalIntegrable _ _) fun x _ => normPdf_le_top x
  refine this.trans (le_of_eq ?_)
  rw [intervalIntegral.integral_const, smul_eq_mul]
  ring

theorem payoff_lip (b : Bool) (K K' x x' : ℝ) :
    |vanillaPayoff b K' x' - vanillaPayoff b K x| ≤ |x' - x| + |K' - K| := by
  unfold vanillaPayoff
  split_ifs
  · refine (abs_max_sub_max_le_abs _ _ _).trans ?_
    rw [show x' - K' - (x - K) = (x' - x) - (K' - K) by ring]
    exact abs_sub _ _
  · refine (abs_max_sub_max_le_abs _ _ _).trans ?_
    rw [show K' - x' - (K - x) = -(x' - x) + (K' - K) by ring]
    refine (abs_add_le _ _).trans ?_
    rw [abs_neg]

theorem mean_lip (b : Bool) (K K' : ℝ) {X X' : ℝ → ℝ} (hX : Integrable X (gaussianReal 0 1))
    (hX' : Integrable X' (gaussianReal 0 1)) {Y : ℝ → ℝ} (hY : Integrable Y (gaussianReal 0 1))
    (hl : ∀ z, |X' z - X z| ≤ Y z) :
    |meanOverDraw (fun z => vanillaPayoff b K' (X' z)) - meanOverDraw (fun z => vanillaPayoff b K (X z))| ≤
      meanOverDraw Y + |K' - K| := by
  unfold meanOverDraw
  rw [← integral_sub (payoff_integrable b K' hX') (payoff_integrable b K hX)]
  refine (abs_integral_le_integral_abs).trans ?_
  have : ∫ z, |vanillaPayoff b K' (X' z) - vanillaPayoff b K (X z)| ∂gaussianReal 0 1 ≤
      ∫ z, (Y z + |K' - K|) ∂gaussianReal 0 1 := by
    refine integral_mono (((payoff_integrable b K' hX').sub (payoff_integrable b K hX)).abs)
      (hY.add (integrable_const _)) fun z => ?_
    exact (payoff_lip b K K' _ _).trans (add_le_add_left (hl z) _)
  refine this.trans (le_of_eq ?_)
  rw [integral_add hY (integrable_const _)]
  simp

theorem blackScholes_clip (F K V D : ℝ) (ot : OptionType) :
    blackScholes F K V D ot = blackScholes F K (max V 0) D ot := by
  rcases le_total V 0 with h | h
  · rw [max_eq_right h]
    cases ot
    · rw [blackScholes_intrinsic_call h, blackScholes_intrinsic_call le_rfl]
    · rw [blackScholes_intrinsic_put h, blackScholes_intrinsic_put le_rfl]
  · rw [max_eq_left h]

theorem black_level_lip {F F' K K' D : ℝ} (hF : 0 < F) (hF' : 0 < F') (hK : 0 < K) (hK' : 0 < K')
    (hD : 0 ≤ D) (V : ℝ) (ot : OptionType) :
    |blackScholes F' K' V D ot - blackScholes F K V D ot| ≤ D * (|F' - F| + |K' - K|) := by
  have hv : 0 ≤ max V 0 := le_max_right _ _
  rw [blackScholes_clip F' K', blackScholes_clip F K, C85_black hF' hK' hv, C85_black hF hK hv, ← mul_sub,
    abs_mul, abs_of_nonneg hD]
  refine mul_le_mul_of_nonneg_left ?_ hD
  have := mean_lip (ot == .call) K K' (lognormal_integrable F (max V 0)) (lognormal_integrable F' (max V 0))
    (Y := lognormalLevel |F' - F| (max V 0)) (lognormal_integrable _ _) (fun z => by
      unfold lognormalLevel
      rw [← sub_mul, abs_mul, Real.abs_exp])
  rwa [lognormal_mean _ hv] at this

theorem blackCore_strike {F K K' s : ℝ} (hF : 0 < F) (hK : 0 < K) (h : K ≤ K') (hs : 0 < s) :
    blackCore F K' s ≤ blackCore F K s := by
  have hV : 0 < s ^ 2 := by positivity
  have hr : √(s ^ 2) = s := Real.sqrt_sq hs.le
  have e : ∀ k, 0 < k → blackCore F k s = meanOverDraw fun z => vanillaPayoff true k (lognormalLevel F (s ^ 2) z) := by
    intro k hk
    have h1 := C85_black hF hk hV.le 1 .call
    rw [blackScholes_call hV, hr, one_mul, one_mul] at h1
    exact h1
  rw [e K hK, e K' (hK.trans_le h)]
  refine integral_mono (payoff_integrable _ _ (lognormal_integrable _ _))
    (payoff_integrable _ _ (lognormal_integrable _ _)) fun z => ?_
  simp only [vanillaPayoff, if_true]
  exact max_le_max (by linarith) le_rfl

/-- The time value of a call. -/
theorem blackCore_time {F K s : ℝ} (hF : 0 < F) (hK : 0 < K) (hs : 0 < s) :
    blackCore F K s ≤ max (F - K) 0 + F * (s / √(2 * Real.pi)) := by
  rcases le_total F K with h | h
  · rw [max_eq_right (by linarith), zero_add]
    exact (blackCore_strike hF hF h hs).trans (blackCore_atm hF hs)
  · rw [max_eq_left (by linarith)]
    have h1 := blackCore_parity hF hK hs.ne'
    have h2 := (blackCore_strike hK hK h hs).trans (blackCore_atm hK hs)
    have h3 : K * (s / √(2 * Real.pi)) ≤ F * (s / √(2 * Real.pi)) := mul_le_mul_of_nonneg_right h (by positivity)
    linarith

theorem black_call_vol {F K D : ℝ} (hF : 0 < F) (hK : 0 < K) (hD : 0 ≤ D) {V V' : ℝ} (h : V ≤ V') :
    0 ≤ blackScholes F K V' D .call - blackScholes F K V D .call ∧
    blackScholes F K V' D .call - blackScholes F K V D .call ≤ D * (F * ((√V' - √V) / √(2 * Real.pi))) := by
  refine ⟨sub_nonneg.2 (C32_monotone hF hK hD h .call), ?_⟩
  have hsq : √V ≤ √V' := Real.sqrt_le_sqrt h
  rcases le_or_gt V' 0 with h1 | h1
  · rw [blackScholes_intrinsic_call h1, blackScholes_intrinsic_call (h.trans h1), sub_self]
    have : 0 ≤ √V' - √V := by linarith
    positivity
  · have hs' := Real.sqrt_pos.2 h1
    rw [blackScholes_call h1]
    rcases le_or_gt V 0 with h2 | h2
    · rw [blackScholes_intrinsic_call h2, Real.sqrt_eq_zero_of_nonpos h2, sub_zero, ← mul_sub]
      refine mul_le_mul_of_nonneg_left ?_ hD
      have := blackCore_time hF hK hs'
      linarith
    · rw [blackScholes_call h2, ← mul_sub]
      refine mul_le_mul_of_nonneg_left ?_ hD
      have := (slope_bound (f := fun s => blackCore F K s) (f' := fun s => F * normPdf (bd1 F K s))
        (C := F * (1 / √(2 * Real.pi))) (fun s hs => hasDerivAt_blackCore_s hF hK hs.ne')
        (fun s _ => ⟨mul_nonneg hF.le (normPdf_pos _).le, mul_le_mul_of_nonneg_left (normPdf_le_top _) hF.le⟩)
        (Real.sqrt_pos.2 h2) hsq).2
      refine this.trans (le_of_eq ?_)
      ring

theorem black_swap (F K V D : ℝ) (hF : 0 < F) (hK : 0 < K) :
    blackScholes F K V D .put = blackScholes K F V D .call := by
  rcases le_or_gt V 0 with h | h
  · rw [blackScholes_intrinsic_put h, blackScholes_intrinsic_call h]
  · rw [blackScholes_put hF hK h, blackScholes_call h]

theorem black_vol_lip {F K D : ℝ} (hF : 0 < F) (hK : 0 < K) (hD : 0 ≤ D) (V V' : ℝ) (ot : OptionType) :
    |blackScholes F K V' D ot - blackScholes F K V D ot| ≤ D * (min F K * (|√V' - √V| / √(2 * Real.pi))) := by
  wlog h : V ≤ V' generalizing V V'
  · rw [abs_sub_comm, abs_sub_comm (√V')]
    exact this V' V (le_of_not_ge h)
  have hsq : 0 ≤ √V' - √V := sub_nonneg.2 (Real.sqrt_le_sqrt h)
  have p1 := C32_parity (D := D) (V := V) hF hK
  have p2 := C32_parity (D := D) (V := V') hF hK
  obtain ⟨c1, c2⟩ := black_call_vol hF hK hD h
  obtain ⟨-, d2⟩ := black_call_vol hK hF hD h
  rw [← black_swap F K V D hF hK, ← black_swap F K V' D hF hK] at d2
  rw [abs_of_nonneg hsq]
  have e : blackScholes F K V' D ot - blackScholes F K V D ot =
      blackScholes F K V' D .call - blackScholes F K V D .call := by
    cases ot
    · rfl
    · linarith
  rw [e, abs_of_nonneg c1]
  rcases min_choice F K with hm | hm <;> rw [hm] <;> linarith

/-! ## Bachelier -/

theorem bachelier_clip (F K V : ℝ) :
    bachelierCall F K V = bachelierCall F K (max V 0) ∧ bachelierPut F K V = bachelierPut F K (max V 0) := by
  rcases le_total V 0 with h | h
  · rw [max_eq_right h]
    simp [bachelierCall, bachelierPut, h]
  · rw [max_eq_left h]
    exact ⟨rfl, rfl⟩

theorem bachelier_level_lip (F F' K K' V : ℝ) :
    |bachelierCall F' K' V - bachelierCall F K V| ≤ |F' - F| + |K' - K| ∧
    |bachelierPut F' K' V - bachelierPut F K V| ≤ |F' - F| + |K' - K| := by
  have hv : 0 ≤ max V 0 := le_max_right _ _
  have key := fun b => mean_lip b K K' (normal_integrable F (max V 0)) (normal_integrable F' (max V 0))
    (Y := fun _ => |F' - F|) (integrable_const _) (fun z => by simp [normalLevel])
  have e : meanOverDraw (fun _ => |F' - F|) = |F' - F| := by simp [meanOverDraw]
  rw [e] at key
  rw [(bachelier_clip F K V).1, (bachelier_clip F K V).2, (bachelier_clip F' K' V).1,
    (bachelier_clip F' K' V).2, (C85_bachelier F K hv).1, (C85_bachelier F K hv).2,
    (C85_bachelier F' K' hv).1, (C85_bachelier F' K' hv).2]
  exact ⟨key true, key false⟩


theorem bachCore_top {d : ℝ} (hd : d ≤ 0) : bachCore d ≤ 1 / √(2 * Real.pi) := by
  have hm : Monotone bachCore := monotone_of_deriv_nonneg
    (fun d => (hasDerivAt_bachCore d).differentiableAt) fun d => by
      rw [(hasDerivAt_bachCore d).deriv]; exact normCdf_nonneg d
  refine (hm hd).trans ?_
  unfold bachCore
  rw [zero_mul, add_zero]
  exact normPdf_le_top 0

theorem bach_time (x : ℝ) {s : ℝ} (hs : 0 < s) : s * bachCore (x / s) ≤ max x 0 + s / √(2 * Real.pi) := by
  rcases le_total x 0 with h | h
  · rw [max_eq_right h, zero_add]
    refine (mul_le_mul_of_nonneg_left (bachCore_top (div_nonpos_of_nonpos_of_nonneg h hs.le)) hs.le).trans
      (le_of_eq (by ring))
  · rw [max_eq_left h]
    have h1 := mul_le_mul_of_nonneg_left (bachCore_top (d := -(x / s)) (by
      have : 0 ≤ x / s := by positivity
      linarith)) hs.le
    rw [bachCore_neg, mul_sub, mul_div_cancel₀ x hs.ne'] at h1
    have : s * (1 / √(2 * Real.pi)) = s / √(2 * Real.pi) := by ring
    linarith

theorem bach_call_vol (F K : ℝ) {V V' : ℝ} (h : V ≤ V') :
    0 ≤ bachelierCall F K V' - bachelierCall F K V ∧
    bachelierCall F K V' - bachelierCall F K V ≤ (√V' - √V) / √(2 * Real.pi) := by
  refine ⟨sub_nonneg.2 (C46_monotone h).1, ?_⟩
  have hsq : √V ≤ √V' := Real.sqrt_le_sqrt h
  have z : ∀ V, V ≤ 0 → bachelierCall F K V = max (F - K) 0 := fun V hV => by
    unfold bachelierCall; rw [if_pos hV]
  rcases le_or_gt V' 0 with h1 | h1
  · rw [z V' h1, z V (h.trans h1), sub_self]
    have : 0 ≤ √V' - √V := by linarith
    positivity
  · have hs' := Real.sqrt_pos.2 h1
    rw [bachelierCall_eq h1]
    rcases le_or_gt V 0 with h2 | h2
    · rw [z V h2, Real.sqrt_eq_zero_of_nonpos h2, sub_zero]
      have := bach_time (F - K) hs'
      linarith
    · rw [bachelierCall_eq h2]
      have := (slope_bound (f := fun s => s * bachCore ((F - K) / s)) (f' := fun s => normPdf ((F - K) / s))
        (C := 1 / √(2 * Real.pi)) (fun s hs => hasDerivAt_bach_s hs.ne')
        (fun s _ => ⟨(normPdf_pos _).le, normPdf_le_top _⟩) (Real.sqrt_pos.2 h2) hsq).2
      refine this.trans (le_of_eq ?_)
      ring

theorem bach_vol_lip (F K V V' : ℝ) :
    |bachelierCall F K V' - bachelierCall F K V| ≤ |√V' - √V| / √(2 * Real.pi) ∧
    |bachelierPut F K V' - bachelierPut F K V| ≤ |√V' - √V| / √(2 * Real.pi) := by
  wlog h : V ≤ V' generalizing V V'
  · have := this V' V (le_of_not_ge h)
    rwa [abs_sub_comm, abs_sub_comm (bachelierPut F K V), abs_sub_comm (√V)] at this
  obtain ⟨c1, c2⟩ := bach_call_vol F K h
  have p1 := C46_parity (F := F) (K := K) (V := V)
  have p2 := C46_parity (F := F) (K := K) (V := V')
  rw [abs_of_nonneg (sub_nonneg.2 (Real.sqrt_le_sqrt h))]
  have e : bachelierPut F K V' - bachelierPut F K V = bachelierCall F K V' - bachelierCall F K V := by linarith
  rw [e, abs_of_nonneg c1]
  exact ⟨c2, c2⟩

/-! ## Interpolation -/

/-- A mean with weights that are not negative does not enlarge errors. -/
theorem mix_lip {w w' x y x' y' ε : ℝ} (hw : 0 ≤ w) (hw' : 0 ≤ w') (h : w + w' = 1) (hx : |x' - x| ≤ ε)
    (hy : |y' - y| ≤ ε) : |w * x' + w' * y' - (w * x + w' * y)| ≤ ε := by
  rw [show w * x' + w' * y' - (w * x + w' * y) = w * (x' - x) + w' * (y' - y) by ring]
  refine (abs_add_le _ _).trans ?_
  rw [abs_mul, abs_mul, abs_of_nonneg hw, abs_of_nonneg hw']
  have h1 := mul_le_mul_of_nonneg_left hx hw
  have h2 := mul_le_mul_of_nonneg_left hy hw'
  have : ε = w * ε + w' * ε := by rw [← add_mul, h, one_mul]
  linarith

/-- The same for root mean squares. -/
theorem rms_lip {w w' x y x' y' ε : ℝ} (hw : 0 ≤ w) (hw' : 0 ≤ w') (h : w + w' = 1) (hx : |x' - x| ≤ ε)
    (hy : |y' - y| ≤ ε) : |√(w * x' ^ 2 + w' * y' ^ 2) - √(w * x ^ 2 + w' * y ^ 2)| ≤ ε := by
  wlog hc : √(w * x ^ 2 + w' * y ^ 2) ≤ √(w * x' ^ 2 + w' * y' ^ 2) generalizing x y x' y'
  · rw [abs_sub_comm]
    refine this ?_ ?_ (le_of_not_ge hc)
    · rwa [abs_sub_comm]
    · rwa [abs_sub_comm]
  rw [abs_of_nonneg (sub_nonneg.2 hc), sub_le_iff_le_add]
  have hε : 0 ≤ ε := (abs_nonneg _).trans hx
  set R := √(w * x ^ 2 + w' * y ^ 2) with hR
  have hR0 : 0 ≤ R := Real.sqrt_nonneg _
  have hR2 : R ^ 2 = w * x ^ 2 + w' * y ^ 2 := Real.sq_sqrt (by positivity)
  refine Real.sqrt_le_iff.2 ⟨by positivity, ?_⟩
  have hcs : |w * x| + |w' * y| ≤ R := by
    refine abs_le_of_sq_le_sq' ?_ hR0 |>.2
    rw [hR2, abs_mul, abs_mul, abs_of_nonneg hw, abs_of_nonneg hw']
    have e : w * x ^ 2 + w' * y ^ 2 - (w * |x| + w' * |y|) ^ 2 = w * w' * (|x| - |y|) ^ 2 := by
      have e1 : x ^ 2 = |x| ^ 2 := (sq_abs x).symm
      have e2 : y ^ 2 = |y| ^ 2 := (sq_abs y).symm
      rw [e1, e2]
      obtain rfl : w' = 1 - w := by linarith
      ring
    have : 0 ≤ w * w' * (|x| - |y|) ^ 2 := by positivity
    linarith
  have sq1 : ∀ a b : ℝ, |b - a| ≤ ε → b ^ 2 ≤ a ^ 2 + 2 * ε * |a| + ε ^ 2 := by
    intro a b hab
    have h1 : |b| ≤ |a| + ε := by
      have := abs_sub_abs_le_abs_sub b a
      linarith
    have h2 : b ^ 2 ≤ (|a| + ε) ^ 2 := by
      rw [← sq_abs b]
      exact pow_le_pow_left₀ (abs_nonneg _) h1 2
    rw [add_sq, sq_abs] at h2
    linarith
  have h1 := mul_le_mul_of_nonneg_left (sq1 x x' hx) hw
  have h2 := mul_le_mul_of_nonneg_left (sq1 y y' hy) hw'
  rw [abs_mul, abs_mul, abs_of_nonneg hw, abs_of_nonneg hw'] at hcs
  have h3 := mul_le_mul_of_nonneg_left hcs (by positivity : 0 ≤ 2 * ε)
  have h4 : ε ^ 2 = w * ε ^ 2 + w' * ε ^ 2 := by rw [← add_mul, h, one_mul]
  nlinarith

/-! ## Curves -/

/-- The two scans stop at the same position. -/
theorem scan_near {ε : ℝ} {target : Int} : ∀ {ps ps' : List Pillar} {f f' : Pillar},
    List.Forall₂ (PillarNear ε) ps ps' → PillarNear ε f f' → (f :: ps).Pairwise (fun a b => a.date < b.date) →
    f.date < target →
    (((scanPillars target f ps).2 = none ∧ (scanPillars target f' ps').2 = none) ∨
     ∃ s s', (scanPillars target f ps).2 = some s ∧ (scanPillars target f' ps').2 = some s' ∧
       PillarNear ε s s' ∧ PillarNear ε (scanPillars target f ps).1 (scanPillars target f' ps').1 ∧
       (scanPillars target f ps).1.date < target ∧ target ≤ s.date ∧ f.date < s.date)
  | [], _, f, f', .nil, hf, _, _ => .inl ⟨rfl, rfl⟩
  | s :: ps, _, f, f', .cons (b := s') (l₂ := ps') hs hr, hf, ho, ht => by
    by_cases hc : target ≤ s.date
    · have e1 : scanPillars target f (s :: ps) = (f, some s) := by
        rw [scanPillars, if_pos ⟨hc, hs.2.1⟩]
      have e2 : scanPillars target f' (s' :: ps') = (f', some s') := by
        rw [scanPillars, if_pos ⟨by rw [hs.1]; exact hc, hs.2.2.1⟩]
      rw [e1, e2]
      exact .inr ⟨s, s', rfl, rfl, hs, hf, ht, hc, by omega⟩
    · have e1 : scanPillars target f (s :: ps) = scanPillars target s ps := by
        rw [scanPillars, if_neg fun h => hc h.1]
      have e2 : scanPillars target f' (s' :: ps') = scanPillars target s' ps' := by
        rw [scanPillars, if_neg fun h => hc (by rw [← hs.1]; exact h.1)]
      rw [e1, e2]
      have hfs : f.date < s.date := (List.pairwise_cons.1 ho).1 s (by simp)
      rcases scan_near hr hs (List.pairwise_cons.1 ho).2 (not_le.1 hc) with h | ⟨a, a', h1, h2, h3, h4, h5, h6, h7⟩
      · exact .inl h
      · exact .inr ⟨a, a', h1, h2, h3, h4, h5, h6, by omega⟩

theorem zeroRate_near {ε : ℝ} {val : Int} {ps ps' : List Pillar} (hn : List.Forall₂ (PillarNear ε) ps ps')
    (ho : ps.Pairwise fun a b => a.date < b.date) {d : Int} {z z' : ℝ}
    (h : (Curve.mk val ps).zeroRate d = .ok z) (h' : (Curve.mk val ps').zeroRate d = .ok z') :
    |z' - z| ≤ ε := by
  unfold Curve.zeroRate at h h'
  obtain ⟨t, ht, h⟩ := bind_eq_ok.1 h
  obtain ⟨t', ht', h'⟩ := bind_eq_ok.1 h'
  obtain rfl : t = t' := ok.inj (ht.symm.trans ht')
  clear ht ht'
  cases hn with
  | nil => simp at h
  | @cons p p' rest rest' hp hr =>
    have v1 : ((p :: rest).find? fun p => !p.hidden).getD p = p := by simp [hp.2.1]
    have v2 : ((p' :: rest').find? fun p => !p.hidden).getD p' = p' := by simp [hp.2.2.1]
    dsimp only at h h'
    rw [v1] at h
    rw [v2] at h'
    by_cases hc : t ≤ p.date
    · have s1 : scanPillars t p (p :: rest) = (p, some p) := by rw [scanPillars, if_pos ⟨hc, hp.2.1⟩]
      have s2 : scanPillars t p' (p' :: rest') = (p', some p') := by
        rw [scanPillars, if_pos ⟨by rw [hp.1]; exact hc, hp.2.2.1⟩]
      rw [s1, if_pos (show (p, some p).2.getD p = p from rfl), ok.injEq] at h
      rw [s2, if_pos (show (p', some p').2.getD p' = p' from rfl), ok.injEq] at h'
      rw [← h, ← h']
      exact hp.2.2.2
    · have s1 : scanPillars t p (p :: rest) = scanPillars t p rest := by
        rw [scanPillars, if_neg fun h => hc h.1]
      have s2 : scanPillars t p' (p' :: rest') = scanPillars t p' rest' := by
        rw [scanPillars, if_neg fun h => hc (by rw [← hp.1]; exact h.1)]
      rw [s1] at h
      rw [s2] at h'
      rcases scan_near hr hp ho (not_le.1 hc) with ⟨e1, e2⟩ | ⟨s, s', e1, e2, e3, e4, e5, e6, e7⟩
      · rw [e1, Option.getD_none, if_pos rfl, ok.injEq] at h
        rw [e2, Option.getD_none, if_pos rfl, ok.injEq] at h'
        rw [← h, ← h']
        exact hp.2.2.2
      · have n1 : s ≠ p := by rintro rfl; exact absurd e7 (lt_irrefl _)
        have n2 : s' ≠ p' := by
          rintro rfl
          rw [← e3.1, hp.1] at e7
          exact absurd e7 (lt_irrefl _)
        rw [e1, Option.getD_some, if_neg n1] at h
        rw [e2, Option.getD_some, if_neg n2] at h'
        simp only [ok.injEq] at h h'
        rw [← h, ← h', e3.1, e4.1]
        generalize (scanPillars t p rest).1 = f at e4 e5 ⊢
        generalize (scanPillars t p' rest').1 = f' at e4 ⊢
        have d1 : (0 : ℝ) < ((t - f.date : Int) : ℝ) := by exact_mod_cast (by omega)
        have d2 : (0 : ℝ) ≤ ((s.date - t : Int) : ℝ) := by exact_mod_cast (by omega)
        generalize ((t - f.date : Int) : ℝ) = a at d1 ⊢
        generalize ((s.date - t : Int) : ℝ) = b at d2 ⊢
        have hab : 0 < a + b := by linarith
        have := mix_lip (w := a / (a + b)) (w' := b / (a + b)) (by positivity) (by positivity)
          (by rw [← add_div, div_self hab.ne']) e3.2.2.2 e4.2.2.2
        convert this using 2
        ring

/-! ## Caplet volatilities -/

theorem scanNodes_near {ε k fb fb' : ℝ} (hfb : |fb' - fb| ≤ ε) : ∀ {ns ns' : List (ℝ × ℝ)},
    List.Forall₂ (ValueNear ε) ns ns' → StrikesIncrease ns → |scanNodes k fb' ns' - scanNodes k fb ns| ≤ ε
  | [], _, .nil, _ => by simpa [scanNodes] using hfb
  | [_], _, .cons _ .nil, _ => by simpa [scanNodes] using hfb
  | a :: b :: ns, _, .cons (b := a') ha (.cons (b := b') (l₂ := ns') hb hr), ho => by
    rw [scanNodes, scanNodes, ha.1, hb.1]
    have hab : a.1 < b.1 := (List.pairwise_cons.1 ho).1 b (by simp)
    by_cases hc : a.1 ≤ k ∧ k ≤ b.1
    · rw [if_pos hc, if_pos hc]
      have hp : 0 < b.1 - a.1 := by linarith
      have h1 : 0 ≤ (k - a.1) / (b.1 - a.1) := div_nonneg (by linarith) hp.le
      have h2 : (k - a.1) / (b.1 - a.1) ≤ 1 := by rw [div_le_one hp]; linarith
      have := mix_lip (w := 1 - (k - a.1) / (b.1 - a.1)) (by linarith) h1 (by ring) ha.2 hb.2
      convert this using 2
      ring
    · rw [if_neg hc, if_neg hc]
      exact scanNodes_near hfb (.cons hb hr) (List.pairwise_cons.1 ho).2

theorem forall₂_getLast {α β : Type} {R : α → β → Prop} : ∀ {l : List α} {l' : List β}, List.Forall₂ R l l' →
    ∀ (h : l ≠ []) (h' : l' ≠ []), R (l.getLast h) (l'.getLast h')
  | [], _, .nil, h, _ => absurd rfl h
  | [_], _, .cons hx .nil, _, _ => by simpa using hx
  | a :: b :: l, _, .cons _ (.cons hb hr), _, _ => by
    rw [List.getLast_cons_cons, List.getLast_cons_cons]
    exact forall₂_getLast (.cons hb hr) _ _

theorem interpolateNodes_near {ε k : ℝ} {ns ns' : List (ℝ × ℝ)} (hn : List.Forall₂ (ValueNear ε) ns ns')
    (ho : StrikesIncrease ns) {v : ℝ} (h : interpolateNodes ns k = .ok v) :
    ∃ v', interpolateNodes ns' k = .ok v' ∧ |v' - v| ≤ ε := by
  match ns, ns', hn with
  | [], _, .nil => simp [interpolateNodes] at h
  | [a], _, .cons (b := a') ha .nil =>
    have := ok.inj h
    exact ⟨a'.2, rfl, by rw [← this]; exact ha.2⟩
  | a :: b :: ns, _, .cons (b := a') ha (.cons (b := b') (l₂ := ns') hb hr) =>
    have hl := forall₂_getLast (.cons hb hr : List.Forall₂ (ValueNear ε) (b :: ns) (b' :: ns')) (by simp) (by simp)
    rw [interpolateNodes] at h ⊢
    rw [ha.1, hl.1]
    by_cases h1 : k ≤ a.1
    · rw [if_pos h1] at h ⊢
      exact ⟨_, rfl, by rw [← ok.inj h]; exact ha.2⟩
    · rw [if_neg h1] at h ⊢
      by_cases h2 : ((b :: ns).getLast (by simp)).1 ≤ k
      · rw [if_pos h2] at h ⊢
        exact ⟨_, rfl, by rw [← ok.inj h]; exact hl.2⟩
      · rw [if_neg h2] at h ⊢
        exact ⟨_, rfl, by rw [← ok.inj h]; exact scanNodes_near hl.2 (.cons ha (.cons hb hr)) ho⟩

theorem pick_near {ε : ℝ} {d : Int} : ∀ {ps ps' : List CapletPillar}, List.Forall₂ (CapletNear ε) ps ps' →
    ∀ p, pickPillar d ps = some p → p ∈ ps ∧ ∃ p', pickPillar d ps' = some p' ∧ CapletNear ε p p' := by
  intro ps ps' h p hp
  have key : ∀ {ps ps' : List CapletPillar}, List.Forall₂ (CapletNear ε) ps ps' →
      (ps.find? (fun p => decide (d ≤ p.expiry)) = none ∧ ps'.find? (fun p => decide (d ≤ p.expiry)) = none) ∨
      ∃ p p', ps.find? (fun p => decide (d ≤ p.expiry)) = some p ∧
        ps'.find? (fun p => decide (d ≤ p.expiry)) = some p' ∧ CapletNear ε p p' ∧ p ∈ ps := by
    intro ps ps' h
    induction h with
    | nil => exact .inl ⟨rfl, rfl⟩
    | @cons a b l l' hab hr ih =>
      by_cases hc : d ≤ a.expiry
      · refine .inr ⟨a, b, List.find?_cons_of_pos (by simpa using hc),
          List.find?_cons_of_pos (by rw [hab.1]; simpa using hc), hab, by simp⟩
      · rw [List.find?_cons_of_neg (by simpa using hc), List.find?_cons_of_neg (by rw [hab.1]; simpa using hc)]
        rcases ih with ih | ⟨x, y, h1, h2, h3, h4⟩
        · exact .inl ih
        · exact .inr ⟨x, y, h1, h2, h3, List.mem_cons_of_mem _ h4⟩
  unfold pickPillar at hp ⊢
  rcases key h with ⟨h1, h2⟩ | ⟨x, y, h1, h2, h3, h4⟩
  · rw [h1] at hp
    rw [h2]
    dsimp only at hp ⊢
    have hne : ps ≠ [] := by rintro rfl; simp at hp
    have hne' : ps' ≠ [] := by rintro rfl; cases h; exact hne rfl
    rw [List.getLast?_eq_some_getLast hne] at hp
    rw [List.getLast?_eq_some_getLast hne']
    simp only [Option.some.injEq] at hp
    subst hp
    exact ⟨List.getLast_mem _, _, rfl, forall₂_getLast h hne hne'⟩
  · rw [h1] at hp
    rw [h2]
    dsimp only at hp ⊢
    simp only [Option.some.injEq] at hp
    subst hp
    exact ⟨h4, y, rfl, h3⟩

/-! ## FX volatilities between expiries -/

theorem volatility_near (ks : KeySearch) {s s' : FxVolSurface} {e : Int} {K ε v : ℝ}
    (hv : s'.valuation = s.valuation) (ho : (s.smiles.map Smile.expiry).Pairwise (· ≤ ·))
    (hy : ∀ sm ∈ s.smiles, 0 < sm.yearFraction ∧ sm.yearFraction = yf365 s.valuation sm.expiry)
    (hy' : ∀ sm ∈ s'.smiles, sm.yearFraction = yf365 s.valuation sm.expiry)
    (hs : List.Forall₂ (fun sm sm' : Smile => sm'.expiry = sm.expiry ∧ |sm'.volatility K - sm.volatility K| ≤ ε)
      s.smiles s'.smiles)
    (h : s.volatility ks e K = .ok v) : ∃ v', s'.volatility ks e K = .ok v' ∧ |v' - v| ≤ ε := by
  have hm : s'.smiles.map Smile.expiry = s.smiles.map Smile.expiry := by
    have : ∀ {l l' : List Smile}, List.Forall₂ (fun sm sm' : Smile => sm'.expiry = sm.expiry ∧
        |sm'.volatility K - sm.volatility K| ≤ ε) l l' → l'.map Smile.expiry = l.map Smile.expiry := by
      intro l l' h
      induction h with
      | nil => rfl
      | cons h _ ih => rw [List.map_cons, List.map_cons, ih, h.1]
    exact this hs
  have hlen : s'.smiles.length = s.smiles.length := hs.length_eq.symm
  have get : ∀ (i : ℕ) (sm : Smile), s.smiles[i]? = some sm → ∃ sm', s'.smiles[i]? = some sm' ∧
      sm'.expiry = sm.expiry ∧ |sm'.volatility K - sm.volatility K| ≤ ε := by
    intro i sm hi
    obtain ⟨hl, e1⟩ := List.getElem?_eq_some_iff.1 hi
    have hl' : i < s'.smiles.length := by omega
    have := List.forall₂_iff_get.1 hs
    have k := this.2 i hl hl'
    simp only [List.get_eq_getElem, e1] at k
    exact ⟨_, List.getElem?_eq_getElem hl', k⟩
  unfold FxVolSurface.volatility at h ⊢
  rw [hv, hm]
  by_cases hK : K ≤ 0
  · rw [if_pos hK] at h; cases h
  rw [if_neg hK] at h ⊢
  dsimp only at h ⊢
  by_cases hyf : yf365 s.valuation e ≤ 0
  · rw [if_pos hyf] at h; cases h
  rw [if_neg hyf] at h ⊢
  have copy : ∀ i : ℕ, (match s.smiles[i]? with
      | some sm => Outcome.ok (sm.volatility K)
      | none => .panic) = .ok v → ∃ v', (match s'.smiles[i]? with
      | some sm => Outcome.ok (sm.volatility K)
      | none => .panic) = .ok v' ∧ |v' - v| ≤ ε := by
    intro i hi
    cases e1 : s.smiles[i]? with
    | none => rw [e1] at hi; cases hi
    | some sm =>
      rw [e1] at hi
      obtain ⟨sm', e2, -, e3⟩ := get i sm e1
      rw [e2]
      exact ⟨_, rfl, by rw [← ok.inj hi]; exact e3⟩
  cases hf : ks.search (s.smiles.map Smile.expiry) e with
  | found i =>
    rw [hf] at h
    exact copy i h
  | missing i =>
    rw [hf] at h
    dsimp only at h ⊢
    by_cases h0 : i = 0
    · rw [if_pos h0] at h ⊢
      exact copy 0 h
    rw [if_neg h0] at h ⊢
    by_cases h1 : i = s.smiles.length
    · rw [if_pos h1] at h
      rw [if_pos (by rw [hlen]; exact h1)]
      exact copy (i - 1) h
    rw [if_neg h1] at h
    rw [if_neg (by rw [hlen]; exact h1)]
    obtain ⟨hi, hlt, hgt⟩ := ks.missing _ _ _ ho hf
    rw [List.length_map] at hi
    have el := List.getElem?_eq_getElem (l := s.smiles) (i := i - 1) (by omega)
    have eh := List.getElem?_eq_getElem (l := s.smiles) (i := i) (by omega)
    obtain ⟨lo', el', l1, l2⟩ := get _ _ el
    obtain ⟨hi', eh', u1, u2⟩ := get _ _ eh
    generalize s.smiles[i - 1]'(by omega) = lo at *
    generalize s.smiles[i]'(by omega) = hi at *
    rw [el, eh] at h
    rw [el', eh']
    dsimp only at h ⊢
    have a1 : lo.expiry < e := by
      refine hlt _ ?_
      rw [← List.map_take]
      exact List.mem_map_of_mem (List.mem_of_getElem? (i := i - 1)
        (by rw [List.getElem?_take_of_lt (by omega)]; exact el))
    have a2 : e < hi.expiry := by
      refine hgt _ ?_
      rw [← List.map_drop]
      refine List.mem_map_of_mem (List.mem_of_getElem? (i := 0) ?_)
      rw [List.getElem?_drop, Nat.add_zero]
      exact eh
    obtain ⟨p1, q1⟩ := hy lo (List.mem_of_getElem? el)
    obtain ⟨p2, q2⟩ := hy hi (List.mem_of_getElem? eh)
    have q1' := hy' lo' (List.mem_of_getElem? el')
    have q2' := hy' hi' (List.mem_of_getElem? eh')
    rw [l1, ← q1] at q1'
    rw [u1, ← q2] at q2'
    refine ⟨_, rfl, ?_⟩
    rw [← ok.inj h, q1', q2']
    have t1 : lo.yearFraction < yf365 s.valuation e := by
      rw [q1]
      unfold yf365
      refine div_lt_div_of_pos_right ?_ (by norm_num)
      exact_mod_cast (by omega)
    have t2 : yf365 s.valuation e < hi.yearFraction := by
      rw [q2]
      unfold yf365
      refine div_lt_div_of_pos_right ?_ (by norm_num)
      exact_mod_cast (by omega)
    generalize yf365 s.valuation e = T at *
    generalize lo.yearFraction = A at *
    generalize hi.yearFraction = B at *
    generalize lo.volatility K = x at *
    generalize hi.volatility K = y at *
    generalize lo'.volatility K = x' at *
    generalize hi'.volatility K = y' at *
    have hT : 0 < T := p1.trans t1
    have hBA : 0 < B - A := by linarith
    have := rms_lip (w := (B - T) * A / ((B - A) * T)) (w' := (T - A) * B / ((B - A) * T))
      (div_nonneg (mul_nonneg (by linarith) p1.le) (by positivity))
      (div_nonneg (mul_nonneg (by linarith) p2.le) (by positivity)) (by field_simp; ring) l2 u2
    have form : ∀ x y : ℝ, (x * x * A + (T - A) / (B - A) * (y * y * B - x * x * A)) / T =
        (B - T) * A / ((B - A) * T) * x ^ 2 + (T - A) * B / ((B - A) * T) * y ^ 2 := by
      intro x y
      field_simp
      ring
    rw [form, form]
    exact this

/-! ## Forward points -/

theorem lineThrough_near {ε : ℝ} {a b a' b' : Int × ℝ} {t : Int} (ha : ValueNear ε a a') (hb : ValueNear ε b b')
    (h1 : a.1 < t) (h2 : t < b.1) : |lineThrough a' b' t - lineThrough a b t| ≤ ε := by
  unfold lineThrough
  rw [ha.1, hb.1]
  have w1 : (0 : ℝ) < ((b.1 - t : Int) : ℝ) := by exact_mod_cast (by omega)
  have w2 : (0 : ℝ) < ((t - a.1 : Int) : ℝ) := by exact_mod_cast (by omega)
  have w3 : ((b.1 - a.1 : Int) : ℝ) = ((b.1 - t : Int) : ℝ) + ((t - a.1 : Int) : ℝ) := by push_cast; ring
  rw [w3]
  generalize ((b.1 - t : Int) : ℝ) = p at *
  generalize ((t - a.1 : Int) : ℝ) = q at *
  have hpq : 0 < p + q := by linarith
  have := mix_lip (w := p / (p + q)) (w' := q / (p + q)) (by positivity) (by positivity)
    (by rw [← add_div, div_self hpq.ne']) ha.2 hb.2
  convert this using 2
  ring

theorem forward_near {ops : SliceOps} {h h' : FwdHelper} {c : Cal} {t : Int} {ε : ℝ}
    {l l' : List (Int × ℝ)} (hd : Dated h c l) (hd' : Dated h' c l') (hv : h'.valuation = h.valuation)
    (hn : (l.map Prod.fst).Nodup) (hl : List.Forall₂ (ValueNear ε) l l') :
    QuoteNear ε (getForward ops h t c) (getForward ops h' t c) := by
  have hm : l'.map Prod.fst = l.map Prod.fst := by
    clear * - hl
    induction hl with
    | nil => rfl
    | cons h1 _ ih => rw [List.map_cons, List.map_cons, h1.1, ih]
  have hlen : l'.length = l.length := hl.length_eq.symm
  have hn' : (l'.map Prod.fst).Nodup := by rw [hm]; exact hn
  have mem : ∀ q ∈ l', ∃ p ∈ l, p.1 = q.1 := by
    intro q hq
    have : q.1 ∈ l.map Prod.fst := by rw [← hm]; exact List.mem_map_of_mem hq
    obtain ⟨p, hp, e⟩ := List.mem_map.1 this
    exact ⟨p, hp, e⟩
  have mem' : ∀ q ∈ l, ∃ p ∈ l', ValueNear ε q p := by
    clear * - hl
    induction hl with
    | nil => intro q hq; cases hq
    | @cons a b l l' hab _ ih =>
      intro q hq
      rcases List.mem_cons.1 hq with rfl | hq
      · exact ⟨b, by simp, hab⟩
      · obtain ⟨p, hp, e⟩ := ih q hq
        exact ⟨p, List.mem_cons_of_mem _ hp, e⟩
  by_cases ht : h.valuation < t
  swap
  · rw [C30_none_before (by omega), C30_none_before (by omega)]
    exact .inl ⟨rfl, rfl⟩
  by_cases hs : h.quotes.length < 2
  · rw [C30_none_few hd hs, C30_none_few hd' (by rw [hd'.length_eq, hlen, ← hd.length_eq]; exact hs)]
    exact .inl ⟨rfl, rfl⟩
  rcases C30_cases (ops := ops) hd ht (by omega) with ⟨v, h1, h2⟩ | ⟨h1, h2⟩ | ⟨a, b, h1, h2⟩
  · rw [h2]
    obtain ⟨⟨d, w⟩, hq', e1, e2⟩ := mem' _ h1
    dsimp only at e1 e2
    subst e1
    rw [C30_exact hd' (by omega) (by rw [hd'.length_eq, hlen, ← hd.length_eq]; omega) hq'
      (fun w' hw => congrArg Prod.snd (eq_of_mem_distinct hn' hw hq' rfl))]
    exact .inr ⟨_, _, rfl, rfl, e2⟩
  · rw [h2, C30_none_outside hd' ?_]
    · exact .inl ⟨rfl, rfl⟩
    rcases h1 with h1 | h1
    · left
      intro q hq
      obtain ⟨p, hp, e⟩ := mem q hq
      rw [← e]; exact h1 p hp
    · right
      intro q hq
      obtain ⟨p, hp, e⟩ := mem q hq
      rw [← e]; exact h1 p hp
  · obtain ⟨ha, hb, hat, htb, hgap⟩ := h1
    rw [h2]
    obtain ⟨a', ha', ea⟩ := mem' a ha
    obtain ⟨b', hb', eb⟩ := mem' b hb
    rw [C30_linear hd' (a := a') (b := b') (by omega) ⟨ha', hb', by rw [ea.1]; exact hat, by rw [eb.1]; exact htb, ?_⟩ ?_ ?_]
    · exact .inr ⟨_, _, rfl, rfl, lineThrough_near ea eb hat htb⟩
    · intro q hq
      obtain ⟨p, hp, e⟩ := mem q hq
      rw [← e, ea.1, eb.1]; exact hgap p hp
    · intro q hq e
      exact eq_of_mem_distinct hn' hq ha' e
    · intro q hq e
      exact eq_of_mem_distinct hn' hq hb' e

/-! ## Discount factors and forward rates -/

theorem zeroRate_near_ok {ε : ℝ} {val : Int} {ps ps' : List Pillar} (hn : List.Forall₂ (PillarNear ε) ps ps')
    {d : Int} {z : ℝ} (h : (Curve.mk val ps).zeroRate d = .ok z) :
    ∃ z', (Curve.mk val ps').zeroRate d = .ok z' := by
  unfold Curve.zeroRate at h ⊢
  obtain ⟨t, ht, h⟩ := bind_eq_ok.1 h
  rw [ht, ok_bind]
  cases hn with
  | nil => cases h
  | cons _ _ =>
    dsimp only
    split
    · exact ⟨_, rfl⟩
    · exact ⟨_, rfl⟩

theorem zeroRate_step {ε : ℝ} {val : Int} {ps ps' : List Pillar} (hn : List.Forall₂ (PillarNear ε) ps ps')
    (ho : ps.Pairwise fun a b => a.date < b.date) {d : Int} {z : ℝ}
    (h : (Curve.mk val ps).zeroRate d = .ok z) :
    ∃ z', (Curve.mk val ps').zeroRate d = .ok z' ∧ |z' - z| ≤ ε := by
  obtain ⟨z', h'⟩ := zeroRate_near_ok hn h
  exact ⟨z', h', zeroRate_near hn ho h h'⟩

theorem discount_near {ε : ℝ} {val : Int} {ps ps' : List Pillar} (hn : List.Forall₂ (PillarNear ε) ps ps')
    (ho : ps.Pairwise fun a b => a.date < b.date) {d : Int} {x : ℝ}
    (h : (Curve.mk val ps).discount d = .ok x) :
    ∃ x', (Curve.mk val ps').discount d = .ok x' ∧ |Real.log x' - Real.log x| ≤ ε * |yf365 val d| := by
  unfold Curve.discount at h ⊢
  obtain ⟨z, hz, h⟩ := bind_eq_ok.1 h
  obtain ⟨z', hz', hd⟩ := zeroRate_step hn ho hz
  rw [hz', ok_bind]
  refine ⟨_, rfl, ?_⟩
  rw [← ok.inj h, Real.log_exp, Real.log_exp]
  dsimp only
  rw [show -z' * yf365 val d - -z * yf365 val d = -((z' - z) * yf365 val d) by ring, abs_neg, abs_mul]
  exact mul_le_mul_of_nonneg_right hd (abs_nonneg _)

theorem forwardRate_near {ε : ℝ} {val : Int} {ps ps' : List Pillar} (hn : List.Forall₂ (PillarNear ε) ps ps')
    (ho : ps.Pairwise fun a b => a.date < b.date) {d e : Int} {p : Period} {f : ℝ}
    (he : addPeriod d p = .ok e) (h : (Curve.mk val ps).forwardRate d p = .ok f) :
    ∃ f', (Curve.mk val ps').forwardRate d p = .ok f' ∧
      |f' - f| ≤ ε * ((|yf365 val d| + |yf365 val e|) / |yf365 val e - yf365 val d|) := by
  unfold Curve.forwardRate at h ⊢
  rw [he, ok_bind] at h ⊢
  obtain ⟨z1, hz1, h⟩ := bind_eq_ok.1 h
  obtain ⟨z2, hz2, h⟩ := bind_eq_ok.1 h
  obtain ⟨y1, hy1, k1⟩ := zeroRate_step hn ho hz1
  obtain ⟨y2, hy2, k2⟩ := zeroRate_step hn ho hz2
  rw [hy1, ok_bind, hy2, ok_bind]
  refine ⟨_, rfl, ?_⟩
  rw [← ok.inj h]
  dsimp only
  rw [Real.log_div (Real.exp_ne_zero _) (Real.exp_ne_zero _), Real.log_div (Real.exp_ne_zero _) (Real.exp_ne_zero _),
    Real.log_exp, Real.log_exp, Real.log_exp, Real.log_exp, ← sub_div, abs_div, ← mul_div_assoc]
  refine div_le_div_of_nonneg_right ?_ (abs_nonneg _)
  generalize yf365 val d = t1 at *
  generalize yf365 val e = t2 at *
  rw [show -y1 * t1 - -y2 * t2 - (-z1 * t1 - -z2 * t2) = (y2 - z2) * t2 - (y1 - z1) * t1 by ring]
  refine (abs_sub _ _).trans ?_
  rw [abs_mul, abs_mul, mul_add]
  have := mul_le_mul_of_nonneg_right k1 (abs_nonneg t1)
  have := mul_le_mul_of_nonneg_right k2 (abs_nonneg t2)
  linarith

/-! ## Caps -/

theorem capletVariance_scale (style : CapStyle) (sigma a b : ℝ) :
    capletTotalVariance style sigma a b = sigma ^ 2 * capletTotalVariance style 1 a b := by
  unfold capletTotalVariance
  by_cases h : b ≤ 0
  · rw [if_pos h, if_pos h, mul_zero]
  rw [if_neg h, if_neg h]
  cases style
  · dsimp only
    ring
  · dsimp only
    by_cases h' : 0 ≤ a
    · rw [if_pos h', if_pos h']; ring
    · rw [if_neg h', if_neg h']; ring

theorem capletDeviation_near {ε : ℝ} (style : CapStyle) {s s' : ℝ} (a b : ℝ) (h : |s' - s| ≤ ε) :
    |√(capletTotalVariance style s' a b) - √(capletTotalVariance style s a b)|
      ≤ ε * √(capletTotalVariance style 1 a b) := by
  rw [capletVariance_scale style s', capletVariance_scale style s, Real.sqrt_mul (sq_nonneg _),
    Real.sqrt_mul (sq_nonneg _), Real.sqrt_sq_eq_abs, Real.sqrt_sq_eq_abs, ← sub_mul, abs_mul,
    abs_of_nonneg (Real.sqrt_nonneg _)]
  exact mul_le_mul_of_nonneg_right ((abs_abs_sub_abs_le _ _).trans h) (Real.sqrt_nonneg _)

theorem capletVolatility_near {ε k v : ℝ} {vs vs' : List CapletPillar} {d : Int}
    (hn : List.Forall₂ (CapletNear ε) vs vs') (ho : ∀ p ∈ vs, StrikesIncrease p.nodes)
    (h : capletVolatility vs d k = .ok v) : ∃ v', capletVolatility vs' d k = .ok v' ∧ |v' - v| ≤ ε := by
  unfold capletVolatility at h ⊢
  cases hp : pickPillar d vs with
  | none => rw [hp] at h; cases h
  | some p =>
    rw [hp] at h
    obtain ⟨hm, p', hp', hc⟩ := pick_near hn p hp
    rw [hp']
    exact interpolateNodes_near hc.2 (ho p hm) h

theorem capPv_near {c : CapFloor} {cv : Curve} {vs vs' : List CapletPillar} {r v x ε : ℝ} {w : SchedPeriod → ℝ}
    (hn : List.Forall₂ (CapletNear ε) vs vs') (ho : ∀ p ∈ vs, StrikesIncrease p.nodes)
    (hw : ∀ p ∈ c.schedule, ∀ tau dp, c.yearFraction p.start p.fin = .ok tau →
      cv.shiftedDiscount p.pay r = .ok dp →
      |tau| * |dp| * √(capletTotalVariance c.style 1 (yf365 c.valuation p.start) (yf365 c.valuation p.fin)) ≤ w p)
    (h : c.pv cv vs r v = .ok x) :
    ∃ x', c.pv cv vs' r v = .ok x' ∧
      |x' - x| ≤ |c.notional| * (c.schedule.map w).sum * (ε / √(2 * Real.pi)) := by
  obtain ⟨ms, h1, rfl⟩ := pv_ok.1 h
  clear h
  have key : ∀ (ps : List SchedPeriod) (ms : List CapletMarket), (∀ p ∈ ps, p ∈ c.schedule) →
      List.Forall₂ (fun p m => c.market p cv vs r v = .ok m) ps ms →
      ∃ ms', List.Forall₂ (fun p m => c.market p cv vs' r v = .ok m) ps ms' ∧
        |(ms'.map fun m => c.direction.sign * c.notional * m.tau * m.dfPay * optionValue c.kind c.strike m).sum -
          (ms.map fun m => c.direction.sign * c.notional * m.tau * m.dfPay * optionValue c.kind c.strike m).sum|
          ≤ |c.notional| * (ps.map w).sum * (ε / √(2 * Real.pi)) := by
    intro ps ms hs h1
    induction h1 with
    | nil => exact ⟨[], .nil, by simp⟩
    | @cons p m ps ms hm hr ih =>
      obtain ⟨ms', g1, g2⟩ := ih (fun q hq => hs q (List.mem_cons_of_mem _ hq))
      obtain ⟨tau, ds, de, dp, s, e1, e2, e3, e4, e5, rfl⟩ := market_ok.1 hm
      obtain ⟨s', e6, e7⟩ := capletVolatility_near hn ho e5
      refine ⟨_ :: ms', .cons (market_ok.2 ⟨tau, ds, de, dp, s', e1, e2, e3, e4, e6, rfl⟩) g1, ?_⟩
      have hwp := hw p (hs p (by simp)) tau dp e1 e4
      have hε : 0 ≤ ε := (abs_nonneg _).trans e7
      have dev := capletDeviation_near c.style (s := s + v * (1 / 10000)) (s' := s' + v * (1 / 10000))
        (yf365 c.valuation p.start) (yf365 c.valuation p.fin) (ε := ε) (by
          rw [show s' + v * (1 / 10000) - (s + v * (1 / 10000)) = s' - s by ring]; exact e7)
      generalize yf365 c.valuation p.start = a at *
      generalize yf365 c.valuation p.fin = b at *
      generalize capletTotalVariance c.style (s + v * (1 / 10000)) a b = V at *
      generalize capletTotalVariance c.style (s' + v * (1 / 10000)) a b = V' at *
      generalize √(capletTotalVariance c.style 1 a b) = q at *
      have hpi : 0 < √(2 * Real.pi) := Real.sqrt_pos.2 (by positivity)
      have opt : |optionValue c.kind c.strike ⟨tau, dp, (ds / de - 1) / tau, V'⟩ -
          optionValue c.kind c.strike ⟨tau, dp, (ds / de - 1) / tau, V⟩| ≤ ε * q / √(2 * Real.pi) := by
        have hb := bach_vol_lip ((ds / de - 1) / tau) c.strike V V'
        have := div_le_div_of_nonneg_right dev hpi.le
        cases hk : c.kind
        · exact hb.1.trans this
        · exact hb.2.trans this
      have sgn : |c.direction.sign| = 1 := by cases c.direction <;> simp [Direction.sign]
      rw [List.map_cons, List.map_cons, List.sum_cons, List.sum_cons, List.map_cons, List.sum_cons]
      generalize optionValue c.kind c.strike ⟨tau, dp, (ds / de - 1) / tau, V'⟩ = o' at *
      generalize optionValue c.kind c.strike ⟨tau, dp, (ds / de - 1) / tau, V⟩ = o at *
      have one : |c.direction.sign * c.notional * tau * dp * o' - c.direction.sign * c.notional * tau * dp * o|
          ≤ |c.notional| * w p * (ε / √(2 * Real.pi)) := by
        rw [← mul_sub, abs_mul, abs_mul, abs_mul, abs_mul, sgn, one_mul]
        have s1 : |c.notional| * |tau| * |dp| * |o' - o| ≤ |c.notional| * |tau| * |dp| * (ε * q / √(2 * Real.pi)) :=
          mul_le_mul_of_nonneg_left opt (by positivity)
        have s2 : |c.notional| * |tau| * |dp| * (ε * q / √(2 * Real.pi)) =
            |c.notional| * (|tau| * |dp| * q) * (ε / √(2 * Real.pi)) := by ring
        have s3 : |c.notional| * (|tau| * |dp| * q) * (ε / √(2 * Real.pi)) ≤
            |c.notional| * w p * (ε / √(2 * Real.pi)) :=
          mul_le_mul_of_nonneg_right (mul_le_mul_of_nonneg_left hwp (abs_nonneg _)) (div_nonneg hε hpi.le)
        linarith
      dsimp only
      refine (abs_le.2 ?_)
      have u1 := abs_le.1 one
      have u2 := abs_le.1 g2
      rw [mul_add, add_mul]
      constructor <;> linarith [u1.1, u1.2, u2.1, u2.2]
  obtain ⟨ms', g1, g2⟩ := key c.schedule ms (fun _ h => h) h1
  exact ⟨_, pv_ok.2 ⟨ms', g1, rfl⟩, g2⟩

end Verif
