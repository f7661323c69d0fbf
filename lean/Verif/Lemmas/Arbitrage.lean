import Verif.Spec.Arbitrage
import Verif.Lemmas.Inverse
import Verif.Props.ExpectedPayoff
import Verif.Props.Sabr
import Mathlib.Analysis.SpecialFunctions.Pow.Asymptotics
import Mathlib.Analysis.Real.Pi.Bounds
import Mathlib.MeasureTheory.Integral.DominatedConvergence

/-!
# Lemmas on prices without arbitrage between strikes
-/

namespace Verif

open MeasureTheory Filter Topology

/-! ## Mean payoffs of a law -/

theorem law_payoff_integrable {μ : Measure ℝ} [IsProbabilityMeasure μ]
    (h : Integrable (fun s : ℝ => s) μ) (K : ℝ) : Integrable (fun s : ℝ => max (s - K) 0) μ :=
  (h.sub (integrable_const K)).pos_part

theorem law_antitone {F : ℝ} {C : ℝ → ℝ} (h : CallsOfLaw F C) {K L : ℝ} (hK : 0 < K) (hL : K ≤ L) :
    C L ≤ C K := by
  obtain ⟨μ, hμ, -, hi, -, hC⟩ := h
  rw [hC K hK, hC L (hK.trans_le hL)]
  refine integral_mono (law_payoff_integrable hi _) (law_payoff_integrable hi _) fun s => ?_
  exact max_le_max (by linarith) le_rfl

theorem law_tendsto {F : ℝ} {C : ℝ → ℝ} (h : CallsOfLaw F C) : Tendsto C atTop (𝓝 0) := by
  obtain ⟨μ, hμ, h0, hi, -, hC⟩ := h
  have key : Tendsto (fun K : ℝ => ∫ s, max (s - K) 0 ∂μ) atTop (𝓝 (∫ _, (0 : ℝ) ∂μ)) := by
    refine tendsto_integral_filter_of_dominated_convergence (fun s => |s|)
      (.of_forall fun K => (law_payoff_integrable hi K).aestronglyMeasurable) ?_ hi.abs ?_
    · filter_upwards [eventually_ge_atTop 0] with K hK
      filter_upwards with s
      rw [Real.norm_eq_abs, abs_of_nonneg (le_max_right _ _)]
      exact max_le (by linarith [le_abs_self s]) (abs_nonneg s)
    · filter_upwards with s
      refine tendsto_const_nhds.congr' ?_
      filter_upwards [eventually_ge_atTop s] with K hK
      rw [max_eq_right (by linarith)]
  rw [integral_zero] at key
  refine key.congr' ?_
  filter_upwards [eventually_gt_atTop 0] with K hK
  rw [hC K hK]

/-- The value of a put per unit of strike grows with the strike. -/
theorem law_put_ratio {F : ℝ} {C : ℝ → ℝ} (h : CallsOfLaw F C) {K L : ℝ} (hK : 0 < K) (hL : K ≤ L) :
    (C K - F + K) / K ≤ (C L - F + L) / L := by
  obtain ⟨μ, hμ, h0, hi, hF, hC⟩ := h
  have put : ∀ K > 0, (C K - F + K) / K = ∫ s, max (1 - s / K) 0 ∂μ := by
    intro K hK
    have e : ∀ s : ℝ, max (1 - s / K) 0 = (max (s - K) 0 - s + K) / K := by
      intro s
      rcases le_total s K with hs | hs
      · have h1 : max (s - K) 0 = 0 := max_eq_right (by linarith)
        have h2 : max (1 - s / K) 0 = 1 - s / K :=
          max_eq_left (by rw [sub_nonneg, div_le_one hK]; exact hs)
        rw [h1, h2]
        field_simp; ring
      · have h1 : max (s - K) 0 = s - K := max_eq_left (by linarith)
        have h2 : max (1 - s / K) 0 = 0 :=
          max_eq_right (by rw [sub_nonpos, one_le_div hK]; exact hs)
        rw [h1, h2]
        ring
    simp only [e]
    have h1 := integral_add (f := fun s : ℝ => max (s - K) 0 - s) (g := fun _ => K)
      ((law_payoff_integrable hi K).sub hi) (integrable_const K)
    have h2 := integral_sub (f := fun s : ℝ => max (s - K) 0) (g := fun s : ℝ => s)
      (law_payoff_integrable hi K) hi
    rw [integral_div, h1, h2, hF, ← hC K hK]
    simp
  rw [put K hK, put L (hK.trans_le hL)]
  have ii : ∀ K : ℝ, Integrable (fun s : ℝ => max (1 - s / K) 0) μ := fun K =>
    ((integrable_const 1).sub (hi.div_const K)).pos_part
  refine integral_mono_ae (ii K) (ii L) ?_
  filter_upwards [h0] with s hs
  refine max_le_max ?_ le_rfl
  have : s / L ≤ s / K := div_le_div_of_nonneg_left hs hK hL
  linarith

theorem law_of_draw {F : ℝ} {g : ℝ → ℝ} (hg : Measurable g) (h0 : ∀ z, 0 ≤ g z)
    (hi : Integrable g (ProbabilityTheory.gaussianReal 0 1)) (hm : meanOverDraw g = F)
    {C : ℝ → ℝ} (hC : ∀ K > 0, C K = meanOverDraw fun z => max (g z - K) 0) : CallsOfLaw F C := by
  refine ⟨(ProbabilityTheory.gaussianReal 0 1).map g, Measure.isProbabilityMeasure_map hg.aemeasurable,
    ?_, ?_, ?_, fun K hK => ?_⟩
  · exact (ae_map_iff hg.aemeasurable measurableSet_Ici).2 (.of_forall h0)
  · exact (integrable_map_measure aestronglyMeasurable_id hg.aemeasurable).2 hi
  · rw [integral_map (f := fun s : ℝ => s) hg.aemeasurable aestronglyMeasurable_id]; exact hm
  · rw [hC K hK, integral_map hg.aemeasurable (by fun_prop)]; rfl

/-! ## Black prices in the wings -/

theorem mills {y : ℝ} (hy : 1 ≤ y) : normCdf (-y) ≤ normPdf y := by
  have hd : ∀ x, HasDerivAt (fun x => normPdf x + normCdf x - 1) ((1 - x) * normPdf x) x := fun x => by
    have := ((hasDerivAt_normPdf x).add (hasDerivAt_normCdf x)).sub_const 1
    exact this.congr_deriv (by ring)
  have ha : AntitoneOn (fun x => normPdf x + normCdf x - 1) (Set.Ici 1) := by
    refine antitoneOn_of_deriv_nonpos (convex_Ici 1)
      (fun x _ => (hd x).continuousAt.continuousWithinAt)
      (fun x _ => (hd x).differentiableAt.differentiableWithinAt) fun x hx => ?_
    rw [interior_Ici] at hx
    rw [(hd x).deriv]
    exact mul_nonpos_of_nonpos_of_nonneg (by linarith [Set.mem_Ioi.1 hx]) (normPdf_pos x).le
  have hb : ∀ᶠ x in atTop, normCdf x - 1 ≤ normPdf y + normCdf y - 1 := by
    filter_upwards [eventually_ge_atTop y] with x hx
    have := ha (Set.mem_Ici.2 hy) (Set.mem_Ici.2 (hy.trans hx)) hx
    have := normPdf_pos x
    linarith
  have ht : Tendsto (fun x => normCdf x - 1) atTop (𝓝 0) := by
    simpa using tendsto_normCdf_atTop.sub_const 1
  have := le_of_tendsto ht hb
  rw [normCdf_neg]
  linarith

theorem wing_mono : MonotoneOn (fun x => normCdf x - normPdf x) (Set.Ici 0) := by
  have hd : ∀ x, HasDerivAt (fun x => normCdf x - normPdf x) ((1 + x) * normPdf x) x := fun x => by
    have := (hasDerivAt_normCdf x).sub (hasDerivAt_normPdf x)
    exact this.congr_deriv (by ring)
  refine monotoneOn_of_deriv_nonneg (convex_Ici 0) (fun x _ => (hd x).continuousAt.continuousWithinAt)
    (fun x _ => (hd x).differentiableAt.differentiableWithinAt) fun x hx => ?_
  rw [interior_Ici] at hx
  rw [(hd x).deriv]
  exact mul_nonneg (by linarith [Set.mem_Ioi.1 hx]) (normPdf_pos x).le

theorem wing_zero {y : ℝ} (hy : 0 ≤ y) : 1 / 10 ≤ normCdf y - normPdf y := by
  refine le_trans ?_ (wing_mono (Set.mem_Ici.2 le_rfl) (Set.mem_Ici.2 hy) hy)
  show 1 / 10 ≤ normCdf 0 - normPdf 0
  have h1 : normPdf 0 = 1 / √(2 * Real.pi) := by simp [normPdf]
  have h2 : (5 / 2 : ℝ) ≤ √(2 * Real.pi) := by
    refine Real.le_sqrt_of_sq_le ?_
    have := Real.pi_gt_d2
    norm_num at this ⊢
    linarith
  have h3 : 1 / √(2 * Real.pi) ≤ 2 / 5 := by
    rw [div_le_iff₀ (by linarith)]; linarith
  rw [normCdf_zero, h1]
  linarith

theorem wing_tendsto : Tendsto (fun x => normCdf x - normPdf x) atTop (𝓝 1) := by
  have : Tendsto normPdf atTop (𝓝 0) := by
    refine tendsto_of_tendsto_of_tendsto_of_le_of_le' tendsto_const_nhds
      (show Tendsto (fun x : ℝ => Real.exp (-x)) atTop (𝓝 0) from Real.tendsto_exp_neg_atTop_nhds_zero)
      (.of_forall fun x => (normPdf_pos x).le) ?_
    filter_upwards [eventually_ge_atTop 2] with x hx
    rw [normPdf, div_le_iff₀ (by positivity)]
    have h1 : (1 : ℝ) ≤ √(2 * Real.pi) := by
      refine Real.le_sqrt_of_sq_le ?_
      have := Real.pi_gt_d2; linarith
    have h2 : Real.exp (-x ^ 2 / 2) ≤ Real.exp (-x) := Real.exp_le_exp.2 (by nlinarith)
    nlinarith [Real.exp_pos (-x)]
  simpa using tendsto_normCdf_atTop.sub this

/-- A lower bound for calls with a strike above the forward. -/
theorem call_wing {F K sg t : ℝ} (hF : 0 < F) (hK : 0 < K) (hs : 0 < sg) (ht : 0 < t)
    (hx : 1 / 2 ≤ Real.log (K / F)) :
    F * (normCdf (sg * √t / 2 - Real.log (K / F) / (sg * √t))
      - normPdf (sg * √t / 2 - Real.log (K / F) / (sg * √t))) ≤ bsCallForward F K sg t 1 := by
  unfold bsCallForward
  rw [if_neg (by rw [not_or, not_le, not_le]; exact ⟨hs, ht⟩)]
  dsimp only
  have hq : 0 < √t := Real.sqrt_pos.2 ht
  have hV : √t * √t = t := Real.mul_self_sqrt ht.le
  have hl : Real.log (F / K) = -Real.log (K / F) := by rw [← Real.log_inv, inv_div]
  have hKF : K = F * Real.exp (Real.log (K / F)) := by
    rw [Real.exp_log (by positivity)]; field_simp
  rw [hl]
  generalize Real.log (K / F) = x at *
  have hv : 0 < sg * √t := mul_pos hs hq
  have e1 : (-x + 1 / 2 * sg * sg * t) / (sg * √t) = sg * √t / 2 - x / (sg * √t) := by
    nth_rw 1 [← hV]; field_simp; ring
  rw [e1]
  generalize sg * √t = v at *
  have e2 : v / 2 - x / v - v = -(v / 2 + x / v) := by ring
  rw [e2, one_mul]
  have hy : 1 ≤ v / 2 + x / v := by
    have : v / 2 + x / v = (v ^ 2 + 2 * x) / (2 * v) := by field_simp
    rw [this, le_div_iff₀ (by linarith)]
    nlinarith [sq_nonneg (v - 1)]
  have hp : K * normPdf (v / 2 + x / v) = F * normPdf (v / 2 - x / v) := by
    rw [hKF, normPdf, normPdf, mul_assoc, ← mul_div_assoc, ← Real.exp_add]
    congr 3
    field_simp
    ring
  have := mul_le_mul_of_nonneg_left (mills hy) hK.le
  rw [hp] at this
  linarith

/-- The volatility of a smile without arbitrage stays below `√(2 log (K / F) / t)` at high strikes. -/
theorem lee_high {F t : ℝ} (hF : 0 < F) (ht : 0 < t) {sg C : ℝ → ℝ}
    (hC : ∀ K > 0, C K = bsCallForward F K (sg K) t 1) (h : CallsOfLaw F C) :
    ∀ᶠ K in atTop, sg K * √t < √(2 * Real.log (K / F)) := by
  have h1 := (law_tendsto h).eventually (gt_mem_nhds (show (0 : ℝ) < F * (1 / 10) by positivity))
  have h2 : Tendsto (fun K => Real.log (K / F)) atTop atTop :=
    Real.tendsto_log_atTop.comp (tendsto_id.atTop_div_const hF)
  filter_upwards [h1, h2.eventually_ge_atTop (1 / 2), eventually_gt_atTop 0] with K hc hx hK
  by_contra hv
  rw [not_lt] at hv
  have hq : 0 < √t := Real.sqrt_pos.2 ht
  have hp : 0 < √(2 * Real.log (K / F)) := Real.sqrt_pos.2 (by linarith)
  have hs : 0 < sg K := by
    by_contra hn
    rw [not_lt] at hn
    have := mul_nonpos_of_nonpos_of_nonneg hn hq.le
    linarith
  have hw := call_wing hF hK hs ht hx
  rw [← hC K hK] at hw
  have hsq : 2 * Real.log (K / F) ≤ (sg K * √t) ^ 2 := by
    rw [← Real.sq_sqrt (show 0 ≤ 2 * Real.log (K / F) by linarith)]
    exact pow_le_pow_left₀ hp.le hv 2
  have hv0 : 0 < sg K * √t := mul_pos hs hq
  have hd : 0 ≤ sg K * √t / 2 - Real.log (K / F) / (sg K * √t) := by
    rw [sub_nonneg, div_le_div_iff₀ hv0 two_pos]
    nlinarith
  have := mul_le_mul_of_nonneg_left (wing_zero hd) hF.le
  linarith

theorem bsCall_lt {F K : ℝ} (hF : 0 < F) (hK : 0 < K) (sg t : ℝ) : bsCallForward F K sg t 1 < F := by
  unfold bsCallForward
  by_cases h : sg ≤ 0 ∨ t ≤ 0
  · rw [if_pos h, one_mul]
    exact max_lt (by linarith) hF
  · rw [if_neg h, one_mul]
    set d := (Real.log (F / K) + 1 / 2 * sg * sg * t) / (sg * √t)
    have h1 := mul_lt_mul_of_pos_left (normCdf_lt_one d) hF
    have h2 := mul_pos hK (normCdf_pos (d - sg * √t))
    linarith

theorem bsPut_lt {F K : ℝ} (hF : 0 < F) (hK : 0 < K) (sg t : ℝ) : bsPutForward F K sg t 1 < K := by
  rw [bsPut_inverse hF hK]
  have := mul_lt_mul_of_pos_left (bsCall_lt (one_div_pos.2 hF) (one_div_pos.2 hK) sg t) (mul_pos hF hK)
  refine this.trans_eq ?_
  field_simp

theorem bs_forward_parity {F K : ℝ} (hF : 0 < F) (hK : 0 < K) (sg t : ℝ) :
    bsCallForward F K sg t 1 - bsPutForward F K sg t 1 = F - K := by
  by_cases h : sg ≤ 0 ∨ t ≤ 0
  · rw [bsCallForward, bsPutForward, if_pos h, if_pos h, one_mul, one_mul]
    rcases le_total F K with hk | hk
    · rw [max_eq_right (by linarith : F - K ≤ 0), max_eq_left (by linarith : 0 ≤ K - F)]; ring
    · rw [max_eq_left (by linarith : 0 ≤ F - K), max_eq_right (by linarith : K - F ≤ 0)]; ring
  · rw [not_or, not_le, not_le] at h
    rw [bsCall_core h.1 h.2, bsPut_core hF hK h.1 h.2, one_mul, one_mul]
    exact blackCore_parity hF hK (mul_pos h.1 (Real.sqrt_pos.2 h.2)).ne'

/-- Where the total volatility outgrows the root of the log-moneyness a call costs almost the
forward. -/
theorem call_almost_forward {b : ℝ} (hb : b < 1) : ∃ y0 : ℝ, ∀ {F K sg t : ℝ}, 0 < F → 0 < K → 0 < t →
    y0 ≤ Real.log (K / F) → 2 * √(Real.log (K / F)) ≤ sg * √t → F * b < bsCallForward F K sg t 1 := by
  obtain ⟨y, hy⟩ := (wing_tendsto.eventually (lt_mem_nhds hb)).exists_forall_of_atTop
  refine ⟨max 1 ((2 * y) ^ 2), fun {F K sg t} hF hK ht hx hM => ?_⟩
  have hq : 0 < √t := Real.sqrt_pos.2 ht
  have x1 : 1 ≤ Real.log (K / F) := (le_max_left _ _).trans hx
  have x2 : (2 * y) ^ 2 ≤ Real.log (K / F) := (le_max_right _ _).trans hx
  have hr : 0 < √(Real.log (K / F)) := Real.sqrt_pos.2 (by linarith)
  have hs : 0 < sg := by
    by_contra hn
    rw [not_lt] at hn
    have := mul_nonpos_of_nonpos_of_nonneg hn hq.le
    nlinarith
  have hv : 0 < sg * √t := mul_pos hs hq
  have hd : y ≤ sg * √t / 2 - Real.log (K / F) / (sg * √t) := by
    have hr2 : √(Real.log (K / F)) ^ 2 = Real.log (K / F) := Real.sq_sqrt (by linarith)
    have hy2 : 2 * y ≤ √(Real.log (K / F)) := Real.le_sqrt_of_sq_le x2
    have h4 : Real.log (K / F) / (sg * √t) ≤ √(Real.log (K / F)) / 2 := by
      rw [div_le_div_iff₀ hv two_pos]
      nlinarith
    linarith
  exact (mul_lt_mul_of_pos_left (hy _ hd) hF).trans_le (call_wing hF hK hs ht (by linarith))

theorem put_almost_strike {b : ℝ} (hb : b < 1) : ∃ y0 : ℝ, ∀ {F K sg t : ℝ}, 0 < F → 0 < K → 0 < t →
    y0 ≤ Real.log (F / K) → 2 * √(Real.log (F / K)) ≤ sg * √t → K * b < bsPutForward F K sg t 1 := by
  obtain ⟨y0, h⟩ := call_almost_forward hb
  refine ⟨y0, fun {F K sg t} hF hK ht hx hM => ?_⟩
  have e : Real.log (1 / K / (1 / F)) = Real.log (F / K) := by congr 1; field_simp
  have := h (one_div_pos.2 hF) (one_div_pos.2 hK) ht (by rwa [e]) (by rwa [e])
  rw [bsPut_inverse hF hK]
  calc K * b = F * K * (1 / F * b) := by field_simp
    _ < _ := mul_lt_mul_of_pos_left this (mul_pos hF hK)

theorem log_high (F : ℝ) (hF : 0 < F) : Tendsto (fun K => Real.log (K / F)) atTop atTop :=
  Real.tendsto_log_atTop.comp (tendsto_id.atTop_div_const hF)

theorem log_low (F : ℝ) (hF : 0 < F) : Tendsto (fun K => Real.log (F / K)) (𝓝[>] 0) atTop := by
  refine Real.tendsto_log_atTop.comp ?_
  change Tendsto (fun K : ℝ => F * K⁻¹) _ _
  exact tendsto_inv_nhdsGT_zero.const_mul_atTop hF

/-- At low strikes it cannot stay above twice `√(log (F / K) / t)`. -/
theorem lee_low {F t : ℝ} (hF : 0 < F) (ht : 0 < t) {sg C : ℝ → ℝ}
    (hC : ∀ K > 0, C K = bsCallForward F K (sg K) t 1) (h : CallsOfLaw F C) :
    ∃ᶠ K in 𝓝[>] 0, sg K * √t < 2 * √(Real.log (F / K)) := by
  by_contra hcon
  rw [not_frequently] at hcon
  have one : ∀ K > 0, F ≤ C K := by
    intro K hK
    have : 1 ≤ (C K - F + K) / K := by
      refine le_of_forall_lt_imp_le_of_dense fun b hb => ?_
      obtain ⟨y0, hy⟩ := put_almost_strike hb
      have hlt : ∀ᶠ L in 𝓝[>] (0 : ℝ), L ∈ Set.Ioo 0 K := Ioo_mem_nhdsGT hK
      obtain ⟨L, hM, hL, hx⟩ := (hcon.and (hlt.and ((log_low F hF).eventually_ge_atTop y0))).exists
      have hp := hy hF hL.1 ht hx (not_lt.1 hM)
      refine le_trans ?_ (law_put_ratio h hL.1 hL.2.le)
      rw [le_div_iff₀ hL.1, hC L hL.1]
      have := bs_forward_parity hF hL.1 (sg L) t
      linarith
    rw [le_div_iff₀ hK] at this
    linarith
  have := ge_of_tendsto (law_tendsto h) ((eventually_gt_atTop 0).mono one)
  linarith

/-! ## Hagan's formula in the wings -/

/-- The value of the formula. -/
noncomputable def Sabr.smile (p : Sabr) (f t k : ℝ) : ℝ :=
  p.alpha / (p.fkHalf f k * p.expansionDenom f k) * zOverX p.rho (p.z f k) * p.timeCorrection f k t

theorem haganVol_smile (p : Sabr) {f k t : ℝ} (hf : 0 < f) (hk : 0 < k) (ht : 0 < t) :
    haganVol p f k t = .ok (p.smile f t k) := by
  unfold haganVol
  rw [if_pos ⟨hf, hk, ht⟩]; rfl

theorem fkHalf_down (p : Sabr) {f : ℝ} (hf : 0 < f) (x : ℝ) :
    p.fkHalf f (f * Real.exp (-x)) = f ^ (1 - p.beta) * Real.exp (-((1 - p.beta) / 2 * x)) := by
  rw [← fkHalf_self p hf, Sabr.fkHalf, Sabr.fkHalf, ← mul_assoc,
    Real.mul_rpow (by positivity) (Real.exp_pos _).le, ← Real.exp_mul]
  congr 2; ring

theorem correction_nonneg {A q r w : ℝ} (hA : 0 < A) (w1 : 1 ≤ w) (w2 : (|q| + |r|) / A ≤ w) :
    0 ≤ w * (w * A) + q * w + r := by
  rw [div_le_iff₀ hA] at w2
  have r2 := mul_le_mul_of_nonneg_right (neg_abs_le q) (show 0 ≤ w by linarith)
  have r3 := neg_abs_le r
  have := abs_nonneg r
  nlinarith

theorem smile_lower {a g d D zx tc : ℝ} (ha : 0 < a) (hg : 0 < g) (hd : 0 < d) (hD : d ≤ D)
    (hz : 1 / 2 ≤ zx) (ht : 1 ≤ tc) : a / (2 * g * D) ≤ a / (g * d) * zx * tc := by
  have h1 : a / (g * D) ≤ a / (g * d) :=
    div_le_div_of_nonneg_left ha.le (mul_pos hg hd) (mul_le_mul_of_nonneg_left hD hg.le)
  have h0 : 0 < a / (g * D) := div_pos ha (mul_pos hg (hd.trans_le hD))
  have h2 : a / (2 * g * D) = a / (g * D) * (1 / 2) := by
    have : 0 < D := hd.trans_le hD
    field_simp
  rw [h2]
  have h3 : a / (g * D) * (1 / 2) ≤ a / (g * d) * zx := mul_le_mul h1 hz (by norm_num) (h0.le.trans h1)
  have h4 : 0 ≤ a / (g * d) * zx := le_trans (by positivity) h3
  nlinarith

theorem smile_down {p : Sabr} (hp : p.Admissible) (hb : p.beta < 1) {f t : ℝ} (hf : 0 < f)
    (ht : 0 < t) (M : ℝ) : ∀ᶠ x in atTop, M * √x ≤ p.smile f t (f * Real.exp (-x)) * √t := by
  have ha := hp.alpha
  have hq : 0 < √t := Real.sqrt_pos.2 ht
  set a := (1 - p.beta) / 2 with hadef
  have ha0 : 0 < a := by rw [hadef]; linarith
  set G := f ^ (1 - p.beta) with hG
  have hG0 : 0 < G := Real.rpow_pos_of_pos hf _
  have l1 : Tendsto (fun x : ℝ => p.nu / p.alpha * (G * Real.exp (-(a * x))) * x) atTop (𝓝 0) := by
    have := (tendsto_rpow_mul_exp_neg_mul_atTop_nhds_zero 1 a ha0).const_mul (p.nu / p.alpha * G)
    rw [mul_zero] at this
    refine this.congr fun x => ?_
    rw [Real.rpow_one, neg_mul]; ring
  have l2 : Tendsto (fun x : ℝ => 1 / (G * Real.exp (-(a * x)))) atTop atTop := by
    have : Tendsto (fun x : ℝ => 1 / G * Real.exp (a * x)) atTop atTop :=
      (Real.tendsto_exp_atTop.comp (tendsto_id.const_mul_atTop ha0)).const_mul_atTop (by positivity)
    refine this.congr fun x => ?_
    rw [Real.exp_neg]; field_simp
  have l3 := tendsto_exp_mul_div_rpow_atTop (6 : ℕ) a ha0
  set A := (1 - p.beta) ^ 2 / 24 * p.alpha ^ 2 with hA
  have hA0 : 0 < A := by
    have : 0 < 1 - p.beta := by linarith
    rw [hA]; positivity
  set B := |0.25 * p.rho * p.beta * p.nu * p.alpha| with hB
  set D := |(2 - 3 * p.rho * p.rho) * p.nu * p.nu / 24| with hD
  have l1' : ∀ᶠ x in atTop, |p.nu / p.alpha * (G * Real.exp (-(a * x))) * x| < 1 / 10 ^ 8 := by
    have := l1.abs
    rw [abs_zero] at this
    exact this.eventually (gt_mem_nhds (by norm_num))
  filter_upwards [l1', l2.eventually_ge_atTop (max 1 ((B + D) / A)),
    l3.eventually_ge_atTop (|M| * 6 * G / (p.alpha * √t)), eventually_ge_atTop 1] with x e1 e2 e3 hx
  have hlog : Real.log (f / (f * Real.exp (-x))) = x := by
    rw [div_mul_cancel_left₀ hf.ne', ← Real.exp_neg, neg_neg, Real.log_exp]
  have hg := fkHalf_down p hf x
  rw [← hG, ← hadef] at hg
  set g := G * Real.exp (-(a * x)) with hgdef
  have hg0 : 0 < g := by rw [hgdef]; positivity
  have hz : |p.z f (f * Real.exp (-x))| < 1 / 10 ^ 8 := by
    unfold Sabr.z
    rw [if_pos ha, hg, hlog]
    exact e1
  have hzx : 1 / 2 ≤ zOverX p.rho (p.z f (f * Real.exp (-x))) := by
    generalize p.z f (f * Real.exp (-x)) = z at hz ⊢
    rw [zOverX, if_pos hz]
    rw [abs_lt] at hz
    have := hp.rho0
    have := hp.rho1
    have h5 : |p.rho * z| ≤ 1 / 10 ^ 8 := by
      rw [abs_mul]
      calc |p.rho| * |z| ≤ 1 * (1 / 10 ^ 8) := by
            gcongr
            · exact abs_le.2 ⟨by linarith, by linarith⟩
            · exact abs_le.2 ⟨by linarith, by linarith⟩
        _ = 1 / 10 ^ 8 := one_mul _
    rw [abs_le] at h5
    have h6 : z * z ≤ 1 := by nlinarith
    nlinarith [sq_nonneg z, sq_nonneg (p.rho * z)]
  have hden : p.expansionDenom f (f * Real.exp (-x)) ≤ 3 * x ^ 4 := by
    rw [Sabr.expansionDenom, hlog]
    have b0 : 0 ≤ 1 - p.beta := by linarith
    have b1 : 1 - p.beta ≤ 1 := by linarith [hp.beta0]
    have b2 : (1 - p.beta) ^ 2 ≤ 1 := pow_le_one₀ b0 b1
    have b4 : (1 - p.beta) ^ 4 ≤ 1 := pow_le_one₀ b0 b1
    have x2 : 1 ≤ x ^ 2 := one_le_pow₀ hx
    have x4 : x ^ 2 ≤ x ^ 4 := pow_le_pow_right₀ hx (by norm_num)
    have c2 : (1 - p.beta) ^ 2 / 24 * (x * x) ≤ x ^ 4 := by nlinarith [sq_nonneg (1 - p.beta)]
    have c4 : (1 - p.beta) ^ 4 / 1920 * (x * x) * (x * x) ≤ x ^ 4 := by
      have : (1 - p.beta) ^ 4 / 1920 * (x * x) * (x * x) = (1 - p.beta) ^ 4 / 1920 * x ^ 4 := by ring
      rw [this]
      nlinarith [pow_nonneg b0 4]
    linarith
  have hden0 := expansionDenom_pos p f (f * Real.exp (-x))
  have htc : 1 ≤ p.timeCorrection f (f * Real.exp (-x)) t := by
    have w1 : 1 ≤ 1 / g := (le_max_left _ _).trans e2
    have w2 : (B + D) / A ≤ 1 / g := (le_max_right _ _).trans e2
    have h := correction_nonneg hA0 w1 w2
    unfold Sabr.timeCorrection
    rw [hg]
    have e : (1 - p.beta) ^ 2 / 24 * p.alpha * p.alpha / (g * g)
        + 0.25 * p.rho * p.beta * p.nu * p.alpha / g + (2 - 3 * p.rho * p.rho) * p.nu * p.nu / 24 =
        1 / g * (1 / g * A) + 0.25 * p.rho * p.beta * p.nu * p.alpha * (1 / g)
          + (2 - 3 * p.rho * p.rho) * p.nu * p.nu / 24 := by
      rw [hA]; field_simp
    rw [e]
    exact le_add_of_nonneg_right (mul_nonneg h ht.le)
  have hs : p.alpha / (2 * g * (3 * x ^ 4)) ≤ p.smile f t (f * Real.exp (-x)) := by
    unfold Sabr.smile
    rw [hg]
    exact smile_lower ha hg0 hden0 hden hzx htc
  have hM : M * √x ≤ |M| * x := by
    refine mul_le_mul (le_abs_self M) ?_ (Real.sqrt_nonneg x) (abs_nonneg M)
    rw [Real.sqrt_le_left (by linarith)]
    nlinarith
  refine hM.trans (le_trans ?_ (mul_le_mul_of_nonneg_right hs hq.le))
  rw [Real.rpow_natCast, div_le_div_iff₀ (by positivity) (by positivity)] at e3
  have hge : g * Real.exp (a * x) = G := by
    rw [hgdef, mul_assoc, ← Real.exp_add]; simp
  have : p.alpha / (2 * g * (3 * x ^ 4)) * √t = p.alpha * √t / (6 * g * x ^ 4) := by
    field_simp; norm_num
  rw [this, le_div_iff₀ (by positivity)]
  have h7 : |M| * 6 * g * x ^ 6 * Real.exp (a * x) ≤ p.alpha * √t * Real.exp (a * x) := by
    calc |M| * 6 * g * x ^ 6 * Real.exp (a * x) = |M| * 6 * (g * Real.exp (a * x)) * x ^ 6 := by ring
      _ ≤ Real.exp (a * x) * (p.alpha * √t) := by rw [hge]; exact e3
      _ = _ := by ring
  have h8 := le_of_mul_le_mul_right h7 (Real.exp_pos _)
  have h9 : x ^ 5 ≤ x ^ 6 := pow_le_pow_right₀ hx (by norm_num)
  calc |M| * x * (6 * g * x ^ 4) = |M| * 6 * g * x ^ 5 := by ring
    _ ≤ |M| * 6 * g * x ^ 6 := by gcongr
    _ ≤ _ := h8

theorem zOverX_lower {rho y : ℝ} (h0 : -1 < rho) (h1 : rho < 1) (hy : 1 ≤ y) :
    y / (Real.log y + Real.log (4 / (1 - rho))) ≤ zOverX rho y := by
  have hl : ¬ |y| < 1 / 10 ^ 8 := by
    rw [abs_of_pos (by linarith), not_lt]; norm_num; linarith
  rw [zOverX_large rho y hl]
  have hpos := (sabrX_sign rho y h0 h1).1 (by linarith)
  refine div_le_div_of_nonneg_left (by linarith) hpos ?_
  obtain ⟨hr, hs, hm⟩ := sabr_root rho y h0 h1
  have hden : 0 < 1 - rho := by linarith
  rw [← Real.log_mul (by linarith) (by positivity), sabrX, sq]
  refine Real.log_le_log (div_pos hr hden) ?_
  rw [← mul_div_assoc]
  refine div_le_div_of_nonneg_right ?_ hden.le
  have : √(1 - 2 * rho * y + y * y) ≤ 1 + y := by
    rw [Real.sqrt_le_left (by linarith)]
    nlinarith
  linarith

theorem smile_up {alpha rho nu : ℝ} (ha : 0 < alpha) (h0 : -1 < rho) (h1 : rho < 1) (hn : 0 < nu)
    {f t : ℝ} (hf : 0 < f) (ht : 0 < t)
    (hc : 0 < 1 + (1 / 4 * rho * nu * alpha + (2 - 3 * rho ^ 2) * nu ^ 2 / 24) * t) :
    ∀ᶠ x in atTop, 2 * √x ≤ Sabr.smile ⟨alpha, 1, rho, nu⟩ f t (f * Real.exp x) * √t := by
  have hq : 0 < √t := Real.sqrt_pos.2 ht
  set c := 1 + (1 / 4 * rho * nu * alpha + (2 - 3 * rho ^ 2) * nu ^ 2 / 24) * t with hcdef
  have hsm : ∀ x : ℝ, Sabr.smile ⟨alpha, 1, rho, nu⟩ f t (f * Real.exp x) =
      alpha * zOverX (-rho) (nu / alpha * x) * c := by
    intro x
    have e : ∀ k, Sabr.fkHalf ⟨alpha, 1, rho, nu⟩ f k = 1 := fun k => by simp [Sabr.fkHalf]
    have hlog : Real.log (f / (f * Real.exp x)) = -x := by
      rw [div_mul_cancel_left₀ hf.ne', ← Real.exp_neg, Real.log_exp]
    have hz : Sabr.z ⟨alpha, 1, rho, nu⟩ f (f * Real.exp x) = -(nu / alpha * x) := by
      unfold Sabr.z
      dsimp only
      rw [if_pos ha, e, hlog]; ring
    have hd : Sabr.expansionDenom ⟨alpha, 1, rho, nu⟩ f (f * Real.exp x) = 1 := by
      simp [Sabr.expansionDenom]
    have htc : Sabr.timeCorrection ⟨alpha, 1, rho, nu⟩ f (f * Real.exp x) t = c := by
      simp only [Sabr.timeCorrection, e, hcdef]
      norm_num
      left; ring
    have hzx := zOverX_inverse (rho := -rho) (by linarith) (by linarith) (nu / alpha * x)
    rw [neg_neg] at hzx
    rw [Sabr.smile, hz, hd, htc, e, hzx]
    dsimp only
    ring
  -- in terms of `y = ν x / α`
  set L := Real.log (4 / (1 - -rho)) with hL
  set b := √(2 ^ 2 * alpha / nu) with hb
  have hb0 : 0 < b := Real.sqrt_pos.2 (by positivity)
  set e := alpha * c * √t / (2 * b) with he
  have he0 : 0 < e := by rw [he]; positivity
  have l1 := (isLittleO_log_rpow_atTop (r := 1 / 2) (by norm_num)).def he0
  have l2 : ∀ᶠ y : ℝ in atTop, L ≤ e * y ^ (1 / 2 : ℝ) :=
    ((tendsto_rpow_atTop (by norm_num : (0 : ℝ) < 1 / 2)).const_mul_atTop he0).eventually_ge_atTop L
  have hx : Tendsto (fun x : ℝ => nu / alpha * x) atTop atTop :=
    tendsto_id.const_mul_atTop (by positivity)
  have key : ∀ᶠ y : ℝ in atTop, b * √y ≤ alpha * zOverX (-rho) y * c * √t := by
    filter_upwards [l1, l2, eventually_ge_atTop 2] with y e1 e2 hy
    have hly : 0 < Real.log y := Real.log_pos (by linarith)
    have hL0 : 0 ≤ L := Real.log_nonneg (by rw [le_div_iff₀ (by linarith)]; linarith)
    rw [Real.norm_eq_abs, abs_of_pos hly, Real.norm_eq_abs, abs_of_nonneg (by positivity),
      ← Real.sqrt_eq_rpow] at e1
    rw [← Real.sqrt_eq_rpow] at e2
    have h2 := zOverX_lower (rho := -rho) (y := y) (by linarith) (by linarith) (by linarith)
    rw [← hL] at h2
    have hw : 0 < √y := Real.sqrt_pos.2 (by linarith)
    have hyy : √y * √y = y := Real.mul_self_sqrt (by linarith)
    have h3 : √y / (2 * e) ≤ y / (Real.log y + L) := by
      rw [div_le_div_iff₀ (by positivity) (by linarith)]
      nlinarith
    have h4 := h3.trans h2
    have h5 : b * √y = alpha * c * √t * (√y / (2 * e)) := by
      rw [he]; field_simp
    rw [h5]
    calc alpha * c * √t * (√y / (2 * e)) ≤ alpha * c * √t * zOverX (-rho) y := by gcongr
      _ = _ := by ring
  filter_upwards [hx.eventually key] with x h
  rw [hsm]
  refine le_trans (le_of_eq ?_) h
  rw [hb, ← Real.sqrt_mul (by positivity)]
  have : 2 ^ 2 * alpha / nu * (nu / alpha * x) = 2 ^ 2 * x := by field_simp
  rw [this, Real.sqrt_mul (by norm_num), Real.sqrt_sq (by norm_num)]

end Verif
