import Verif.Props.Cos
import Verif.Props.HhwChf
import Verif.Props.FxTrade
import Verif.Spec.CosBlack
import Verif.Lemmas.Quadrature
import Verif.Props.ExpectedPayoff
import Mathlib.Probability.Moments.Basic
import Mathlib.Analysis.Real.Pi.Bounds
import Mathlib.Analysis.Complex.ExponentialBounds

/-!
# Cosine prices of a normal log-forward
-/

namespace Verif

open MeasureTheory ProbabilityTheory Outcome Filter Topology

/-! ## Series remainder for laws with decaying characteristic function -/

/-- Error after `n` terms when the characteristic function is at most `E` at the omitted
frequencies. -/
theorem partial_sum_decay {μ : Measure ℝ} [IsProbabilityMeasure μ] {a b : ℝ} (h : a < b)
    {g : ℝ → ℝ} (hg : Continuous g) {D E : ℝ} {n : ℕ} (hn : 2 ≤ n)
    (hE : ∀ k : ℕ, n ≤ k → ‖charFun μ (k * Real.pi / (b - a))‖ ≤ E)
    (hD : ∀ k : ℕ, k ≠ 0 → |cosCoef g a b k| ≤ D / (k * Real.pi / (b - a)) ^ 2) :
    |(∫ y, g (foldInto a b y) ∂μ) - ∑ k ∈ Finset.range n, (if k = 0 then (1 / 2 : ℝ) else 1)
        * (∫ y, Real.cos (k * Real.pi / (b - a) * (y - a)) ∂μ) * (2 / (b - a) * cosCoef g a b k)|
      ≤ E * (2 * (b - a) * D / Real.pi ^ 2 / (n - 1)) := by
  have hpi := Real.pi_pos
  have hw : 0 < b - a := by linarith
  have hE0 : 0 ≤ E := (norm_nonneg _).trans (hE n le_rfl)
  have hD0 : 0 ≤ D := by
    have := (abs_nonneg _).trans (hD 1 one_ne_zero)
    by_contra hc
    have : D / (((1 : ℕ) : ℝ) * Real.pi / (b - a)) ^ 2 < 0 :=
      div_neg_of_neg_of_pos (not_le.1 hc) (by positivity)
    linarith
  set c : ℕ → ℝ := fun k : ℕ => (if k = 0 then (1 / 2 : ℝ) else 1)
    * (∫ y, Real.cos (k * Real.pi / (b - a) * (y - a)) ∂μ) * (2 / (b - a) * cosCoef g a b k) with hc
  have hS : HasSum c (∫ y, g (foldInto a b y) ∂μ) := hasSum_expected h hg hD
  set c' : ℕ → ℝ := fun k : ℕ => if k ∈ Finset.range n then 0 else c k with hc'
  have hS' : HasSum c' ((∫ y, g (foldInto a b y) ∂μ) - ∑ k ∈ Finset.range n, c k) := by
    have h1 : HasSum (fun k => if k ∈ Finset.range n then c k else 0) (∑ k ∈ Finset.range n, c k) := by
      have := hasSum_sum_of_ne_finset_zero (L := SummationFilter.unconditional ℕ)
        (f := fun k => if k ∈ Finset.range n then c k else 0)
        (s := Finset.range n) (fun k hk => if_neg hk)
      rwa [Finset.sum_congr rfl fun k hk => if_pos hk] at this
    refine (hS.sub h1).congr_fun fun k => ?_
    simp only [hc']
    split_ifs <;> simp
  have hb : ∀ k, k ≠ 0 → |c' k| ≤ E * (2 * (b - a) * D / Real.pi ^ 2) / k ^ 2 := by
    intro k hk
    have hk' : (0 : ℝ) < k := by exact_mod_cast Nat.pos_of_ne_zero hk
    simp only [hc']
    by_cases hm : k ∈ Finset.range n
    · rw [if_pos hm, abs_zero]; positivity
    · rw [if_neg hm]
      have hnk : n ≤ k := by simpa using hm
      simp only [hc]
      rw [if_neg hk, one_mul, abs_mul, abs_mul, abs_of_pos (by positivity : 0 < 2 / (b - a))]
      have h1 : |∫ y, Real.cos (k * Real.pi / (b - a) * (y - a)) ∂μ| ≤ E := by
        rw [← re_charFun (μ := μ) (k * Real.pi / (b - a)) a]
        refine (Complex.abs_re_le_norm _).trans ?_
        rw [norm_mul, Complex.norm_exp, Real.exp_zero, mul_one]
        exact hE k hnk
      calc _ ≤ E * (2 / (b - a) * (D / (k * Real.pi / (b - a)) ^ 2)) := by
            have := hD k hk
            gcongr
        _ = _ := by field_simp
  have := tail_bound hb hn hS'
  rw [Finset.sum_eq_zero (fun k hk => if_pos hk), sub_zero] at this
  rw [← mul_div_assoc]
  exact this

theorem cosFactor_of_law {μ : Measure ℝ} [IsProbabilityMeasure μ] {φ : ℂ → ℂ}
    (hφ : ∀ u : ℝ, φ u = charFun μ u) (a b : ℝ) (k : ℕ) :
    cosFactor φ a b k = ∫ y, Real.cos (k * Real.pi / (b - a) * (y - a)) ∂μ := by
  rw [cosFactor, hφ, ← re_charFun]
  generalize k * Real.pi / (b - a) = u
  congr 3
  apply Complex.ext <;> simp

theorem discounted_error {discount E S B : ℝ} (h : |E - S| ≤ B) :
    |discount * S - discount * E| ≤ |discount| * B := by
  rw [← mul_sub, abs_mul, abs_sub_comm]
  exact mul_le_mul_of_nonneg_left h (abs_nonneg _)

theorem integrable_of_le_const {μ : Measure ℝ} [IsProbabilityMeasure μ] {g : ℝ → ℝ}
    (hg : Continuous g) (C : ℝ) (hC : ∀ y, |g y| ≤ C) : Integrable g μ :=
  Integrable.mono' (integrable_const C) hg.aestronglyMeasurable
    (Filter.Eventually.of_forall hC)

/-- Folding changes an expected value only through the mass outside the range. -/
theorem folding_error {μ : Measure ℝ} {a b : ℝ} (h : a < b)
    {g B : ℝ → ℝ} (hg : Integrable g μ) (hf : Integrable (fun y => g (foldInto a b y)) μ)
    (hB : Integrable B μ) (hle : ∀ y, |g (foldInto a b y) - g y| ≤ B y) :
    |(∫ y, g (foldInto a b y) ∂μ) - ∫ y, g y ∂μ| ≤ ∫ y in (Set.Icc a b)ᶜ, B y ∂μ := by
  rw [← integral_sub hf hg, ← integral_indicator measurableSet_Icc.compl]
  refine (abs_integral_le_integral_abs).trans ?_
  refine integral_mono (hf.sub hg).abs (hB.indicator measurableSet_Icc.compl) ?_
  intro y
  by_cases hy : y ∈ Set.Icc a b
  · have : y ∉ (Set.Icc a b)ᶜ := fun h => h hy
    simp only [Set.indicator_of_notMem this, foldInto_of_mem h hy.1 hy.2, sub_self, abs_zero,
      le_refl]
  · simp only [Set.indicator_of_mem (Set.mem_compl hy)]
    exact hle y

/-! ## Tails of a normal law -/

/-- The exponential moment outside an interval is bounded by shifted moments. -/
theorem outside_moment {μ : Measure ℝ} {a b α r s : ℝ} (hr : 0 ≤ r) (hs : 0 ≤ s)
    (hi : ∀ t : ℝ, Integrable (fun y => Real.exp (t * y)) μ) :
    ∫ y in (Set.Icc a b)ᶜ, Real.exp (α * y) ∂μ
      ≤ Real.exp (-(r * b)) * (∫ y, Real.exp ((α + r) * y) ∂μ)
        + Real.exp (s * a) * ∫ y, Real.exp ((α - s) * y) ∂μ := by
  rw [← integral_indicator measurableSet_Icc.compl, ← integral_const_mul, ← integral_const_mul,
    ← integral_add ((hi _).const_mul _) ((hi _).const_mul _)]
  refine integral_mono ((hi α).indicator measurableSet_Icc.compl)
    (((hi _).const_mul _).add ((hi _).const_mul _)) fun y => ?_
  rw [← Real.exp_add, ← Real.exp_add]
  by_cases hy : y ∈ Set.Icc a b
  · have : y ∉ (Set.Icc a b)ᶜ := fun h => h hy
    rw [Set.indicator_of_notMem this]
    positivity
  · rw [Set.indicator_of_mem (Set.mem_compl hy)]
    rw [Set.mem_Icc, not_and_or, not_le, not_le] at hy
    have p1 := Real.exp_pos (-(r * b) + (α + r) * y)
    have p2 := Real.exp_pos (s * a + (α - s) * y)
    rcases hy with hy | hy
    · have : Real.exp (α * y) ≤ Real.exp (s * a + (α - s) * y) := Real.exp_le_exp.2 (by nlinarith)
      linarith
    · have : Real.exp (α * y) ≤ Real.exp (-(r * b) + (α + r) * y) := Real.exp_le_exp.2 (by nlinarith)
      linarith

theorem gauss_moment (m : ℝ) {V : ℝ} (hV : 0 ≤ V) (t : ℝ) :
    ∫ y, Real.exp (t * y) ∂gaussianReal m V.toNNReal = Real.exp (m * t + V * t ^ 2 / 2) := by
  have := mgf_gaussianReal (p := gaussianReal m V.toNNReal) (X := id) (μ := m) (v := V.toNNReal)
    (by simp) t
  rw [mgf, Real.coe_toNNReal V hV] at this
  exact this

/-- The law of the logarithm of a lognormal level with mean `e^x` and variance `V` of the
logarithm. -/
noncomputable abbrev logLaw (x V : ℝ) : Measure ℝ := gaussianReal (x - V / 2) V.toNNReal

theorem logLaw_moment (x : ℝ) {V : ℝ} (hV : 0 ≤ V) (t : ℝ) :
    ∫ y, Real.exp (t * y) ∂logLaw x V = Real.exp ((x - V / 2) * t + V * t ^ 2 / 2) := gauss_moment _ hV t

/-- Probability of leaving the range. -/
theorem logLaw_outside (x : ℝ) {V H : ℝ} (hV : 0 < V) (hH : V / 2 ≤ H) :
    (logLaw x V).real (Set.Icc (x - H) (x + H))ᶜ ≤ 2 * Real.exp (-((H - V / 2) ^ 2 / (2 * V))) := by
  have h := outside_moment (μ := logLaw x V) (a := x - H) (b := x + H) (α := 0)
    (r := (H + V / 2) / V) (s := (H - V / 2) / V) (div_nonneg (by linarith) hV.le)
    (div_nonneg (by linarith) hV.le) fun t => integrable_exp_mul_gaussianReal t
  rw [logLaw_moment x hV.le, logLaw_moment x hV.le, ← Real.exp_add, ← Real.exp_add] at h
  simp only [zero_mul, Real.exp_zero] at h
  rw [setIntegral_const, smul_eq_mul, mul_one] at h
  refine h.trans ?_
  rw [two_mul]
  refine add_le_add (Real.exp_le_exp.2 ?_) (Real.exp_le_exp.2 (le_of_eq ?_))
  · have e : -((H + V / 2) / V * (x + H)) + ((x - V / 2) * (0 + (H + V / 2) / V)
        + V * (0 + (H + V / 2) / V) ^ 2 / 2) = -((H + V / 2) ^ 2 / (2 * V)) := by
      field_simp; ring
    rw [e, neg_le_neg_iff]
    apply div_le_div_of_nonneg_right _ (by positivity)
    nlinarith
  · field_simp; ring

/-- Mean of the level outside the range. -/
theorem logLaw_outside_exp (x : ℝ) {V H : ℝ} (hV : 0 < V) (hH : V / 2 ≤ H) :
    ∫ y in (Set.Icc (x - H) (x + H))ᶜ, Real.exp y ∂logLaw x V
      ≤ Real.exp x * (2 * Real.exp (-((H - V / 2) ^ 2 / (2 * V)))) := by
  have h := outside_moment (μ := logLaw x V) (a := x - H) (b := x + H) (α := 1)
    (r := (H - V / 2) / V) (s := (H + V / 2) / V) (div_nonneg (by linarith) hV.le)
    (div_nonneg (by linarith) hV.le)
    fun t => integrable_exp_mul_gaussianReal t
  rw [logLaw_moment x hV.le, logLaw_moment x hV.le, ← Real.exp_add, ← Real.exp_add] at h
  simp only [one_mul] at h
  refine h.trans ?_
  rw [two_mul (Real.exp _), mul_add (Real.exp x), ← Real.exp_add x]
  refine add_le_add (Real.exp_le_exp.2 (le_of_eq ?_)) (Real.exp_le_exp.2 ?_)
  · field_simp; ring
  · have e : (H + V / 2) / V * (x - H) + ((x - V / 2) * (1 - (H + V / 2) / V)
        + V * (1 - (H + V / 2) / V) ^ 2 / 2) = x + -((H + V / 2) ^ 2 / (2 * V)) := by
      field_simp; ring
    rw [e, add_le_add_iff_left, neg_le_neg_iff]
    apply div_le_div_of_nonneg_right _ (by positivity)
    nlinarith

theorem logLaw_exp_integrable (x V : ℝ) : Integrable Real.exp (logLaw x V) := by
  have := integrable_exp_mul_gaussianReal (μ := x - V / 2) (v := V.toNNReal) 1
  simpa using this

theorem logLaw_charFun_norm (x : ℝ) {V : ℝ} (hV : 0 ≤ V) (u : ℝ) :
    ‖charFun (logLaw x V) u‖ = Real.exp (-(V * u ^ 2 / 2)) := by
  rw [charFun_gaussianReal, Complex.norm_exp, Real.coe_toNNReal V hV]
  congr 1
  rw [show (u : ℂ) * ((x - V / 2 : ℝ) : ℂ) * Complex.I - (V : ℂ) * (u : ℂ) ^ 2 / 2
    = ((u * (x - V / 2) : ℝ) : ℂ) * Complex.I - ((V * u ^ 2 / 2 : ℝ) : ℂ) by push_cast; ring]
  rw [Complex.sub_re, Complex.ofReal_re, Complex.re_ofReal_mul, Complex.I_re, mul_zero, zero_sub]

/-- Black's formula as a mean over the law of the logarithm. -/
theorem black_logLaw {F K V : ℝ} (hF : 0 < F) (hK : 0 < K) (hV : 0 ≤ V) (disc : ℝ) :
    blackScholes F K V disc .call = disc * ∫ y, callPayoff K y ∂logLaw (Real.log F) V ∧
    blackScholes F K V disc .put = disc * ∫ y, putPayoff K y ∂logLaw (Real.log F) V := by
  have hl : logLaw (Real.log F) V = (gaussianReal 0 1).map (normalLevel (Real.log F - V / 2) V) :=
    (normalLevel_law _ hV).symm
  have hm : AEMeasurable (normalLevel (Real.log F - V / 2) V) (gaussianReal 0 1) := by
    have : Continuous (normalLevel (Real.log F - V / 2) V) := by unfold normalLevel; fun_prop
    exact this.aemeasurable
  have hlev : ∀ z, Real.exp (normalLevel (Real.log F - V / 2) V z) = lognormalLevel F V z := by
    intro z
    unfold normalLevel lognormalLevel
    rw [show Real.log F - V / 2 + √V * z = Real.log F + (√V * z - V / 2) by ring, Real.exp_add,
      Real.exp_log hF]
  constructor
  · rw [C85_black hF hK hV, hl, integral_map hm (continuous_callPayoff K).aestronglyMeasurable]
    simp only [meanOverDraw, callPayoff, hlev, vanillaPayoff]
    rfl
  · rw [C85_black hF hK hV, hl, integral_map hm (continuous_putPayoff K).aestronglyMeasurable]
    simp only [meanOverDraw, putPayoff, hlev, vanillaPayoff]
    rfl

/-! ## Black's formula as a function of the variance -/

theorem normPdf_le_half (x : ℝ) : normPdf x ≤ 1 / 2 := by
  unfold normPdf
  have h1 : Real.exp (-(x ^ 2) / 2) ≤ 1 := Real.exp_le_one_iff.2 (by nlinarith [sq_nonneg x])
  have h2 : (2 : ℝ) ≤ √(2 * Real.pi) := by
    apply Real.le_sqrt_of_sq_le
    nlinarith [Real.pi_gt_three]
  rw [div_le_iff₀ (by linarith)]
  linarith

/-- Black values at two variances differ by at most half the forward times the difference of the
standard deviations. -/
theorem black_lipschitz {F K V W : ℝ} (hF : 0 < F) (hK : 0 < K) (hV : 0 < V) (hW : 0 < W) (D : ℝ)
    (ot : OptionType) :
    |blackScholes F K V D ot - blackScholes F K W D ot| ≤ |D| * (F / 2 * |√V - √W|) := by
  have key : ∀ s ∈ Set.Ioi (0 : ℝ), HasDerivWithinAt (fun v => blackScholes F K (v * v * 1) D ot)
      (D * F * normPdf (bd1 F K (√(s * s * 1))) * √1) (Set.Ioi 0) s := fun s hs =>
    (hasDerivAt_bs_vol hF hK one_pos hs ot).hasDerivWithinAt
  have hb : ∀ s ∈ Set.Ioi (0 : ℝ), ‖D * F * normPdf (bd1 F K (√(s * s * 1))) * √1‖ ≤ |D| * (F / 2) := by
    intro s _
    have h0 := (normPdf_pos (bd1 F K (√(s * s * 1)))).le
    have h1 := normPdf_le_half (bd1 F K (√(s * s * 1)))
    rw [Real.sqrt_one, mul_one, Real.norm_eq_abs, abs_mul, abs_mul, abs_of_pos hF, abs_of_nonneg h0,
      mul_assoc]
    refine mul_le_mul_of_nonneg_left ?_ (abs_nonneg D)
    nlinarith
  have := (convex_Ioi (0 : ℝ)).norm_image_sub_le_of_norm_hasDerivWithin_le key hb
    (Set.mem_Ioi.2 (Real.sqrt_pos.2 hW)) (Set.mem_Ioi.2 (Real.sqrt_pos.2 hV))
  simp only [mul_one, Real.mul_self_sqrt hV.le, Real.mul_self_sqrt hW.le, Real.norm_eq_abs] at this
  rw [← mul_assoc]
  exact this

/-! ## The law of the code's log-forward -/

theorem decayed_nonneg {p : Cir} (hk : 0 ≤ p.kappa) (hθ : 0 ≤ p.theta) (hs : 0 ≤ p.sigma0) {t : ℝ}
    (ht : 0 ≤ t) : 0 ≤ p.decayed t := by
  have : Real.exp (-p.kappa * t) ≤ 1 := Real.exp_le_one_iff.2 (by nlinarith)
  have h0 := Real.exp_pos (-p.kappa * t)
  unfold Cir.decayed
  have := mul_nonneg hs h0.le
  have := mul_nonneg hθ (sub_nonneg.2 ‹Real.exp (-p.kappa * t) ≤ 1›)
  linarith

theorem phiOf_no_volvol {p : Cir} (hk : 0 < p.kappa) (hg : p.gamma = 0) (hθ : 0 ≤ p.theta)
    (hs : 0 ≤ p.sigma0) {t : ℝ} (ht : 0 ≤ t) : phiOf p t = √(p.decayed t) := by
  rcases ht.eq_or_lt with rfl | ht
  · rw [phiOf_of_nonpos p le_rfl, max_eq_left hs]
    simp [Cir.decayed]
  · have h1 : p.mean t = p.decayed t := by
      rw [Cir.mean, if_neg (not_le.2 ht)]; rfl
    have h2 : p.sqrtMean t = .ok (√(max (p.mean t) 0)) := by
      rw [Cir.sqrtMean, Cir.sqrtMeanTol, if_neg (not_le.2 ht), if_neg (not_le.2 hk),
        if_pos (by rw [hg, abs_zero]; positivity)]
    rw [phiOf, h2, h1, max_eq_left (decayed_nonneg hk.le hθ hs ht.le)]

theorem simpsonPanels_real (m : ℕ) (T : ℝ) (c : ℂ) (f : ℝ → ℝ) :
    simpsonPanels m T (fun s => c * (f s : ℂ)) = c * (simpsonOn m 0 T f : ℝ) := by
  unfold simpsonPanels simpsonOn
  push_cast
  rw [Finset.mul_sum]
  refine Finset.sum_congr rfl fun j _ => ?_
  simp only [sub_zero, zero_add]
  ring

theorem fwdVarX_add (p : HhwParams) (phi bd bf v : ℝ) :
    fwdVarX p phi bd bf v = v + fwdVarX p phi bd bf 0 := by
  unfold fwdVarX; ring

theorem integrandVal_no_volvol (p : HhwParams) (hk : 0 < p.heston.kappa) (hg : p.heston.gamma = 0)
    (hθ : 0 ≤ p.heston.theta) (hs : 0 ≤ p.heston.sigma0) (u : ℂ) {s : ℝ} (h : 0 ≤ s) (T : ℝ) :
    integrandVal p u s T = chfQ u / 2 * ((p.varianceRate T s
      - p.heston.sigma0 * Real.exp (-p.heston.kappa * s) : ℝ) : ℂ) := by
  have hκ : (p.heston.kappa : ℂ) ≠ 0 := by exact_mod_cast hk.ne'
  have hc : fwdCovXV p (phiOf p.heston s) (p.domestic.b s T) (p.foreign.b s T) 0 = 0 := by
    simp [fwdCovXV, hg]
  rw [integrandVal, driftRate, hc, cOfTau_no_volvol p hk hg u h, HhwParams.varianceRate,
    fwdVarX_add p _ _ _ (p.heston.decayed s), phiOf_no_volvol hk hg hθ hs h, hg]
  generalize fwdVarX p √(p.heston.decayed s) (p.domestic.b s T) (p.foreign.b s T) 0 = w
  have hQ : (Complex.I * u) ^ 2 - Complex.I * u = chfQ u := by rw [chfQ]; ring
  rw [hQ]
  unfold Cir.decayed
  push_cast
  field_simp
  ring

theorem charFun_logLaw (x : ℝ) {V : ℝ} (hV : 0 ≤ V) (u : ℝ) :
    charFun (logLaw x V) u = Complex.exp (Complex.I * u * (x : ℝ) + chfQ u / 2 * (V : ℝ)) := by
  rw [charFun_gaussianReal, Real.coe_toNNReal V hV]
  congr 1
  have hQ : chfQ u = -((u : ℂ) ^ 2 + Complex.I * u) := by
    rw [chfQ]; linear_combination (u : ℂ) ^ 2 * Complex.I_sq
  rw [hQ]
  push_cast
  ring

theorem hhw_law (p : HhwParams) (hk : 0 < p.heston.kappa) (hg : p.heston.gamma = 0)
    (hθ : 0 ≤ p.heston.theta) (hs : 0 ≤ p.heston.sigma0) {T : ℝ} (hT : 0 ≤ T) {m : ℕ} (hm : 0 < m)
    (hV : 0 ≤ p.simpsonVariance T m) :
    ∃ q, HhwChf.withSimpsonSteps p T (2 * m) = .ok q ∧ q.params = p ∧ q.expiry = T ∧
      ∀ u : ℝ, q.evaluate u = .ok (charFun (logLaw (p.logForward T) (p.simpsonVariance T m)) u) := by
  refine ⟨_, withSimpsonSteps_eq p hk T hm, rfl, rfl, fun u => ?_⟩
  obtain ⟨q, hq, h⟩ := evaluate_eq p hk hT hm
  rw [withSimpsonSteps_eq p hk T hm] at hq
  cases hq
  rw [(h u).2, charFun_logLaw _ hV]
  congr 2
  have e1 : simpsonPanels m T (fun s => integrandVal p u s T)
      = chfQ u / 2 * (simpsonOn m 0 T (fun t => p.varianceRate T t
          - p.heston.sigma0 * Real.exp (-p.heston.kappa * t)) : ℝ) := by
    rw [← simpsonPanels_real]
    exact simpsonPanels_congr m hT fun s hs' => integrandVal_no_volvol p hk hg hθ hs u hs' T
  have hκ : (p.heston.kappa : ℂ) ≠ 0 := by exact_mod_cast hk.ne'
  rw [e1, cOfTau_no_volvol p hk hg u hT, HhwParams.simpsonVariance]
  generalize simpsonOn m 0 T (fun t => p.varianceRate T t
          - p.heston.sigma0 * Real.exp (-p.heston.kappa * t)) = S
  push_cast
  field_simp
  ring

/-! ## Convergence of the variance -/

theorem decayed_continuous (p : Cir) : Continuous p.decayed := by
  unfold Cir.decayed; fun_prop

theorem hwB_continuous (h : HullWhite) (T : ℝ) : Continuous fun t => h.b t T := by
  unfold HullWhite.b
  by_cases hl : |h.lambda| < 1 / 10 ^ 12
  · simp only [if_pos hl]; fun_prop
  · simp only [if_neg hl]; fun_prop

theorem varianceRate_continuous (p : HhwParams) (T : ℝ) : Continuous (p.varianceRate T) := by
  have h1 := decayed_continuous p.heston
  have h2 := hwB_continuous p.domestic T
  have h3 := hwB_continuous p.foreign T
  unfold HhwParams.varianceRate fwdVarX
  fun_prop

theorem integral_decay {k : ℝ} (hk : 0 < k) (T : ℝ) :
    ∫ t in (0 : ℝ)..T, Real.exp (-k * t) = (1 - Real.exp (-k * T)) / k := by
  have hd : ∀ t ∈ Set.uIcc 0 T, HasDerivAt (fun t => -Real.exp (-k * t) / k) (Real.exp (-k * t)) t := by
    intro t _
    have h1 : HasDerivAt (fun t : ℝ => -k * t) (-k) t := by simpa using (hasDerivAt_id t).const_mul (-k)
    refine ((h1.exp.neg).div_const k).congr_deriv ?_
    field_simp
  rw [intervalIntegral.integral_eq_sub_of_hasDerivAt hd
    (Continuous.intervalIntegrable (by fun_prop) _ _)]
  simp
  ring

theorem simpsonVariance_tendsto (p : HhwParams) (hk : 0 < p.heston.kappa) {T : ℝ} (hT : 0 ≤ T) :
    Tendsto (fun m => p.simpsonVariance T m) atTop (𝓝 (p.forwardVariance T)) := by
  have hc := varianceRate_continuous p T
  have hg : Continuous fun t => p.varianceRate T t - p.heston.sigma0 * Real.exp (-p.heston.kappa * t) := by
    fun_prop
  have h := (simpsonOn_tendsto hT hg.continuousOn).const_add
    (p.heston.sigma0 * ((1 - Real.exp (-p.heston.kappa * T)) / p.heston.kappa))
  have e : p.heston.sigma0 * ((1 - Real.exp (-p.heston.kappa * T)) / p.heston.kappa)
      + ∫ t in (0 : ℝ)..T, (p.varianceRate T t - p.heston.sigma0 * Real.exp (-p.heston.kappa * t))
      = p.forwardVariance T := by
    rw [intervalIntegral.integral_sub (hc.intervalIntegrable _ _)
      (Continuous.intervalIntegrable (by fun_prop) _ _), intervalIntegral.integral_const_mul,
      integral_decay hk, HhwParams.forwardVariance]
    ring
  rw [e] at h
  exact h

/-- Constant variance: the Simpson sum is the total variance up to the fourth power of the step. -/
theorem simpsonVariance_constant (p : HhwParams) (hk : 0 < p.heston.kappa)
    (hd : p.domestic.sigma = 0) (hf : p.foreign.sigma = 0) (hθ : 0 ≤ p.heston.theta)
    (hs : p.heston.sigma0 = p.heston.theta) {T : ℝ} (hT : 0 ≤ T) {m : ℕ} (hm : 0 < m) :
    |p.simpsonVariance T m - p.heston.theta * T|
      ≤ p.heston.theta * p.heston.kappa ^ 4 * T ^ 5 / (180 * (2 * m) ^ 4) := by
  set κ := p.heston.kappa with hκ
  set θ := p.heston.theta with hθ'
  have hrate : ∀ t, p.varianceRate T t = θ := by
    intro t
    have : p.heston.decayed t = θ := by rw [Cir.decayed, hs]; ring
    simp [HhwParams.varianceRate, fwdVarX, hd, hf, this]
  set f : ℝ → ℂ := fun t => (θ : ℂ) * (1 - Complex.exp (-(κ : ℂ) * t)) with hfdef
  have hexp := hasDerivAt_expNeg (κ : ℂ)
  have d1 : ∀ t ∈ Set.Icc 0 T, HasDerivAt f (θ * κ * Complex.exp (-(κ : ℂ) * t)) t := by
    intro t _
    refine (((hexp t).const_sub 1).const_mul (θ : ℂ)).congr_deriv ?_
    ring
  have d2 : ∀ t ∈ Set.Icc 0 T, HasDerivAt (fun t : ℝ => (θ : ℂ) * κ * Complex.exp (-(κ : ℂ) * t))
      (-(θ * κ ^ 2) * Complex.exp (-(κ : ℂ) * t)) t := by
    intro t _
    refine ((hexp t).const_mul ((θ : ℂ) * κ)).congr_deriv ?_
    ring
  have d3 : ∀ t ∈ Set.Icc 0 T, HasDerivAt (fun t : ℝ => -((θ : ℂ) * κ ^ 2) * Complex.exp (-(κ : ℂ) * t))
      (θ * κ ^ 3 * Complex.exp (-(κ : ℂ) * t)) t := by
    intro t _
    refine ((hexp t).const_mul (-((θ : ℂ) * κ ^ 2))).congr_deriv ?_
    ring
  have d4 : ∀ t ∈ Set.Icc 0 T, HasDerivAt (fun t : ℝ => (θ : ℂ) * κ ^ 3 * Complex.exp (-(κ : ℂ) * t))
      (-(θ * κ ^ 4) * Complex.exp (-(κ : ℂ) * t)) t := by
    intro t _
    refine ((hexp t).const_mul ((θ : ℂ) * κ ^ 3)).congr_deriv ?_
    ring
  have hM : ∀ t ∈ Set.Icc 0 T, ‖-((θ : ℂ) * (κ : ℂ) ^ 4) * Complex.exp (-(κ : ℂ) * t)‖ ≤ θ * κ ^ 4 := by
    intro t ht
    have hle : ‖Complex.exp (-(κ : ℂ) * t)‖ ≤ 1 := by
      rw [Complex.norm_exp, Real.exp_le_one_iff, ← Complex.ofReal_neg, ← Complex.ofReal_mul,
        Complex.ofReal_re]
      nlinarith [ht.1]
    have hn : ‖-((θ : ℂ) * (κ : ℂ) ^ 4)‖ = θ * κ ^ 4 := by
      rw [norm_neg, norm_mul, norm_pow, Complex.norm_real,
        Complex.norm_real, Real.norm_of_nonneg hθ, Real.norm_of_nonneg hk.le]
    rw [norm_mul, hn]
    exact mul_le_of_le_one_right (by positivity) hle
  have herr := simpson_composite hT d1 d2 d3 d4 hM hm
  set g : ℝ → ℝ := fun t => θ - p.heston.sigma0 * Real.exp (-κ * t) with hg
  have hfg : ∀ t : ℝ, f t = ((g t : ℝ) : ℂ) := by
    intro t; simp only [hfdef, hg, hs]; push_cast; ring
  have hint : (∫ t in (0 : ℝ)..T, f t) = ((θ * T - θ * ((1 - Real.exp (-κ * T)) / κ) : ℝ) : ℂ) := by
    simp only [hfg]
    rw [intervalIntegral.integral_ofReal]
    congr 1
    simp only [hg, hs]
    rw [intervalIntegral.integral_sub (Continuous.intervalIntegrable (by fun_prop) _ _)
      (Continuous.intervalIntegrable (by fun_prop) _ _), intervalIntegral.integral_const_mul,
      integral_decay hk]
    simp
    ring
  have hsum : (∑ j ∈ Finset.range m, ((T / (2 * m) / 3 : ℝ) : ℂ) * (f ((2 * j : ℕ) * (T / (2 * m)))
        + 4 * f ((2 * j + 1 : ℕ) * (T / (2 * m))) + f ((2 * j + 2 : ℕ) * (T / (2 * m)))))
      = ((simpsonOn m 0 T g : ℝ) : ℂ) := by
    have := simpsonPanels_real m T 1 g
    rw [one_mul] at this
    rw [← this]
    simp only [one_mul, ← hfg]
    simp only [simpsonPanels]
  rw [hint] at herr
  have e0 : ∀ S : ℂ, S = ((simpsonOn m 0 T g : ℝ) : ℂ) → ‖S - ((θ * T - θ * ((1 - Real.exp (-κ * T)) / κ) : ℝ) : ℂ)‖
      = |p.simpsonVariance T m - θ * T| := by
    rintro S rfl
    rw [← Complex.ofReal_sub, Complex.norm_real, Real.norm_eq_abs, HhwParams.simpsonVariance]
    simp only [hrate]
    rw [← hκ, hs, hg]
    simp only [hs]
    congr 1
    ring
  rw [e0 _ hsum] at herr
  exact herr

/-- The forward at the expiry. -/
theorem exp_logForward (p : HhwParams) (hfx : 0 < p.fx0) (T : ℝ) :
    Real.exp (p.logForward T) = p.fx0 * Real.exp ((p.rd0 - p.rf0) * T) := by
  have : 0 < p.fx0 * Real.exp (-p.rf0 * T) / Real.exp (-p.rd0 * T) := by positivity
  rw [HhwParams.logForward, Real.exp_log this, mul_div_assoc, ← Real.exp_sub]
  congr 2
  ring

theorem exp_neg_34 : Real.exp (-34) ≤ 1 / (3 * 10 ^ 14) := by
  rw [Real.exp_neg, ← one_div]
  refine one_div_le_one_div_of_le (by norm_num) ?_
  have h := Real.exp_one_gt_d9
  calc (3 * 10 ^ 14 : ℝ) ≤ (2718 / 1000) ^ 34 := by norm_num
    _ ≤ Real.exp 1 ^ 34 := pow_le_pow_left₀ (by norm_num) (by linarith) _
    _ = Real.exp 34 := by rw [← Real.exp_nat_mul]; norm_num

theorem ten_tail {s V : ℝ} (hs : 0 < s) (hs1 : s ≤ 1) (hV : 0 < V) (hV2 : V ≤ 181 / 180 * s ^ 2) :
    Real.exp (-((10 * s - V / 2) ^ 2 / (2 * V))) ≤ Real.exp (-34) * Real.exp (-10) := by
  rw [← Real.exp_add, Real.exp_le_exp, ← neg_add, neg_le_neg_iff, le_div_iff₀ (by positivity)]
  have hss : s ^ 2 ≤ s := by nlinarith
  have h1 : 949 / 100 * s ≤ 10 * s - V / 2 := by linarith
  have h2 : (949 / 100 * s) ^ 2 ≤ (10 * s - V / 2) ^ 2 := pow_le_pow_left₀ (by positivity) h1 2
  have : (949 / 100 * s) ^ 2 = 900601 / 10000 * s ^ 2 := by ring
  linarith [pow_pos hs 2]

theorem ten_series {s V : ℝ} (hs : 0 < s) (hV1 : 179 / 180 * s ^ 2 ≤ V) :
    Real.exp (-(V * ((128 : ℕ) * Real.pi / (2 * (10 * s))) ^ 2 / 2)) ≤ Real.exp (-34) * Real.exp (-10) := by
  rw [← Real.exp_add, Real.exp_le_exp, ← neg_add, neg_le_neg_iff]
  have hpi := Real.pi_gt_three
  have h1 : (18 / s) ^ 2 ≤ ((128 : ℕ) * Real.pi / (2 * (10 * s))) ^ 2 := by
    refine pow_le_pow_left₀ (by positivity) ?_ 2
    rw [div_le_div_iff₀ hs (by positivity)]
    push_cast
    nlinarith
  have h2 : 179 / 180 * s ^ 2 * (18 / s) ^ 2 = 1611 / 5 := by field_simp; norm_num
  have h3 : 0 < s ^ 2 := by positivity
  have := mul_le_mul hV1 h1 (by positivity) (by linarith)
  linarith

theorem ten_coefficient {F K s : ℝ} (hF : 0 < F) (hK : 0 < K) (hs1 : s ≤ 1) :
    4 * (10 * s) * (F * Real.exp (10 * s) + 2 * K) / Real.pi ^ 2 / ((128 : ℕ) - 1)
      ≤ (F + K) * Real.exp 10 := by
  have hpi := Real.pi_gt_three
  have hee : Real.exp (10 * s) ≤ Real.exp 10 := Real.exp_le_exp.2 (by linarith)
  have he1 : (1 : ℝ) ≤ Real.exp 10 := Real.one_le_exp (by norm_num)
  have hd : (0 : ℝ) < Real.pi ^ 2 * ((128 : ℕ) - 1) := by push_cast; norm_num; positivity
  rw [div_div, div_le_iff₀ hd]
  push_cast
  have h1 : F * Real.exp (10 * s) + 2 * K ≤ 2 * ((F + K) * Real.exp 10) := by
    have := mul_le_mul_of_nonneg_left hee hF.le
    have := mul_le_mul_of_nonneg_left he1 hK.le
    have := mul_pos hF (Real.exp_pos 10)
    linarith
  have h2 : 4 * (10 * s) * (F * Real.exp (10 * s) + 2 * K) ≤ 40 * (2 * ((F + K) * Real.exp 10)) :=
    mul_le_mul (by linarith) h1 (by positivity) (by norm_num)
  have h3 : (9 : ℝ) ≤ Real.pi ^ 2 := by nlinarith
  have h4 : 0 < (F + K) * Real.exp 10 := by positivity
  have := mul_le_mul_of_nonneg_left h3 h4.le
  linarith

/-- All three errors together. -/
theorem ten_errors {F K s t r a : ℝ} (hF : 0 < F) (hK : 0 < K) (hs1 : s ≤ 1)
    (ht : t ≤ Real.exp (-34) * Real.exp (-10)) (hr : r ≤ Real.exp (-34) * Real.exp (-10))
    (ha0 : 0 ≤ a) (ha : a ≤ (F + K) * Real.exp 10) :
    r * a + F * (1 + Real.exp (10 * s)) * (2 * t) ≤ 2 / 10 ^ 14 * (F + K) ∧
    r * a + K * (2 * t) ≤ 2 / 10 ^ 14 * (F + K) := by
  have hee : Real.exp (10 * s) ≤ Real.exp 10 := Real.exp_le_exp.2 (by linarith)
  have he1 : (1 : ℝ) ≤ Real.exp 10 := Real.one_le_exp (by norm_num)
  have hm : Real.exp (-10) * Real.exp 10 = 1 := by rw [← Real.exp_add]; simp
  have h10 : Real.exp (-10) ≤ 1 := Real.exp_le_one_iff.2 (by norm_num)
  have hx := exp_neg_34
  have p34 := Real.exp_pos (-34)
  have p10 := Real.exp_pos (-10)
  generalize Real.exp (-34) = x at *
  generalize Real.exp (-10) = y at *
  generalize Real.exp 10 = z at *
  have p0 := Real.exp_pos (10 * s)
  generalize Real.exp (10 * s) = e at *
  have h1 : r * a ≤ x * (F + K) := by
    calc r * a ≤ x * y * ((F + K) * z) := mul_le_mul hr ha ha0 (by positivity)
      _ = x * (F + K) * (y * z) := by ring
      _ = x * (F + K) := by rw [hm, mul_one]
  have h2 : F * (1 + e) * (2 * t) ≤ 4 * x * F := by
    calc F * (1 + e) * (2 * t) ≤ F * (1 + e) * (2 * (x * y)) :=
          mul_le_mul_of_nonneg_left (by linarith) (by positivity)
      _ ≤ F * (2 * z) * (2 * (x * y)) :=
          mul_le_mul_of_nonneg_right (mul_le_mul_of_nonneg_left (by linarith) hF.le) (by positivity)
      _ = 4 * x * F * (y * z) := by ring
      _ = 4 * x * F := by rw [hm, mul_one]
  have h3 : K * (2 * t) ≤ 4 * x * K := by
    have : x * y ≤ x := mul_le_of_le_one_right p34.le h10
    have := mul_le_mul_of_nonneg_left (show 2 * t ≤ 4 * x by linarith) hK.le
    linarith
  have h4 : x * (F + K) ≤ 1 / (3 * 10 ^ 14) * (F + K) := mul_le_mul_of_nonneg_right hx (by linarith)
  have := mul_pos p34 hF
  have := mul_pos p34 hK
  constructor
  · calc _ ≤ 5 * (x * (F + K)) := by linarith
      _ ≤ _ := by linarith
  · calc _ ≤ 5 * (x * (F + K)) := by linarith
      _ ≤ _ := by linarith

theorem black_at_the_money {V : ℝ} (h1 : 9 / 40 ≤ V) (h2 : V ≤ 1 / 4) :
    173 / 1000 ≤ blackScholes 1 1 V 1 .call := by
  have hV : 0 < V := by linarith
  rw [blackScholes_call hV]
  have hs := Real.sqrt_pos.2 hV
  have hs1 : 47 / 100 ≤ √V := Real.le_sqrt_of_sq_le (by norm_num; linarith)
  have hs2 : √V ≤ 1 / 2 := Real.sqrt_le_iff.2 ⟨by norm_num, by norm_num; linarith⟩
  have hd1 : bd1 1 1 √V = √V / 2 := by
    rw [bd1]; simp; field_simp
  have hd2 : bd2 1 1 √V = -(√V / 2) := by rw [bd2, hd1]; ring
  have hpdf : ∀ t ∈ Set.Icc (-(1 / 4 : ℝ)) (1 / 4), 37 / 100 ≤ normPdf t := by
    rintro t ⟨ha, hb⟩
    unfold normPdf
    have e1 : -(t ^ 2) / 2 + 1 ≤ Real.exp (-(t ^ 2) / 2) := Real.add_one_le_exp _
    have e2 : √(2 * Real.pi) ≤ 251 / 100 := by
      refine Real.sqrt_le_iff.2 ⟨by norm_num, ?_⟩
      have := Real.pi_lt_d4
      norm_num; linarith
    have hq : 0 < √(2 * Real.pi) := by positivity
    rw [le_div_iff₀ hq]
    have : t ^ 2 ≤ 1 / 16 := by nlinarith
    linarith
  have hmv := Convex.mul_sub_le_image_sub_of_le_deriv (convex_Icc (-(1 / 4 : ℝ)) (1 / 4)) (f := normCdf)
    (fun t _ => (hasDerivAt_normCdf t).continuousAt.continuousWithinAt)
    (fun t _ => (hasDerivAt_normCdf t).differentiableAt.differentiableWithinAt) (C := 37 / 100)
    (fun t ht => by
      rw [interior_Icc] at ht
      rw [(hasDerivAt_normCdf t).deriv]
      exact hpdf t ⟨ht.1.le, ht.2.le⟩)
    (-(√V / 2)) ⟨by linarith, by linarith⟩ (√V / 2) ⟨by linarith, by linarith⟩ (by linarith)
  show 173 / 1000 ≤ 1 * blackCore 1 1 √V
  rw [blackCore, hd1, hd2]
  linarith

end Verif
