import Verif.Model.Options
import Verif.Lemmas.Normal
import Mathlib.Analysis.SpecialFunctions.Sqrt
import Mathlib.Analysis.SpecialFunctions.Log.Deriv

/-!
# Facts about the Black and Bachelier formulas
-/

namespace Verif

open MeasureTheory Set

/-- The Black formula's first argument for standard deviation `s`. -/
noncomputable def bd1 (F K s : ℝ) : ℝ := (Real.log (F / K) + s ^ 2 / 2) / s

/-- The Black formula's second argument. -/
noncomputable def bd2 (F K s : ℝ) : ℝ := bd1 F K s - s

/-- Undiscounted Black call for standard deviation `s`. -/
noncomputable def blackCore (F K s : ℝ) : ℝ := F * normCdf (bd1 F K s) - K * normCdf (bd2 F K s)

variable {F K s V D : ℝ}

theorem normPdf_shift (t s : ℝ) : normPdf (t + s) = normPdf t * Real.exp (-(t * s) - s ^ 2 / 2) := by
  unfold normPdf
  rw [div_mul_eq_mul_div, ← Real.exp_add]
  congr 2; ring

theorem bd1_eq (hs : s ≠ 0) : bd1 F K s = bd2 F K s + s := by unfold bd2; ring

theorem bd2_mul (hs : s ≠ 0) : bd2 F K s * s = Real.log (F / K) - s ^ 2 / 2 := by
  unfold bd2 bd1
  field_simp
  ring

/-- `F φ(d₁) = K φ(d₂)`. -/
theorem black_pdf (hF : 0 < F) (hK : 0 < K) (hs : s ≠ 0) :
    F * normPdf (bd1 F K s) = K * normPdf (bd2 F K s) := by
  rw [bd1_eq hs, normPdf_shift, bd2_mul hs,
    show -(Real.log (F / K) - s ^ 2 / 2) - s ^ 2 / 2 = Real.log (K / F) by
      rw [← inv_div F K, Real.log_inv]; ring,
    Real.exp_log (by positivity)]
  field_simp

theorem black_swap_d1 (hF : 0 < F) (hK : 0 < K) (hs : s ≠ 0) : bd1 K F s = -bd2 F K s := by
  unfold bd2 bd1
  rw [← inv_div F K, Real.log_inv]
  field_simp
  ring

theorem black_swap_d2 (hF : 0 < F) (hK : 0 < K) (hs : s ≠ 0) : bd2 K F s = -bd1 F K s := by
  unfold bd2 bd1
  rw [← inv_div F K, Real.log_inv]
  field_simp
  ring

theorem integral_Iic_shift (a s : ℝ) : ∫ t in Iic a, normPdf (t + s) = normCdf (a + s) := by
  unfold normCdf
  have := (measurePreserving_add_right (volume : Measure ℝ) s).setIntegral_preimage_emb
    (MeasurableEquiv.addRight s).measurableEmbedding normPdf (Iic (a + s))
  rw [← this]
  congr 2
  ext t; simp

theorem blackCore_nonneg (hF : 0 < F) (hK : 0 < K) (hs : 0 < s) : 0 ≤ blackCore F K s := by
  have hne := hs.ne'
  unfold blackCore
  rw [bd1_eq hne, ← integral_Iic_shift]
  unfold normCdf
  rw [← integral_const_mul, ← integral_const_mul, sub_nonneg]
  refine setIntegral_mono_on (integrable_normPdf.const_mul _).integrableOn
    ((integrable_normPdf.comp_add_right s).const_mul _).integrableOn measurableSet_Iic ?_
  intro t ht
  have ht' : t * s ≤ bd2 F K s * s := mul_le_mul_of_nonneg_right ht hs.le
  rw [bd2_mul hne] at ht'
  rw [normPdf_shift]
  have h1 : K / F ≤ Real.exp (-(t * s) - s ^ 2 / 2) := by
    have : Real.log (K / F) ≤ -(t * s) - s ^ 2 / 2 := by
      rw [← inv_div F K, Real.log_inv]; linarith
    calc K / F = Real.exp (Real.log (K / F)) := (Real.exp_log (by positivity)).symm
      _ ≤ _ := Real.exp_le_exp.2 this
  have h2 := normPdf_pos t
  have h3 : K ≤ F * Real.exp (-(t * s) - s ^ 2 / 2) := by
    rw [div_le_iff₀ hF] at h1; linarith
  nlinarith

/-- Put-call relation between the core and its mirror image. -/
theorem blackCore_parity (hF : 0 < F) (hK : 0 < K) (hs : s ≠ 0) :
    blackCore F K s - blackCore K F s = F - K := by
  unfold blackCore
  rw [black_swap_d1 hF hK hs, black_swap_d2 hF hK hs, normCdf_neg, normCdf_neg]
  ring

theorem blackCore_lower (hF : 0 < F) (hK : 0 < K) (hs : 0 < s) :
    max (F - K) 0 ≤ blackCore F K s := by
  apply max_le _ (blackCore_nonneg hF hK hs)
  have := blackCore_parity hF hK hs.ne'
  have := blackCore_nonneg hK hF hs
  linarith

theorem blackCore_upper (hF : 0 < F) (hK : 0 < K) : blackCore F K s < F := by
  unfold blackCore
  have h1 := normCdf_lt_one (bd1 F K s)
  have h2 := normCdf_pos (bd2 F K s)
  nlinarith

/-- Derivative of `d₁` with respect to the standard deviation. -/
theorem hasDerivAt_bd1_s (hs : s ≠ 0) :
    HasDerivAt (fun s => bd1 F K s) (1 / 2 - Real.log (F / K) / s ^ 2) s := by
  have h1 : HasDerivAt (fun s : ℝ => Real.log (F / K) + s ^ 2 / 2) s s := by
    have := ((hasDerivAt_pow 2 s).div_const 2).const_add (Real.log (F / K))
    simpa using this
  have h2 := h1.div (hasDerivAt_id s) hs
  refine h2.congr_deriv ?_
  simp only [id]
  field_simp
  ring

/-- Vega of the core: the derivative in the standard deviation is `F φ(d₁)`. -/
theorem hasDerivAt_blackCore_s (hF : 0 < F) (hK : 0 < K) (hs : s ≠ 0) :
    HasDerivAt (fun s => blackCore F K s) (F * normPdf (bd1 F K s)) s := by
  have h1 := hasDerivAt_bd1_s (F := F) (K := K) hs
  have h2 : HasDerivAt (fun s => bd2 F K s) (1 / 2 - Real.log (F / K) / s ^ 2 - 1) s :=
    h1.sub (hasDerivAt_id s)
  have c1 := ((hasDerivAt_normCdf (bd1 F K s)).comp s h1).const_mul F
  have c2 := ((hasDerivAt_normCdf (bd2 F K s)).comp s h2).const_mul K
  refine (c1.sub c2).congr_deriv ?_
  have := black_pdf hF hK hs
  linear_combination (1 / 2 - Real.log (F / K) / s ^ 2 - 1) * this

theorem blackCore_strictMono (hF : 0 < F) (hK : 0 < K) :
    StrictMonoOn (fun s => blackCore F K s) (Ioi 0) := by
  refine strictMonoOn_of_deriv_pos (convex_Ioi 0) ?_ ?_
  · intro s hs
    exact (hasDerivAt_blackCore_s hF hK (ne_of_gt hs)).continuousAt.continuousWithinAt
  · intro s hs
    rw [interior_Ioi] at hs
    rw [(hasDerivAt_blackCore_s hF hK (ne_of_gt hs)).deriv]
    have := normPdf_pos (bd1 F K s)
    positivity

/-- Derivative of `d₁` with respect to the forward. -/
theorem hasDerivAt_bd1_F (hF : 0 < F) (hK : 0 < K) :
    HasDerivAt (fun F => bd1 F K s) (1 / (F * s)) F := by
  have h1 : HasDerivAt (fun F : ℝ => F / K) (1 / K) F := by
    simpa using (hasDerivAt_id F).div_const K
  have h2 := ((h1.log (by positivity)).add_const (s ^ 2 / 2)).div_const s
  refine h2.congr_deriv ?_
  field_simp

/-- Delta of the core: the derivative in the forward is `Φ(d₁)`. -/
theorem hasDerivAt_blackCore_F (hF : 0 < F) (hK : 0 < K) (hs : s ≠ 0) :
    HasDerivAt (fun F => blackCore F K s) (normCdf (bd1 F K s)) F := by
  have h1 := hasDerivAt_bd1_F (s := s) hF hK
  have h2 : HasDerivAt (fun F => bd2 F K s) (1 / (F * s)) F := h1.sub_const s
  have c1 := (hasDerivAt_id F).mul ((hasDerivAt_normCdf (bd1 F K s)).comp F h1)
  have c2 := ((hasDerivAt_normCdf (bd2 F K s)).comp F h2).const_mul K
  refine (c1.sub c2).congr_deriv ?_
  have := black_pdf hF hK hs
  simp only [id, Function.comp_apply]
  linear_combination (1 / (F * s)) * this

theorem hasDerivAt_cdf_d1_F (hF : 0 < F) (hK : 0 < K) :
    HasDerivAt (fun F => normCdf (bd1 F K s)) (normPdf (bd1 F K s) / (F * s)) F := by
  refine ((hasDerivAt_normCdf (bd1 F K s)).comp F (hasDerivAt_bd1_F hF hK)).congr_deriv ?_
  ring

theorem d1_eq_bd1 (hV : 0 < V) :
    (Real.log (F / K) + 1 / 2 * V) / √V = bd1 F K (√V) := by
  unfold bd1
  rw [Real.sq_sqrt hV.le]
  congr 1; ring

/-- The model's call price is the discounted core. -/
theorem blackScholes_call (hV : 0 < V) :
    blackScholes F K V D .call = D * blackCore F K (√V) := by
  unfold blackScholes
  rw [if_neg (not_le.2 hV)]
  simp only [OptionType.omega, d1_eq_bd1 hV, one_mul]
  rfl

/-- The model's put price is the discounted core with forward and strike swapped. -/
theorem blackScholes_put (hF : 0 < F) (hK : 0 < K) (hV : 0 < V) :
    blackScholes F K V D .put = D * blackCore K F (√V) := by
  unfold blackScholes
  rw [if_neg (not_le.2 hV)]
  have hs : √V ≠ 0 := (Real.sqrt_pos.2 hV).ne'
  unfold blackCore
  rw [black_swap_d1 hF hK hs, black_swap_d2 hF hK hs]
  simp only [OptionType.omega, d1_eq_bd1 hV]
  unfold bd2
  ring_nf

theorem blackScholes_intrinsic_call (hV : V ≤ 0) :
    blackScholes F K V D .call = D * max (F - K) 0 := by
  unfold blackScholes; rw [if_pos hV]

theorem blackScholes_intrinsic_put (hV : V ≤ 0) :
    blackScholes F K V D .put = D * max (K - F) 0 := by
  unfold blackScholes; rw [if_pos hV]

/-! ### Bachelier -/

/-- `g(d) = φ(d) + d Φ(d)`. -/
noncomputable def bachCore (d : ℝ) : ℝ := normPdf d + d * normCdf d

theorem hasDerivAt_bachCore (d : ℝ) : HasDerivAt bachCore (normCdf d) d := by
  have h := (hasDerivAt_normPdf d).add ((hasDerivAt_id d).mul (hasDerivAt_normCdf d))
  refine h.congr_deriv ?_
  simp only [id]; ring

theorem bachCore_neg (d : ℝ) : bachCore (-d) = bachCore d - d := by
  unfold bachCore
  rw [normPdf_neg, normCdf_neg]; ring

theorem integrableOn_mul_normPdf (x : ℝ) : IntegrableOn (fun t => t * normPdf t) (Ioi x) := by
  have h : Integrable fun t : ℝ => t * normPdf t := by
    have := (integrable_mul_exp_neg_mul_sq (b := 1 / 2) (by norm_num)).div_const (√(2 * Real.pi))
    refine this.congr (Filter.Eventually.of_forall fun t => ?_)
    show t * Real.exp (-(1 / 2) * t ^ 2) / √(2 * Real.pi) = t * normPdf t
    rw [normPdf_eq]; ring
  exact h.integrableOn

theorem tendsto_normPdf_atTop : Filter.Tendsto normPdf Filter.atTop (nhds 0) := by
  have h : Filter.Tendsto (fun t : ℝ => -(t ^ 2) / 2) Filter.atTop Filter.atBot := by
    have h1 : Filter.Tendsto (fun t : ℝ => t ^ 2) Filter.atTop Filter.atTop :=
      Filter.tendsto_pow_atTop (by norm_num)
    have h2 := h1.atTop_div_const (show (0 : ℝ) < 2 by norm_num)
    refine (Filter.tendsto_neg_atTop_atBot.comp h2).congr fun t => ?_
    simp only [Function.comp_apply]; ring
  have := (Real.tendsto_exp_atBot.comp h).div_const (√(2 * Real.pi))
  rw [zero_div] at this
  exact this

theorem integral_mul_normPdf (x : ℝ) : ∫ t in Ioi x, t * normPdf t = normPdf x := by
  have h := integral_Ioi_of_hasDerivAt_of_tendsto' (f := fun t => -normPdf t)
    (f' := fun t => t * normPdf t) (a := x) (m := 0)
    (fun t _ => (hasDerivAt_normPdf t).neg.congr_deriv (by ring)) (integrableOn_mul_normPdf x)
    (by simpa using tendsto_normPdf_atTop.neg)
  rw [h]; ring

theorem bachCore_pos (d : ℝ) : 0 < bachCore d := by
  rcases le_or_gt 0 d with h | h
  · unfold bachCore
    have := normPdf_pos d; have := normCdf_pos d; positivity
  · obtain ⟨x, rfl⟩ : ∃ x, d = -x := ⟨-d, by ring⟩
    have hx : 0 < x := by linarith
    have key : ∀ y : ℝ, 0 ≤ bachCore (-y) := by
      intro y
      have h1 : ∫ t in Ioi y, y * normPdf t ≤ ∫ t in Ioi y, t * normPdf t := by
        refine setIntegral_mono_on (integrable_normPdf.const_mul _).integrableOn
          (integrableOn_mul_normPdf y) measurableSet_Ioi ?_
        intro t ht
        exact mul_le_mul_of_nonneg_right (le_of_lt ht) (normPdf_pos t).le
      rw [integral_const_mul, normCdf_compl, integral_mul_normPdf] at h1
      unfold bachCore
      rw [normPdf_neg, normCdf_neg]
      linarith
    have hmono : StrictMono bachCore := strictMono_of_deriv_pos fun z => by
      rw [(hasDerivAt_bachCore z).deriv]; exact normCdf_pos z
    exact lt_of_le_of_lt (key (x + 1)) (hmono (by linarith))

theorem bachelierCall_eq (hV : 0 < V) :
    bachelierCall F K V = √V * bachCore ((F - K) / √V) := by
  unfold bachelierCall bachCore
  rw [if_neg (not_le.2 hV)]
  have : √V ≠ 0 := (Real.sqrt_pos.2 hV).ne'
  field_simp

theorem bachelierPut_eq (hV : 0 < V) :
    bachelierPut F K V = √V * bachCore ((K - F) / √V) := by
  unfold bachelierPut bachCore
  rw [if_neg (not_le.2 hV)]
  have h : √V ≠ 0 := (Real.sqrt_pos.2 hV).ne'
  have e : (K - F) / √V = -((F - K) / √V) := by ring
  rw [e, normPdf_neg]
  field_simp
  ring

/-- Derivative of `s · g(x / s)` in the standard deviation. -/
theorem hasDerivAt_bach_s {x : ℝ} (hs : s ≠ 0) :
    HasDerivAt (fun s => s * bachCore (x / s)) (normPdf (x / s)) s := by
  have h1 : HasDerivAt (fun s : ℝ => x / s) (-x / s ^ 2) s := by
    have := (hasDerivAt_const s x).div (hasDerivAt_id s) hs
    refine this.congr_deriv ?_
    simp
  have h2 := (hasDerivAt_id s).mul ((hasDerivAt_bachCore (x / s)).comp s h1)
  refine h2.congr_deriv ?_
  simp only [id, Function.comp_apply, bachCore]
  field_simp
  ring

theorem hasDerivAt_bach_V {x : ℝ} (hV : 0 < V) :
    HasDerivAt (fun V => √V * bachCore (x / √V)) (normPdf (x / √V) / (2 * √V)) V := by
  have h := (hasDerivAt_bach_s (x := x) (Real.sqrt_pos.2 hV).ne').comp V
    (Real.hasDerivAt_sqrt hV.ne')
  refine h.congr_deriv ?_
  ring

theorem bach_strictMono (x : ℝ) : StrictMonoOn (fun s => s * bachCore (x / s)) (Ioi 0) := by
  refine strictMonoOn_of_deriv_pos (convex_Ioi 0) ?_ ?_
  · intro s hs
    exact (hasDerivAt_bach_s (ne_of_gt hs)).continuousAt.continuousWithinAt
  · intro s hs
    rw [interior_Ioi] at hs
    rw [(hasDerivAt_bach_s (ne_of_gt hs)).deriv]
    exact normPdf_pos _

theorem bach_lower {x : ℝ} (hs : 0 < s) : max x 0 < s * bachCore (x / s) := by
  apply max_lt
  · have h := bachCore_pos (-(x / s))
    rw [bachCore_neg] at h
    have h2 : x / s < bachCore (x / s) := by linarith
    rw [div_lt_iff₀ hs] at h2
    linarith
  · have := bachCore_pos (x / s)
    positivity

end Verif
