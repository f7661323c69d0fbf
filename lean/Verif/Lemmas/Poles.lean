import Verif.Spec.ModelMc
import Verif.Spec.GaussVec
import Mathlib.Analysis.SpecialFunctions.NonIntegrable
import Mathlib.MeasureTheory.Constructions.Pi
import Mathlib.MeasureTheory.Integral.Prod
import Mathlib.Probability.BorelCantelli
import Mathlib.Probability.Distributions.Gaussian.Real
import Mathlib.Probability.IdentDistrib
import Mathlib.Topology.Algebra.Order.Floor

/-!
# Quantities without a mean
-/

namespace Verif

open MeasureTheory ProbabilityTheory Filter Topology Set

/-- The reciprocal of a normal quantity has no mean, wherever the pole lies. -/
theorem not_integrable_inv (c : ℝ) : ¬ Integrable (fun x : ℝ => (x - c)⁻¹) (gaussianReal 0 1) := by
  intro h
  rw [gaussianReal_of_var_ne_zero 0 one_ne_zero,
    integrable_withDensity_iff_integrable_smul' (measurable_gaussianPDF 0 1)
      (Eventually.of_forall fun x => gaussianPDF_lt_top)] at h
  have h1 : IntegrableOn (fun x => (gaussianPDF 0 1 x).toReal • (x - c)⁻¹) (Icc (c - 1) (c + 1)) :=
    h.integrableOn
  have hc : ContinuousOn (fun x : ℝ => (gaussianPDFReal 0 1 x)⁻¹) (Icc (c - 1) (c + 1)) := by
    refine ContinuousOn.inv₀ ?_ fun x _ => (gaussianPDFReal_pos 0 1 x one_ne_zero).ne'
    unfold gaussianPDFReal
    fun_prop
  have h2 := h1.continuousOn_mul hc isCompact_Icc
  have h3 : IntegrableOn (fun x : ℝ => (x - c)⁻¹) (Icc (c - 1) (c + 1)) := by
    refine h2.congr_fun (fun x _ => ?_) measurableSet_Icc
    have := (gaussianPDFReal_pos 0 1 x one_ne_zero).ne'
    simp only [toReal_gaussianPDF, smul_eq_mul]
    field_simp
  have h4 : IntervalIntegrable (fun x : ℝ => (x - c)⁻¹) volume (c - 1) (c + 1) := by
    rw [intervalIntegrable_iff_integrableOn_Icc_of_le (by linarith)]
    exact h3
  rcases intervalIntegrable_sub_inv_iff.1 h4 with h5 | h5
  · linarith
  · exact h5 (by rw [mem_uIcc]; left; constructor <;> linarith)

/-- Adding an affine function does not help. -/
theorem not_integrable_pole {α β c a b : ℝ} (hc : c ≠ 0) (hb : b ≠ 0) :
    ¬ Integrable (fun x : ℝ => α + β * x + c / (a + b * x)) (gaussianReal 0 1) := by
  intro h
  have hi : Integrable (fun x : ℝ => x) (gaussianReal 0 1) :=
    (memLp_id_gaussianReal 1).integrable (by norm_num)
  have h1 := (h.sub ((integrable_const α).add (hi.const_mul β))).const_mul (b / c)
  refine not_integrable_inv (-a / b) (h1.congr (Eventually.of_forall fun x => ?_))
  have e : x - -a / b = (a + b * x) / b := by field_simp; ring
  simp only [Pi.sub_apply, Pi.add_apply]
  rw [e, inv_div, add_sub_cancel_left]
  field_simp

/-- A function of independent quantities that has a mean has one in each of them, for almost all values
of the others. -/
theorem fiber_integrable {E : Type} [MeasurableSpace E] {μ : Measure E} [IsProbabilityMeasure μ] {n : ℕ}
    {F : (Fin n → E) → ℝ} (h : Integrable F (Measure.pi fun _ => μ)) (i : Fin n) :
    ∀ᵐ zs : Fin n → E ∂(Measure.pi fun _ => μ), Integrable (fun x => F (Function.update zs i x)) μ := by
  obtain ⟨m, rfl⟩ : ∃ m, n = m + 1 := ⟨n - 1, by have := i.2; omega⟩
  have hp := measurePreserving_piFinSuccAbove (fun _ : Fin (m + 1) => μ) i
  have h1 := (hp.symm _).integrable_comp_of_integrable h
  have h2 := (Measure.quasiMeasurePreserving_snd (μ := μ)).ae h1.prod_left_ae
  have h3 := hp.quasiMeasurePreserving.ae h2
  filter_upwards [h3] with zs hzs
  refine hzs.congr (Eventually.of_forall fun x => ?_)
  have e : Function.update zs i x
      = (MeasurableEquiv.piFinSuccAbove (fun _ : Fin (m + 1) => E) i).symm
        (x, ((MeasurableEquiv.piFinSuccAbove (fun _ : Fin (m + 1) => E) i) zs).2) := by
    change _ = i.insertNth (α := fun _ => E) x fun j => zs (i.succAbove j)
    refine (Fin.insertNth_eq_iff.2 ⟨by simp, ?_⟩).symm
    funext j
    simp [Fin.removeNth, Fin.succAbove_ne]
  change F _ = F (Function.update zs i x)
  rw [e]

/-- What holds for almost all values of one of several independent quantities, whatever the others,
holds almost surely. -/
theorem ae_of_fiber {E : Type} [MeasurableSpace E] {μ : Measure E} [IsProbabilityMeasure μ] {n : ℕ}
    {Q : (Fin n → E) → Prop} (hQ : MeasurableSet {zs | Q zs}) (i : Fin n)
    (h : ∀ zs, ∀ᵐ x ∂μ, Q (Function.update zs i x)) : ∀ᵐ zs ∂(Measure.pi fun _ : Fin n => μ), Q zs := by
  obtain ⟨m, rfl⟩ : ∃ m, n = m + 1 := ⟨n - 1, by have := i.2; omega⟩
  have hp := measurePreserving_piFinSuccAbove (fun _ : Fin (m + 1) => μ) i
  set e := MeasurableEquiv.piFinSuccAbove (fun _ : Fin (m + 1) => E) i with he
  obtain ⟨x0⟩ : Nonempty E := μ.nonempty_of_neZero
  have h1 : ∀ᵐ p ∂(μ.prod (Measure.pi fun _ : Fin m => μ)), Q (e.symm p) := by
    have hs : MeasurableSet {p | Q (e.symm p)} := e.symm.measurable hQ
    have hsw : ∀ᵐ p ∂((Measure.pi fun _ : Fin m => μ).prod μ), Q (e.symm p.swap) := by
      refine (Measure.ae_prod_iff_ae_ae (p := fun p => Q (e.symm p.swap)) (measurable_swap hs)).2
        (Eventually.of_forall fun y => ?_)
      filter_upwards [h (i.insertNth x0 y)] with x hx
      rw [Fin.update_insertNth] at hx
      exact hx
    rw [← Measure.prod_swap, ae_map_iff measurable_swap.aemeasurable hs]
    exact hsw
  filter_upwards [hp.quasiMeasurePreserving.ae h1] with zs hzs
  rwa [e.symm_apply_apply] at hzs

/-- Independent copies of a quantity without a mean exceed their number infinitely often, so their
averages have no limit. -/
theorem no_mean_diverges {Ω : Type} [MeasurableSpace Ω] {P : Measure Ω} [IsProbabilityMeasure P]
    {X : ℕ → Ω → ℝ} (hm : ∀ j, Measurable (X j)) (hi : iIndepFun X P)
    (hl : ∀ j, P.map (X j) = P.map (X 0)) (hX : ¬ Integrable (X 0) P) :
    ∀ᵐ ω ∂P, ¬ ∃ L, Tendsto (fun n : ℕ => (∑ j ∈ Finset.range n, X j ω) / n) atTop (𝓝 L) := by
  set s : ℕ → Set Ω := fun n => X n ⁻¹' {x | (n : ℝ) < |x|} with hs
  have hms : ∀ n : ℕ, MeasurableSet {x : ℝ | (n : ℝ) < |x|} := fun n =>
    measurableSet_lt measurable_const measurable_norm
  have hsm : ∀ n, MeasurableSet (s n) := fun n => hm n (hms n)
  have hind : iIndepSet s P := by
    rw [iIndepSet_iff_meas_biInter hsm]
    intro S
    exact (iIndepFun_iff_measure_inter_preimage_eq_mul.1 hi) S fun n _ => hms n
  have hsum : ∑' n, P (s n) = ⊤ := by
    have e : ∀ n, P (s n) = P (X 0 ⁻¹' {x | (n : ℝ) < |x|}) := fun n => by
      rw [hs, ← Measure.map_apply (hm n) (hms n), hl n, Measure.map_apply (hm 0) (hms n)]
    by_contra hne
    refine hX ⟨(hm 0).aestronglyMeasurable, ?_⟩
    refine lt_of_le_of_lt ?_ (lt_top_iff_ne_top.2 hne)
    calc ∫⁻ ω, ‖X 0 ω‖ₑ ∂P ≤ ∫⁻ ω, ∑' n, (X 0 ⁻¹' {x | ((n : ℕ) : ℝ) < |x|}).indicator 1 ω ∂P := by
          refine lintegral_mono fun ω => ?_
          have hle : ‖X 0 ω‖ₑ ≤ (⌈|X 0 ω|⌉₊ : ENNReal) := by
            rw [← ofReal_norm, Real.norm_eq_abs, ← ENNReal.ofReal_natCast]
            exact ENNReal.ofReal_le_ofReal (Nat.le_ceil _)
          refine hle.trans ?_
          have hcard : (⌈|X 0 ω|⌉₊ : ENNReal) = ∑ n ∈ Finset.range ⌈|X 0 ω|⌉₊,
              (X 0 ⁻¹' {x | ((n : ℕ) : ℝ) < |x|}).indicator 1 ω := by
            rw [Finset.sum_congr rfl fun n hn => indicator_of_mem (a := ω)
              (show ω ∈ X 0 ⁻¹' {x | ((n : ℕ) : ℝ) < |x|} from
                Nat.lt_ceil.1 (Finset.mem_range.1 hn)) (1 : Ω → ENNReal)]
            simp
          rw [hcard]
          exact ENNReal.sum_le_tsum _
      _ = ∑' n, P (s n) := by
          rw [lintegral_tsum fun n => (measurable_one.indicator (hm 0 (hms n))).aemeasurable]
          refine tsum_congr fun n => ?_
          rw [lintegral_indicator_one (hm 0 (hms n)), e]
  have h1 := measure_limsup_eq_one hsm hind hsum
  have h2 : ∀ᵐ ω ∂P, ω ∈ limsup s atTop := by
    rw [← prob_compl_eq_zero_iff (MeasurableSet.measurableSet_limsup hsm)] at h1
    exact h1
  filter_upwards [h2] with ω hω ⟨L, hL⟩
  rw [mem_limsup_iff_frequently_mem] at hω
  have hL1 := (tendsto_add_atTop_iff_nat 1).2 hL
  have hr : Tendsto (fun n : ℕ => (n : ℝ) / (n + 1)) atTop (𝓝 1) := tendsto_natCast_div_add_atTop 1
  have hz := hL1.sub (hr.mul hL)
  rw [one_mul, sub_self] at hz
  have hz' : Tendsto (fun n : ℕ => X n ω / (n + 1)) atTop (𝓝 0) := by
    refine hz.congr' ?_
    filter_upwards [eventually_gt_atTop 0] with n hn
    have : (n : ℝ) ≠ 0 := by exact_mod_cast hn.ne'
    have : (n : ℝ) + 1 ≠ 0 := by positivity
    rw [Finset.sum_range_succ]
    push_cast
    field_simp
    ring
  have hsmall : ∀ᶠ n : ℕ in atTop, |X n ω / (n + 1)| < 1 / 2 := by
    have := hz'.abs
    rw [abs_zero] at this
    exact this.eventually (gt_mem_nhds (by norm_num))
  obtain ⟨n, hn, h3, h4⟩ := (hω.and_eventually (hsmall.and (eventually_gt_atTop 0))).exists
  have h5 : (n : ℝ) < |X n ω| := hn
  have h6 : (1 : ℝ) ≤ n := by exact_mod_cast h4
  rw [abs_div, abs_of_pos (by positivity : (0 : ℝ) < n + 1), div_lt_iff₀ (by positivity)] at h3
  linarith

end Verif
