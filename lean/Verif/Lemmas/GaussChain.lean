import Verif.Lemmas.Chain
import Verif.Lemmas.GaussVec
import Mathlib.MeasureTheory.Measure.CharacteristicFunction.Basic

/-!
# Normal laws along a chain
-/

namespace Verif

open MeasureTheory ProbabilityTheory

/-- A linear combination of independent standard normal draws is normal. -/
theorem linear_law {n : ℕ} (a : Fin n → ℝ) :
    (stdNormal n).map (fun z => ∑ i, a i * z i) = gaussianReal 0 (∑ i, a i ^ 2).toNNReal := by
  have hm : Measurable fun z : Fin n → ℝ => ∑ i, a i * z i := by fun_prop
  have : IsProbabilityMeasure ((stdNormal n).map fun z => ∑ i, a i * z i) := by
    have : IsProbabilityMeasure (stdNormal n) := by unfold stdNormal; infer_instance
    exact Measure.isProbabilityMeasure_map hm.aemeasurable
  refine Measure.ext_of_charFun ?_
  funext t
  have hc : ∀ (c : ℝ), ∫ x, Complex.exp (c * x * Complex.I) ∂gaussianReal 0 1
      = Complex.exp (-(c ^ 2 / 2 : ℝ)) := by
    intro c
    have := charFun_gaussianReal (μ := 0) (v := 1) c
    rw [charFun_apply_real] at this
    rw [this]
    congr 1
    push_cast
    ring
  rw [charFun_gaussianReal, charFun_apply_real, integral_map hm.aemeasurable (by fun_prop)]
  have e : ∀ z : Fin n → ℝ, Complex.exp (t * ((∑ i, a i * z i : ℝ) : ℂ) * Complex.I)
      = ∏ i, Complex.exp (((t * a i : ℝ) : ℂ) * z i * Complex.I) := by
    intro z
    rw [← Complex.exp_sum]
    congr 1
    push_cast
    rw [Finset.mul_sum, Finset.sum_mul]
    exact Finset.sum_congr rfl fun i _ => by ring
  simp_rw [e]
  unfold stdNormal
  rw [integral_fintype_prod_eq_prod (fun i (x : ℝ) => Complex.exp (((t * a i : ℝ) : ℂ) * x * Complex.I))]
  simp_rw [hc]
  rw [← Complex.exp_sum]
  congr 1
  rw [Real.coe_toNNReal _ (Finset.sum_nonneg fun i _ => sq_nonneg _)]
  push_cast
  rw [Finset.sum_neg_distrib, ← Finset.sum_div, Finset.sum_mul]
  simp only [mul_zero, zero_mul, zero_sub]
  congr 2
  exact Finset.sum_congr rfl fun i _ => by ring

variable {S Z : Type} [MeasurableSpace Z]

/-- A quantity that is updated linearly with normal noise, as long as the state after `k` steps meets `I k`, is normal
after any number of steps. -/
theorem chain_gauss [Zero Z] (μ : Measure Z) [IsProbabilityMeasure μ] (step : ℕ → S → Z → S)
    (I : ℕ → S → Prop) (hI : ∀ k s z, I k s → I (k + 1) (step k s z)) (f : S → ℝ) (a b : ℕ → ℝ) (w : ℕ → NNReal)
    (g : ℕ → Z → ℝ) (hg : ∀ k, Measurable (g k)) (hw : ∀ k, μ.map (g k) = gaussianReal 0 (w k))
    (hf : ∀ k s z, I k s → f (step k s z) = a k * f s + b k + g k z) (m : ℕ → ℝ) (v : ℕ → NNReal)
    {s : S} (hs : I 0 s) (hm0 : m 0 = f s) (hv0 : v 0 = 0) (hm : ∀ k, m (k + 1) = a k * m k + b k)
    (hv : ∀ k, (v (k + 1) : ℝ) = a k ^ 2 * v k + w k) (n : ℕ) :
    Measurable (fun zs : Fin n → Z => f (chain step n s (firstDraws zs)))
    ∧ (iidLaw μ n).map (fun zs => f (chain step n s (firstDraws zs))) = gaussianReal (m n) (v n) := by
  have hp : ∀ n, IsProbabilityMeasure (iidLaw μ n) := fun n => by unfold iidLaw; infer_instance
  have hinv : ∀ (z : ℕ → Z) n, I n (chain step n s z) := by
    intro z n
    induction n with
    | zero => exact hs
    | succ n ih => exact hI _ _ _ ih
  have hmz : ∀ n, Measurable fun z : ℕ → Z => f (chain step n s z) := by
    intro n
    induction n with
    | zero => exact (measurable_const : Measurable fun _ : ℕ → Z => f s)
    | succ n ih =>
      have : (fun z : ℕ → Z => f (chain step (n + 1) s z))
          = fun z => a n * f (chain step n s z) + b n + g n (z n) := by
        funext z
        rw [chain, hf n _ _ (hinv z n)]
      rw [this]
      exact ((ih.const_mul _).add_const _).add ((hg n).comp (measurable_pi_apply n))
  have hmf : ∀ n, Measurable (fun zs : Fin n → Z => f (chain step n s (firstDraws zs))) := fun n =>
    (hmz n).comp (measurable_firstDraws n)
  refine ⟨hmf n, ?_⟩
  induction n with
  | zero =>
    rw [hv0, gaussianReal_zero_var, hm0]
    change Measure.map (fun _ => f s) _ = _
    rw [Measure.map_const, measure_univ, one_smul]
  | succ n ih =>
    have e : (fun q : Z × (Fin n → Z) =>
        f (chain step (n + 1) s (firstDraws (Fin.snoc (α := fun _ => Z) q.2 q.1))))
        = (fun q : ℝ × ℝ => q.1 + q.2) ∘ Prod.map (g n)
          (fun r : Fin n → Z => a n * f (chain step n s (firstDraws r)) + b n) := by
      funext q
      rw [chain_snoc_succ, hf n _ _ (hinv _ n)]
      simp only [Function.comp, Prod.map]
      ring
    have h2 : (iidLaw μ n).map (fun r => a n * f (chain step n s (firstDraws r)) + b n)
        = gaussianReal (m (n + 1)) (.mk (a n ^ 2) (sq_nonneg _) * v n) := by
      have h3 := gaussianReal_map_const_mul (μ := m n) (v := v n) (a n)
      have h4 := gaussianReal_map_add_const (μ := a n * m n) (v := .mk (a n ^ 2) (sq_nonneg _) * v n) (b n)
      rw [hm, ← h4, ← h3, ← ih, Measure.map_map (by fun_prop) (hmf n),
        Measure.map_map (by fun_prop) ((measurable_const_mul _).comp (hmf n))]
      rfl
    have hmr : Measurable fun r : Fin n → Z => a n * f (chain step n s (firstDraws r)) + b n :=
      ((hmf n).const_mul _).add_const _
    rw [← (iid_snoc μ n).map_eq, Measure.map_map (hmf (n + 1)) (iid_snoc μ n).measurable]
    change Measure.map (fun q : Z × (Fin n → Z) =>
        f (chain step (n + 1) s (firstDraws (Fin.snoc (α := fun _ => Z) q.2 q.1)))) _ = _
    rw [e, ← Measure.map_map measurable_add ((hg n).prodMap hmr), ← Measure.map_prod_map _ _ (hg n) hmr,
      hw, h2]
    change (gaussianReal 0 (w n)) ∗ (gaussianReal (m (n + 1)) _) = _
    rw [gaussianReal_conv_gaussianReal, zero_add]
    congr 1
    apply NNReal.eq
    rw [hv, NNReal.coe_add, NNReal.coe_mul]
    exact add_comm _ _

end Verif
