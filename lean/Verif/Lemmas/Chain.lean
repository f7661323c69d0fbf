import Verif.Spec.Chain
import Mathlib.MeasureTheory.Measure.Prod
import Mathlib.MeasureTheory.Integral.Prod
import Mathlib.Analysis.SpecialFunctions.Exp

/-!
# Expectations along chains driven by independent draws
-/

namespace Verif

open MeasureTheory

variable {S Z : Type}

theorem chain_congr (step : ℕ → S → Z → S) (s : S) {z z' : ℕ → Z} :
    ∀ n : ℕ, (∀ k < n, z k = z' k) → chain step n s z = chain step n s z'
  | 0, _ => rfl
  | n + 1, h => by
    rw [chain, chain, h n (Nat.lt_succ_self n), chain_congr step s n fun k hk => h k (by omega)]

/-- A property kept by every step holds along the chain. -/
theorem chain_inv (step : ℕ → S → Z → S) (P : S → Prop) (hP : ∀ k s z, P s → P (step k s z))
    {s : S} (hs : P s) (z : ℕ → Z) : ∀ n, P (chain step n s z)
  | 0 => hs
  | n + 1 => hP _ _ _ (chain_inv step P hP hs z n)

theorem chain_front {S Z : Type} (step : ℕ → S → Z → S) (s : S) (z : ℕ → Z) : ∀ n,
    chain step (n + 1) s z = chain (fun k => step (k + 1)) n (step 0 s (z 0)) fun k => z (k + 1)
  | 0 => rfl
  | n + 1 => by rw [chain, chain_front step s z n]; rfl

theorem firstDraws_snoc_lt [Zero Z] {n k : ℕ} (r : Fin n → Z) (x : Z) (hk : k < n) :
    firstDraws (Fin.snoc (α := fun _ => Z) r x) k = firstDraws r k := by
  rw [firstDraws, firstDraws, dif_pos (by omega), dif_pos hk]
  exact Fin.snoc_castSucc (α := fun _ => Z) x r ⟨k, hk⟩

theorem firstDraws_snoc_last [Zero Z] {n : ℕ} (r : Fin n → Z) (x : Z) :
    firstDraws (Fin.snoc (α := fun _ => Z) r x) n = x := by
  rw [firstDraws, dif_pos (by omega)]
  exact Fin.snoc_last (α := fun _ => Z) x r

theorem chain_snoc [Zero Z] (step : ℕ → S → Z → S) (s : S) {n : ℕ} (r : Fin n → Z) (x : Z) {k : ℕ}
    (hk : k ≤ n) : chain step k s (firstDraws (Fin.snoc (α := fun _ => Z) r x))
      = chain step k s (firstDraws r) :=
  chain_congr step s k fun j hj => firstDraws_snoc_lt r x (by omega)

theorem chain_snoc_succ [Zero Z] (step : ℕ → S → Z → S) (s : S) {n : ℕ} (r : Fin n → Z) (x : Z) :
    chain step (n + 1) s (firstDraws (Fin.snoc (α := fun _ => Z) r x))
      = step n (chain step n s (firstDraws r)) x := by
  rw [chain, firstDraws_snoc_last, chain_snoc step s r x le_rfl]

variable [MeasurableSpace Z]

instance (μ : Measure Z) [IsProbabilityMeasure μ] (n : ℕ) : IsProbabilityMeasure (iidLaw μ n) := by
  unfold iidLaw; infer_instance

/-- The last of `n + 1` draws is independent of the others. -/
theorem iid_snoc (μ : Measure Z) [IsProbabilityMeasure μ] (n : ℕ) :
    MeasurePreserving (fun q : Z × (Fin n → Z) => (Fin.snoc (α := fun _ => Z) q.2 q.1 : Fin (n + 1) → Z))
      (μ.prod (iidLaw μ n)) (iidLaw μ (n + 1)) := by
  have h := (measurePreserving_piFinSuccAbove (fun _ : Fin (n + 1) => μ) (Fin.last n)).symm
  have e : (fun q : Z × (Fin n → Z) => (Fin.snoc (α := fun _ => Z) q.2 q.1 : Fin (n + 1) → Z))
      = (MeasurableEquiv.piFinSuccAbove (fun _ : Fin (n + 1) => Z) (Fin.last n)).symm := by
    funext q
    simp [MeasurableEquiv.piFinSuccAbove, Fin.insertNthEquiv, Fin.insertNth_last']
  rw [e]
  exact h

theorem iid_lintegral (μ : Measure Z) [IsProbabilityMeasure μ] (n : ℕ)
    {F : (Fin (n + 1) → Z) → ENNReal} (hF : Measurable F) :
    ∫⁻ z, F z ∂iidLaw μ (n + 1)
      = ∫⁻ r, ∫⁻ x, F (Fin.snoc (α := fun _ => Z) r x) ∂μ ∂iidLaw μ n := by
  rw [← (iid_snoc μ n).lintegral_comp hF]
  exact lintegral_prod_symm _ (hF.comp (iid_snoc μ n).measurable).aemeasurable

theorem measurable_firstDraws [Zero Z] (n : ℕ) :
    Measurable (fun zs : Fin n → Z => firstDraws zs) := by
  refine measurable_pi_iff.2 fun k => ?_
  unfold firstDraws
  by_cases h : k < n
  · simp only [h, dite_true]; exact measurable_pi_apply _
  · simp only [h, dite_false]; exact measurable_const

theorem measurable_chain [MeasurableSpace S] (step : ℕ → S → Z → S)
    (hstep : ∀ k, Measurable fun q : S × Z => step k q.1 q.2) (s : S) :
    ∀ n, Measurable fun z : ℕ → Z => chain step n s z
  | 0 => measurable_const
  | n + 1 => (hstep n).comp
      ((measurable_chain step hstep s n).prodMk (measurable_pi_apply n))

/-- If `M` grows by the factor `exp (c k s)` in the mean over one step, then `M` discounted by the
factors met along the way has a constant mean. -/
theorem chain_martingale_of [Zero Z] (μ : Measure Z) [IsProbabilityMeasure μ] (step : ℕ → S → Z → S)
    (P : S → Prop) (hP : ∀ k s z, P s → P (step k s z))
    (M : S → ℝ) (hM0 : ∀ s, P s → 0 ≤ M s)
    (c : ℕ → S → ℝ)
    (hint : ∀ k s, P s → Integrable (fun z => M (step k s z)) μ)
    (hmean : ∀ k s, P s → ∫ z, M (step k s z) ∂μ = M s * Real.exp (c k s))
    {s : S} (hs : P s) (hM : ∀ n, Measurable fun z : ℕ → Z => M (chain step n s z))
    (hc : ∀ k, Measurable fun z : ℕ → Z => c k (chain step k s z)) (n : ℕ) :
    Integrable (fun zs => M (chain step n s (firstDraws zs))
        * Real.exp (-∑ k ∈ Finset.range n, c k (chain step k s (firstDraws zs)))) (iidLaw μ n)
    ∧ ∫ zs, M (chain step n s (firstDraws zs))
        * Real.exp (-∑ k ∈ Finset.range n, c k (chain step k s (firstDraws zs))) ∂iidLaw μ n = M s := by
  have hmeas : ∀ n, Measurable fun zs : Fin n → Z => M (chain step n s (firstDraws zs))
      * Real.exp (-∑ k ∈ Finset.range n, c k (chain step k s (firstDraws zs))) := fun n => by
    refine ((hM n).comp (measurable_firstDraws n)).mul (Real.measurable_exp.comp (Measurable.neg ?_))
    exact Finset.measurable_fun_sum _ fun k _ => (hc k).comp (measurable_firstDraws n)
  have hnn : ∀ n (zs : Fin n → Z), 0 ≤ M (chain step n s (firstDraws zs))
      * Real.exp (-∑ k ∈ Finset.range n, c k (chain step k s (firstDraws zs))) := fun n zs =>
    mul_nonneg (hM0 _ (chain_inv step P hP hs _ n)) (Real.exp_pos _).le
  have key : ∀ n, ∫⁻ zs, ENNReal.ofReal (M (chain step n s (firstDraws zs))
      * Real.exp (-∑ k ∈ Finset.range n, c k (chain step k s (firstDraws zs)))) ∂iidLaw μ n
        = ENNReal.ofReal (M s) := by
    intro n
    induction n with
    | zero => simp [chain]
    | succ n ih =>
      rw [iid_lintegral μ n (hmeas (n + 1)).ennreal_ofReal, ← ih]
      refine lintegral_congr fun r => ?_
      have hPn := chain_inv step P hP hs (firstDraws r) n
      set sn := chain step n s (firstDraws r) with hsn
      have e : ∀ x, M (chain step (n + 1) s (firstDraws (Fin.snoc (α := fun _ => Z) r x)))
          * Real.exp (-∑ k ∈ Finset.range (n + 1),
              c k (chain step k s (firstDraws (Fin.snoc (α := fun _ => Z) r x))))
          = M (step n sn x) * Real.exp (-∑ k ∈ Finset.range (n + 1),
              c k (chain step k s (firstDraws r))) := fun x => by
        rw [chain_snoc_succ]
        congr 3
        exact Finset.sum_congr rfl fun k hk => by
          rw [chain_snoc step s r x (by have := Finset.mem_range.1 hk; omega)]
      simp_rw [e]
      rw [← ofReal_integral_eq_lintegral_ofReal ((hint n sn hPn).mul_const _)
        (Filter.Eventually.of_forall fun x =>
          mul_nonneg (hM0 _ (hP _ _ _ hPn)) (Real.exp_pos _).le),
        integral_mul_const, hmean n sn hPn, Finset.sum_range_succ, ← hsn, mul_assoc, ← Real.exp_add]
      congr 3
      ring
  have hI : Integrable (fun zs => M (chain step n s (firstDraws zs))
      * Real.exp (-∑ k ∈ Finset.range n, c k (chain step k s (firstDraws zs)))) (iidLaw μ n) := by
    refine ⟨(hmeas n).aestronglyMeasurable, ?_⟩
    rw [hasFiniteIntegral_iff_ofReal (Filter.Eventually.of_forall (hnn n)), key n]
    exact ENNReal.ofReal_lt_top
  refine ⟨hI, ?_⟩
  rw [integral_eq_lintegral_of_nonneg_ae (Filter.Eventually.of_forall (hnn n))
    (hmeas n).aestronglyMeasurable, key n, ENNReal.toReal_ofReal (hM0 s hs)]

/-- The same when the step itself is measurable. -/
theorem chain_martingale [MeasurableSpace S] [Zero Z] (μ : Measure Z) [IsProbabilityMeasure μ] (step : ℕ → S → Z → S)
    (hstep : ∀ k, Measurable fun q : S × Z => step k q.1 q.2)
    (P : S → Prop) (hP : ∀ k s z, P s → P (step k s z))
    (M : S → ℝ) (hM : Measurable M) (hM0 : ∀ s, P s → 0 ≤ M s)
    (c : ℕ → S → ℝ) (hc : ∀ k, Measurable (c k))
    (hint : ∀ k s, P s → Integrable (fun z => M (step k s z)) μ)
    (hmean : ∀ k s, P s → ∫ z, M (step k s z) ∂μ = M s * Real.exp (c k s))
    {s : S} (hs : P s) (n : ℕ) :
    Integrable (fun zs => M (chain step n s (firstDraws zs))
        * Real.exp (-∑ k ∈ Finset.range n, c k (chain step k s (firstDraws zs)))) (iidLaw μ n)
    ∧ ∫ zs, M (chain step n s (firstDraws zs))
        * Real.exp (-∑ k ∈ Finset.range n, c k (chain step k s (firstDraws zs))) ∂iidLaw μ n = M s :=
  chain_martingale_of μ step P hP M hM0 c hint hmean hs
    (fun n => hM.comp (measurable_chain step hstep s n))
    (fun k => (hc k).comp (measurable_chain step hstep s k)) n

theorem iid_integral (μ : Measure Z) [IsProbabilityMeasure μ] (n : ℕ)
    {F : (Fin (n + 1) → Z) → ℝ} (hF : Integrable F (iidLaw μ (n + 1))) :
    ∫ z, F z ∂iidLaw μ (n + 1)
      = ∫ r, ∫ x, F (Fin.snoc (α := fun _ => Z) r x) ∂μ ∂iidLaw μ n := by
  have hmp := iid_snoc μ n
  have h1 : Integrable (fun q : Z × (Fin n → Z) => F (Fin.snoc (α := fun _ => Z) q.2 q.1))
      (μ.prod (iidLaw μ n)) := hmp.integrable_comp_of_integrable hF
  rw [← hmp.map_eq, integral_map hmp.measurable.aemeasurable (by rw [hmp.map_eq]; exact hF.1)]
  exact integral_prod_symm _ h1

/-- The mean of a coordinate whose step is affine with centred noise. -/
theorem chain_mean [Zero Z] (μ : Measure Z) [IsProbabilityMeasure μ] (step : ℕ → S → Z → S)
    (f : S → ℝ) (a b : ℕ → ℝ) (g : ℕ → Z → ℝ) (hg : ∀ k, Integrable (g k) μ)
    (hg0 : ∀ k, ∫ z, g k z ∂μ = 0)
    (hf : ∀ k s z, f (step k s z) = a k * f s + b k + g k z)
    (m : ℕ → ℝ) (s : S) (hm0 : m 0 = f s) (hm : ∀ k, m (k + 1) = a k * m k + b k) (n : ℕ) :
    Integrable (fun zs => f (chain step n s (firstDraws zs))) (iidLaw μ n)
      ∧ ∫ zs, f (chain step n s (firstDraws zs)) ∂iidLaw μ n = m n := by
  induction n with
  | zero => exact ⟨by simp only [chain]; exact integrable_const _, by simp [chain, hm0]⟩
  | succ n ih =>
    have hmp := iid_snoc μ n
    have e : (fun q : Z × (Fin n → Z) =>
        f (chain step (n + 1) s (firstDraws (Fin.snoc (α := fun _ => Z) q.2 q.1))))
        = fun q => a n * f (chain step n s (firstDraws q.2)) + b n + g n q.1 := by
      funext q; rw [chain_snoc_succ, hf]
    have i1 : Integrable (fun q : Z × (Fin n → Z) => f (chain step n s (firstDraws q.2)))
        (μ.prod (iidLaw μ n)) := ih.1.comp_snd μ
    have i2 : Integrable (fun q : Z × (Fin n → Z) => g n q.1) (μ.prod (iidLaw μ n)) :=
      (hg n).comp_fst _
    have i3 := ((i1.const_mul (a n)).add (integrable_const (b n))).add i2
    have hI : Integrable (fun zs => f (chain step (n + 1) s (firstDraws zs))) (iidLaw μ (n + 1)) := by
      have hsym : MeasurePreserving
          (MeasurableEquiv.piFinSuccAbove (fun _ : Fin (n + 1) => Z) (Fin.last n))
          (iidLaw μ (n + 1)) (μ.prod (iidLaw μ n)) :=
        measurePreserving_piFinSuccAbove (fun _ : Fin (n + 1) => μ) (Fin.last n)
      have h := hsym.integrable_comp_of_integrable (g := fun q => a n *
        f (chain step n s (firstDraws q.2)) + b n + g n q.1) i3
      refine h.congr (Filter.Eventually.of_forall fun zs => ?_)
      have e' := congrFun e (MeasurableEquiv.piFinSuccAbove (fun _ : Fin (n + 1) => Z) (Fin.last n) zs)
      rw [Function.comp_apply, ← e']
      have : (Fin.snoc (α := fun _ => Z)
          (MeasurableEquiv.piFinSuccAbove (fun _ : Fin (n + 1) => Z) (Fin.last n) zs).2
          (MeasurableEquiv.piFinSuccAbove (fun _ : Fin (n + 1) => Z) (Fin.last n) zs).1) = zs := by
        simp [MeasurableEquiv.piFinSuccAbove, Fin.insertNthEquiv, Fin.removeNth_last]
      rw [this]
    refine ⟨hI, ?_⟩
    rw [iid_integral μ n hI]
    simp_rw [chain_snoc_succ, hf]
    simp_rw [integral_add (integrable_const _) (hg n), hg0]
    rw [integral_congr_ae (g := fun r => a n * f (chain step n s (firstDraws r)) + b n)
      (Filter.Eventually.of_forall fun r => by simp)]
    rw [integral_add (ih.1.const_mul _) (integrable_const _), integral_const_mul, ih.2, hm]
    simp

/-- The mean of a coordinate `f` weighted by the discounted `M`: a change of measure. -/
theorem chain_tilted_mean [MeasurableSpace S] [Zero Z] (μ : Measure Z) [IsProbabilityMeasure μ] (step : ℕ → S → Z → S)
    (hstep : ∀ k, Measurable fun q : S × Z => step k q.1 q.2)
    (P : S → Prop) (hP : ∀ k s z, P s → P (step k s z))
    (M : S → ℝ) (hM : Measurable M) (hM0 : ∀ s, P s → 0 ≤ M s)
    (c : ℕ → S → ℝ) (hc : ∀ k, Measurable (c k))
    (hint : ∀ k s, P s → Integrable (fun z => M (step k s z)) μ)
    (hmean : ∀ k s, P s → ∫ z, M (step k s z) ∂μ = M s * Real.exp (c k s))
    (f : S → ℝ) (hf : Measurable f) (a b A B : ℕ → ℝ) (hA : ∀ k, 0 ≤ A k) (hB : ∀ k, 0 ≤ B k)
    (hfi : ∀ k s, P s → Integrable (fun z => M (step k s z) * f (step k s z) ^ 2) μ)
    (hf2 : ∀ k s, P s → ∫ z, M (step k s z) * f (step k s z) ^ 2 ∂μ
      ≤ M s * Real.exp (c k s) * (A k * f s ^ 2 + B k))
    (hf1 : ∀ k s, P s → ∫ z, M (step k s z) * f (step k s z) ∂μ
      = M s * Real.exp (c k s) * (a k * f s + b k))
    (m : ℕ → ℝ) {s : S} (hs : P s) (hm0 : m 0 = f s) (hm : ∀ k, m (k + 1) = a k * m k + b k)
    (n : ℕ) :
    Integrable (fun zs => M (chain step n s (firstDraws zs))
        * Real.exp (-∑ k ∈ Finset.range n, c k (chain step k s (firstDraws zs)))
        * f (chain step n s (firstDraws zs))) (iidLaw μ n)
    ∧ ∫ zs, M (chain step n s (firstDraws zs))
        * Real.exp (-∑ k ∈ Finset.range n, c k (chain step k s (firstDraws zs)))
        * f (chain step n s (firstDraws zs)) ∂iidLaw μ n = M s * m n := by
  have mart := chain_martingale μ step hstep P hP M hM hM0 c hc hint hmean hs
  have hch : ∀ n k, Measurable fun zs : Fin n → Z => chain step k s (firstDraws zs) := fun n k =>
    (measurable_chain step hstep s k).comp (measurable_firstDraws n)
  have hD : ∀ n, Measurable fun zs : Fin n → Z => M (chain step n s (firstDraws zs))
      * Real.exp (-∑ k ∈ Finset.range n, c k (chain step k s (firstDraws zs))) := fun n =>
    (hM.comp (hch n n)).mul (Real.measurable_exp.comp
      (Finset.measurable_fun_sum _ fun k _ => (hc k).comp (hch n k)).neg)
  have hF : ∀ n, Measurable fun zs : Fin n → Z => f (chain step n s (firstDraws zs)) := fun n =>
    hf.comp (hch n n)
  have hnn : ∀ n (zs : Fin n → Z), 0 ≤ M (chain step n s (firstDraws zs))
      * Real.exp (-∑ k ∈ Finset.range n, c k (chain step k s (firstDraws zs))) := fun n zs =>
    mul_nonneg (hM0 _ (chain_inv step P hP hs _ n)) (Real.exp_pos _).le
  -- the inner expectation over the last draw
  have inner : ∀ (G : S → ℝ) (n : ℕ) (r : Fin n → Z) (x : Z),
      M (chain step (n + 1) s (firstDraws (Fin.snoc (α := fun _ => Z) r x)))
          * Real.exp (-∑ k ∈ Finset.range (n + 1),
              c k (chain step k s (firstDraws (Fin.snoc (α := fun _ => Z) r x))))
          * G (chain step (n + 1) s (firstDraws (Fin.snoc (α := fun _ => Z) r x)))
        = M (step n (chain step n s (firstDraws r)) x) * G (step n (chain step n s (firstDraws r)) x)
          * Real.exp (-∑ k ∈ Finset.range (n + 1), c k (chain step k s (firstDraws r))) := by
    intro G n r x
    rw [chain_snoc_succ, Finset.sum_congr rfl fun k hk => by
      rw [chain_snoc step s r x (by have := Finset.mem_range.1 hk; omega)]]
    ring
  -- second moments stay finite
  have sq : ∀ n, Integrable (fun zs => M (chain step n s (firstDraws zs))
        * Real.exp (-∑ k ∈ Finset.range n, c k (chain step k s (firstDraws zs)))
        * f (chain step n s (firstDraws zs)) ^ 2) (iidLaw μ n) := by
    intro n
    induction n with
    | zero => exact Integrable.of_finite
    | succ n ih =>
      have hm2 : Measurable fun zs : Fin (n + 1) → Z => M (chain step (n + 1) s (firstDraws zs))
          * Real.exp (-∑ k ∈ Finset.range (n + 1), c k (chain step k s (firstDraws zs)))
          * f (chain step (n + 1) s (firstDraws zs)) ^ 2 :=
        (hD (n + 1)).mul ((hF (n + 1)).pow_const 2)
      refine ⟨hm2.aestronglyMeasurable, ?_⟩
      rw [hasFiniteIntegral_iff_ofReal (Filter.Eventually.of_forall fun zs =>
        mul_nonneg (hnn (n + 1) zs) (sq_nonneg _)),
        iid_lintegral μ n hm2.ennreal_ofReal]
      have hbound : Integrable (fun r => A n * (M (chain step n s (firstDraws r))
          * Real.exp (-∑ k ∈ Finset.range n, c k (chain step k s (firstDraws r)))
          * f (chain step n s (firstDraws r)) ^ 2) + B n * (M (chain step n s (firstDraws r))
          * Real.exp (-∑ k ∈ Finset.range n, c k (chain step k s (firstDraws r))))) (iidLaw μ n) :=
        (ih.const_mul _).add ((mart n).1.const_mul _)
      refine lt_of_le_of_lt (lintegral_mono fun r => ?_) (hasFiniteIntegral_iff_ofReal
        (Filter.Eventually.of_forall fun r => ?_) |>.1 hbound.2)
      · have hPn := chain_inv step P hP hs (firstDraws r) n
        simp_rw [inner (fun s => f s ^ 2)]
        rw [← ofReal_integral_eq_lintegral_ofReal ((hfi n _ hPn).mul_const _)
          (Filter.Eventually.of_forall fun x => mul_nonneg (mul_nonneg (hM0 _ (hP _ _ _ hPn))
            (sq_nonneg _)) (Real.exp_pos _).le), integral_mul_const]
        refine ENNReal.ofReal_le_ofReal ?_
        refine (mul_le_mul_of_nonneg_right (hf2 n _ hPn) (Real.exp_pos _).le).trans (le_of_eq ?_)
        rw [Finset.sum_range_succ, neg_add, Real.exp_add, Real.exp_neg (c n _)]
        field_simp
      · exact add_nonneg (mul_nonneg (hA n) (mul_nonneg (hnn n r) (sq_nonneg _)))
          (mul_nonneg (hB n) (hnn n r))
  have int1 : ∀ n, Integrable (fun zs => M (chain step n s (firstDraws zs))
        * Real.exp (-∑ k ∈ Finset.range n, c k (chain step k s (firstDraws zs)))
        * f (chain step n s (firstDraws zs))) (iidLaw μ n) := fun n => by
    refine ((mart n).1.add (sq n)).mono' ((hD n).mul (hF n)).aestronglyMeasurable
      (Filter.Eventually.of_forall fun zs => ?_)
    have h0 := hnn n zs
    simp only [Pi.add_apply]
    generalize M (chain step n s (firstDraws zs))
      * Real.exp (-∑ k ∈ Finset.range n, c k (chain step k s (firstDraws zs))) = w at h0
    change |w * f _| ≤ w + w * f _ ^ 2
    rw [abs_mul, abs_of_nonneg h0]
    have : |f (chain step n s (firstDraws zs))| ≤ 1 + f (chain step n s (firstDraws zs)) ^ 2 := by
      rw [abs_le]; constructor <;> nlinarith [sq_nonneg (f (chain step n s (firstDraws zs)) + 1),
        sq_nonneg (f (chain step n s (firstDraws zs)) - 1)]
    nlinarith
  refine ⟨int1 n, ?_⟩
  induction n with
  | zero => simp [chain, hm0]
  | succ n ih =>
    rw [iid_integral μ n (int1 (n + 1))]
    simp_rw [inner f, integral_mul_const]
    rw [integral_congr_ae (g := fun r => a n * (M (chain step n s (firstDraws r))
          * Real.exp (-∑ k ∈ Finset.range n, c k (chain step k s (firstDraws r)))
          * f (chain step n s (firstDraws r))) + b n * (M (chain step n s (firstDraws r))
          * Real.exp (-∑ k ∈ Finset.range n, c k (chain step k s (firstDraws r)))))
      (Filter.Eventually.of_forall fun r => ?_),
      integral_add ((int1 n).const_mul _) ((mart n).1.const_mul _), integral_const_mul,
      integral_const_mul, ih, (mart n).2, hm]
    · ring
    · change (∫ x, M (step n _ x) * f (step n _ x) ∂μ) * _ = _
      rw [hf1 n _ (chain_inv step P hP hs (firstDraws r) n), Finset.sum_range_succ, neg_add,
        Real.exp_add, Real.exp_neg (c n _)]
      field_simp

end Verif
