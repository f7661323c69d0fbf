import Mathlib.Analysis.Calculus.MeanValue
import Mathlib.Analysis.Calculus.Deriv.Pow
import Mathlib.Analysis.Calculus.Deriv.Comp
import Mathlib.MeasureTheory.Integral.IntervalIntegral.FundThmCalculus
import Mathlib.Analysis.Complex.RealDeriv

/-! # The composite Simpson rule: fourth-order error bound -/

namespace Verif

open MeasureTheory intervalIntegral

/-- Integrating a power bound. -/
theorem norm_le_of_deriv_pow {F F' : ℝ → ℂ} {h K : ℝ} {m : ℕ}
    (hF : ∀ t ∈ Set.Icc 0 h, HasDerivAt F (F' t) t) (h0 : F 0 = 0)
    (hb : ∀ t ∈ Set.Icc 0 h, ‖F' t‖ ≤ K * t ^ m) :
    ∀ t ∈ Set.Icc 0 h, ‖F t‖ ≤ K / (m + 1) * t ^ (m + 1) := by
  have hm : (m : ℝ) + 1 ≠ 0 := by positivity
  intro t ht
  refine image_norm_le_of_norm_deriv_right_le_deriv_boundary (f := F) (f' := F') (a := 0) (b := h)
    (B := fun t => K / (m + 1) * t ^ (m + 1)) (B' := fun t => K * t ^ m)
    (fun s hs => (hF s hs).continuousAt.continuousWithinAt)
    (fun s hs => (hF s ⟨hs.1, hs.2.le⟩).hasDerivWithinAt) ?_ ?_
    (fun s hs => hb s ⟨hs.1, hs.2.le⟩) ht
  · simp [h0]
  · intro s
    have := (hasDerivAt_pow (m + 1) s).const_mul (K / (m + 1))
    refine this.congr_deriv ?_
    simp only [Nat.add_sub_cancel]
    push_cast
    field_simp

/-- One panel `[c - h, c + h]`. -/
theorem simpson_panel {f f1 f2 f3 f4 : ℝ → ℂ} {c h M : ℝ} (hh : 0 ≤ h)
    (d1 : ∀ t ∈ Set.Icc (c - h) (c + h), HasDerivAt f (f1 t) t)
    (d2 : ∀ t ∈ Set.Icc (c - h) (c + h), HasDerivAt f1 (f2 t) t)
    (d3 : ∀ t ∈ Set.Icc (c - h) (c + h), HasDerivAt f2 (f3 t) t)
    (d4 : ∀ t ∈ Set.Icc (c - h) (c + h), HasDerivAt f3 (f4 t) t)
    (hM : ∀ t ∈ Set.Icc (c - h) (c + h), ‖f4 t‖ ≤ M)
    {P : ℝ → ℂ} (hP : ∀ t ∈ Set.Icc (c - h) (c + h), HasDerivAt P (f t) t) :
    ‖P (c + h) - P (c - h) - ((h / 3 : ℝ) : ℂ) * (f (c - h) + 4 * f c + f (c + h))‖
      ≤ M / 90 * h ^ 5 := by
  have memp : ∀ t ∈ Set.Icc 0 h, c + t ∈ Set.Icc (c - h) (c + h) := fun t ht =>
    ⟨by linarith [ht.1], by linarith [ht.2]⟩
  have memm : ∀ t ∈ Set.Icc 0 h, c - t ∈ Set.Icc (c - h) (c + h) := fun t ht =>
    ⟨by linarith [ht.2], by linarith [ht.1]⟩
  -- derivatives of compositions
  have cp : ∀ {g g' : ℝ → ℂ}, (∀ t ∈ Set.Icc (c - h) (c + h), HasDerivAt g (g' t) t) →
      ∀ t ∈ Set.Icc 0 h, HasDerivAt (fun t => g (c + t)) (g' (c + t)) t := by
    intro g g' hg t ht
    have := HasDerivAt.scomp t (hg _ (memp t ht)) ((hasDerivAt_id t).const_add c)
    rw [one_smul] at this
    exact this
  have cm : ∀ {g g' : ℝ → ℂ}, (∀ t ∈ Set.Icc (c - h) (c + h), HasDerivAt g (g' t) t) →
      ∀ t ∈ Set.Icc 0 h, HasDerivAt (fun t => g (c - t)) (-g' (c - t)) t := by
    intro g g' hg t ht
    have := HasDerivAt.scomp t (hg _ (memm t ht)) ((hasDerivAt_id t).const_sub c)
    rw [neg_one_smul] at this
    exact this
  have hof : ∀ t : ℝ, HasDerivAt (fun t : ℝ => (t : ℂ)) 1 t := fun t => Complex.ofRealCLM.hasDerivAt
  set E : ℝ → ℂ := fun t => P (c + t) - P (c - t)
    - (t : ℂ) / 3 * (f (c - t) + 4 * f c + f (c + t)) with hE
  set E1 : ℝ → ℂ := fun t => 2 / 3 * (f (c + t) + f (c - t)) - 4 / 3 * f c
    - (t : ℂ) / 3 * (f1 (c + t) - f1 (c - t)) with hE1
  set E2 : ℝ → ℂ := fun t => 1 / 3 * (f1 (c + t) - f1 (c - t))
    - (t : ℂ) / 3 * (f2 (c + t) + f2 (c - t)) with hE2
  set E3 : ℝ → ℂ := fun t => - ((t : ℂ) / 3 * (f3 (c + t) - f3 (c - t))) with hE3
  have dE : ∀ t ∈ Set.Icc 0 h, HasDerivAt E (E1 t) t := by
    intro t ht
    have a := (cp hP t ht).sub (cm hP t ht)
    have b := ((hof t).div_const 3).mul (((cm d1 t ht).add_const (4 * f c)).add (cp d1 t ht))
    refine (a.sub b).congr_deriv ?_
    simp only [hE1, Pi.add_apply]; ring
  have dE1 : ∀ t ∈ Set.Icc 0 h, HasDerivAt E1 (E2 t) t := by
    intro t ht
    have a := (((cp d1 t ht).add (cm d1 t ht)).const_mul (2 / 3 : ℂ)).sub_const (4 / 3 * f c)
    have b := ((hof t).div_const 3).mul ((cp d2 t ht).sub (cm d2 t ht))
    refine (a.sub b).congr_deriv ?_
    simp only [hE2, Pi.sub_apply]; ring
  have dE2 : ∀ t ∈ Set.Icc 0 h, HasDerivAt E2 (E3 t) t := by
    intro t ht
    have a := ((cp d2 t ht).sub (cm d2 t ht)).const_mul (1 / 3 : ℂ)
    have b := ((hof t).div_const 3).mul ((cp d3 t ht).add (cm d3 t ht))
    refine (a.sub b).congr_deriv ?_
    simp only [hE3, Pi.add_apply]; ring
  have b3 : ∀ t ∈ Set.Icc 0 h, ‖E3 t‖ ≤ 2 * M / 3 * t ^ 2 := by
    intro t ht
    have hconv : Convex ℝ (Set.Icc (c - h) (c + h)) := convex_Icc _ _
    have hlip := hconv.norm_image_sub_le_of_norm_hasDerivWithin_le (f := f3) (f' := f4) (C := M)
      (fun s hs => (d4 s hs).hasDerivWithinAt) hM (memm t ht) (memp t ht)
    have e : ‖(c + t) - (c - t)‖ = 2 * t := by
      rw [show (c + t) - (c - t) = 2 * t by ring, Real.norm_eq_abs, abs_of_nonneg (by linarith [ht.1])]
    rw [e] at hlip
    simp only [hE3, norm_neg, norm_mul, norm_div, Complex.norm_real, Real.norm_eq_abs,
      abs_of_nonneg ht.1]
    have n3 : ‖(3 : ℂ)‖ = 3 := by norm_num
    rw [n3]
    calc t / 3 * ‖f3 (c + t) - f3 (c - t)‖ ≤ t / 3 * (M * (2 * t)) :=
          mul_le_mul_of_nonneg_left hlip (by linarith [ht.1])
      _ = _ := by ring
  have b2 := norm_le_of_deriv_pow dE2 (by simp [hE2]) b3
  have b1 := norm_le_of_deriv_pow dE1 (by simp [hE1]; ring) b2
  have b0 := norm_le_of_deriv_pow dE (by simp [hE]) b1
  have := b0 h ⟨hh, le_refl _⟩
  simp only [hE] at this
  push_cast
  refine this.trans (le_of_eq ?_)
  push_cast
  ring

/-- The weights of the composite rule with `n` sub-intervals. -/
theorem simpson_composite {f f1 f2 f3 f4 : ℝ → ℂ} {T M : ℝ} (hT : 0 ≤ T)
    (d1 : ∀ t ∈ Set.Icc 0 T, HasDerivAt f (f1 t) t)
    (d2 : ∀ t ∈ Set.Icc 0 T, HasDerivAt f1 (f2 t) t)
    (d3 : ∀ t ∈ Set.Icc 0 T, HasDerivAt f2 (f3 t) t)
    (d4 : ∀ t ∈ Set.Icc 0 T, HasDerivAt f3 (f4 t) t)
    (hM : ∀ t ∈ Set.Icc 0 T, ‖f4 t‖ ≤ M) {m : ℕ} (hm : 0 < m) :
    ‖(∑ j ∈ Finset.range m, ((T / (2 * m) / 3 : ℝ) : ℂ) * (f ((2 * j : ℕ) * (T / (2 * m)))
        + 4 * f ((2 * j + 1 : ℕ) * (T / (2 * m))) + f ((2 * j + 2 : ℕ) * (T / (2 * m)))))
      - ∫ t in (0 : ℝ)..T, f t‖ ≤ M * T ^ 5 / (180 * (2 * m) ^ 4) := by
  have hm' : (0 : ℝ) < m := by exact_mod_cast hm
  set h := T / (2 * m) with hh
  have hh0 : 0 ≤ h := by rw [hh]; positivity
  have hTh : T = 2 * m * h := by rw [hh]; field_simp
  have hcont : ContinuousOn f (Set.Icc 0 T) := fun t ht => (d1 t ht).continuousAt.continuousWithinAt
  have hint : ∀ a b, a ∈ Set.Icc 0 T → b ∈ Set.Icc 0 T → IntervalIntegrable f volume a b := by
    intro a b ha hb
    exact (hcont.mono (Set.OrdConnected.uIcc_subset Set.ordConnected_Icc ha hb)).intervalIntegrable
  have hmem : ∀ k : ℕ, k ≤ 2 * m → (k : ℝ) * h ∈ Set.Icc 0 T := by
    intro k hk
    have : (k : ℝ) ≤ 2 * m := by exact_mod_cast hk
    refine ⟨by positivity, ?_⟩
    rw [hTh]
    exact mul_le_mul_of_nonneg_right this hh0
  have hsplit : (∫ t in (0 : ℝ)..T, f t) = ∑ j ∈ Finset.range m,
      ∫ t in ((2 * j : ℕ) * h)..((2 * (j + 1) : ℕ) * h), f t := by
    have := sum_integral_adjacent_intervals (f := f) (μ := volume) (n := m)
      (a := fun j : ℕ => ((2 * j : ℕ) : ℝ) * h) (fun j hj =>
        hint _ _ (hmem _ (by omega)) (hmem _ (by omega)))
    rw [this]
    congr 1
    · simp
    · rw [hTh]; push_cast; ring
  rw [hsplit, ← Finset.sum_sub_distrib]
  have hpanel : ∀ j ∈ Finset.range m,
      ‖((h / 3 : ℝ) : ℂ) * (f ((2 * j : ℕ) * h) + 4 * f ((2 * j + 1 : ℕ) * h)
          + f ((2 * j + 2 : ℕ) * h)) - ∫ t in ((2 * j : ℕ) * h)..((2 * (j + 1) : ℕ) * h), f t‖
        ≤ M / 90 * h ^ 5 := by
    intro j hj
    have hj := Finset.mem_range.1 hj
    set c := ((2 * j + 1 : ℕ) : ℝ) * h with hc
    have e0 : ((2 * j : ℕ) : ℝ) * h = c - h := by rw [hc]; push_cast; ring
    have e2 : ((2 * j + 2 : ℕ) : ℝ) * h = c + h := by rw [hc]; push_cast; ring
    have e2' : ((2 * (j + 1) : ℕ) : ℝ) * h = c + h := by rw [hc]; push_cast; ring
    have hsub : Set.Icc (c - h) (c + h) ⊆ Set.Icc 0 T := by
      have a := hmem (2 * j) (by omega)
      have b := hmem (2 * j + 2) (by omega)
      rw [e0] at a; rw [e2] at b
      exact Set.Icc_subset_Icc a.1 b.2
    rw [e0, e2, e2']
    -- antiderivative through an auxiliary extension of `f` by its end values
    set g : ℝ → ℂ := Set.IccExtend hT (Set.restrict (Set.Icc 0 T) f) with hg
    have hgc : Continuous g := (continuousOn_iff_continuous_restrict.1 hcont).Icc_extend'
    have hgf : ∀ t ∈ Set.Icc 0 T, g t = f t := by
      intro t ht
      rw [hg, Set.IccExtend_of_mem hT _ ht]; rfl
    have hQ : ∀ t ∈ Set.Icc (c - h) (c + h),
        HasDerivAt (fun t => ∫ s in (0 : ℝ)..t, g s) (f t) t := by
      intro t ht
      rw [← hgf t (hsub ht)]
      exact integral_hasDerivAt_right (hgc.intervalIntegrable _ _)
        hgc.aestronglyMeasurable.stronglyMeasurableAtFilter hgc.continuousAt
    have := simpson_panel hh0 (fun t ht => d1 t (hsub ht)) (fun t ht => d2 t (hsub ht))
      (fun t ht => d3 t (hsub ht)) (fun t ht => d4 t (hsub ht)) (fun t ht => hM t (hsub ht)) hQ
    rw [norm_sub_rev]
    refine le_trans (le_of_eq ?_) this
    congr 2
    rw [integral_interval_sub_left (hgc.intervalIntegrable _ _) (hgc.intervalIntegrable _ _)]
    apply integral_congr
    intro t ht
    rw [Set.uIcc_of_le (by linarith)] at ht
    exact (hgf t (hsub ht)).symm
  refine (norm_sum_le_of_le _ hpanel).trans (le_of_eq ?_)
  rw [Finset.sum_const, Finset.card_range, nsmul_eq_mul, hh]
  field_simp
  ring

end Verif
