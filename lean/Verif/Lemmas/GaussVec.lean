import Verif.Spec.GaussVec
import Mathlib.MeasureTheory.Integral.Pi
import Mathlib.Probability.Moments.MGFAnalytic
import Mathlib.MeasureTheory.Measure.OpenPos

/-!
# Moments of independent standard normal draws
-/

namespace Verif

open MeasureTheory ProbabilityTheory

variable {n : ℕ}

instance : IsProbabilityMeasure (stdNormal n) := by unfold stdNormal; infer_instance

instance : (gaussianReal 0 1).IsOpenPosMeasure :=
  (gaussianReal_absolutelyContinuous' 0 (by norm_num : (1 : NNReal) ≠ 0)).isOpenPosMeasure

instance (n : ℕ) : (stdNormal n).IsOpenPosMeasure := by unfold stdNormal; infer_instance

theorem gauss_exp_integrable (a : ℝ) : Integrable (fun z => Real.exp (a * z)) (gaussianReal 0 1) :=
  integrable_exp_mul_gaussianReal a

theorem gauss_exp (a : ℝ) : ∫ z, Real.exp (a * z) ∂gaussianReal 0 1 = Real.exp (a ^ 2 / 2) := by
  have h := congrFun (mgf_fun_id_gaussianReal (μ := 0) (v := 1)) a
  unfold mgf at h
  rw [h]
  simp

theorem gauss_exp_mul_integrable (a : ℝ) :
    Integrable (fun z => z * Real.exp (a * z)) (gaussianReal 0 1) := by
  have := integrable_pow_mul_exp_of_mem_interior_integrableExpSet (X := fun z : ℝ => z)
    (μ := gaussianReal 0 1) (v := a)
    (by rw [integrableExpSet_fun_id_gaussianReal, interior_univ]; trivial) 1
  simpa using this

theorem gauss_exp_mul (a : ℝ) :
    ∫ z, z * Real.exp (a * z) ∂gaussianReal 0 1 = a * Real.exp (a ^ 2 / 2) := by
  have h := deriv_mgf (X := fun z : ℝ => z) (μ := gaussianReal 0 1) (t := a)
    (by rw [integrableExpSet_fun_id_gaussianReal, interior_univ]; trivial)
  rw [← h]
  have e : mgf (fun z : ℝ => z) (gaussianReal 0 1) = fun t => Real.exp (t ^ 2 / 2) := by
    rw [mgf_fun_id_gaussianReal]; funext t; simp
  rw [e]
  have hd : HasDerivAt (fun t : ℝ => Real.exp (t ^ 2 / 2)) (a * Real.exp (a ^ 2 / 2)) a := by
    have := ((hasDerivAt_pow 2 a).div_const 2).exp
    refine this.congr_deriv ?_
    simp; ring
  exact hd.deriv

theorem gauss_exp_sq_integrable (a : ℝ) :
    Integrable (fun z => z ^ 2 * Real.exp (a * z)) (gaussianReal 0 1) :=
  integrable_pow_mul_exp_of_mem_interior_integrableExpSet (X := fun z : ℝ => z)
    (μ := gaussianReal 0 1) (v := a)
    (by rw [integrableExpSet_fun_id_gaussianReal, interior_univ]; trivial) 2

theorem gauss_exp_sq (a : ℝ) :
    ∫ z, z ^ 2 * Real.exp (a * z) ∂gaussianReal 0 1 = (a ^ 2 + 1) * Real.exp (a ^ 2 / 2) := by
  have h := hasDerivAt_integral_pow_mul_exp_real (X := fun z : ℝ => z) (μ := gaussianReal 0 1)
    (t := a) (by rw [integrableExpSet_fun_id_gaussianReal, interior_univ]; trivial) 1
  simp only [pow_one, gauss_exp_mul] at h
  have hd : HasDerivAt (fun t : ℝ => t * Real.exp (t ^ 2 / 2))
      ((a ^ 2 + 1) * Real.exp (a ^ 2 / 2)) a := by
    have := (hasDerivAt_id a).mul ((hasDerivAt_pow 2 a).div_const 2).exp
    refine this.congr_deriv ?_
    simp; ring
  exact h.unique hd

theorem gauss_integrable : Integrable (fun z : ℝ => z) (gaussianReal 0 1) :=
  (memLp_id_gaussianReal 1).integrable (by norm_num)

theorem gauss_mean : ∫ z, z ∂gaussianReal 0 1 = 0 := by
  simpa using integral_id_gaussianReal (μ := 0) (v := 1)

theorem gauss_sq_integrable : Integrable (fun z : ℝ => z ^ 2) (gaussianReal 0 1) :=
  (memLp_id_gaussianReal 2).integrable_sq

theorem gauss_sq : ∫ z, z ^ 2 ∂gaussianReal 0 1 = 1 := by
  have h := variance_fun_id_gaussianReal (μ := 0) (v := 1)
  rw [variance_eq_integral (by fun_prop)] at h
  simp only [gauss_mean, sub_zero] at h
  simpa using h

/-- A product of functions of the single draws. -/
theorem std_prod (f : Fin n → ℝ → ℝ) (hf : ∀ i, Integrable (f i) (gaussianReal 0 1)) :
    Integrable (fun z => ∏ i, f i (z i)) (stdNormal n)
      ∧ ∫ z, ∏ i, f i (z i) ∂stdNormal n = ∏ i, ∫ x, f i x ∂gaussianReal 0 1 :=
  ⟨Integrable.fintype_prod hf, integral_fintype_prod_eq_prod f⟩

/-- Moment generating function of the draws. -/
theorem std_exp (a : Fin n → ℝ) :
    Integrable (fun z => Real.exp (∑ i, a i * z i)) (stdNormal n)
      ∧ ∫ z, Real.exp (∑ i, a i * z i) ∂stdNormal n = Real.exp (∑ i, a i ^ 2 / 2) := by
  have h := std_prod (fun i x => Real.exp (a i * x)) fun i => gauss_exp_integrable (a i)
  simp_rw [gauss_exp, ← Real.exp_sum] at h
  exact h

/-- The exponential of the draws times one of them. -/
theorem std_exp_mul (a : Fin n → ℝ) (j : Fin n) :
    Integrable (fun z => Real.exp (∑ i, a i * z i) * z j) (stdNormal n)
      ∧ ∫ z, Real.exp (∑ i, a i * z i) * z j ∂stdNormal n
        = a j * Real.exp (∑ i, a i ^ 2 / 2) := by
  have h := std_prod (fun i x => (if i = j then x else 1) * Real.exp (a i * x)) fun i => by
    split
    · exact gauss_exp_mul_integrable (a i)
    · simpa using gauss_exp_integrable (a i)
  have e : ∀ z : Fin n → ℝ, ∏ i, (if i = j then z i else 1) * Real.exp (a i * z i)
      = Real.exp (∑ i, a i * z i) * z j := fun z => by
    rw [Finset.prod_mul_distrib, Finset.prod_ite_eq' Finset.univ j, if_pos (Finset.mem_univ j),
      Real.exp_sum, mul_comm]
  have e2 : ∀ i, ∫ x, (if i = j then x else 1) * Real.exp (a i * x) ∂gaussianReal 0 1
      = (if i = j then a i else 1) * Real.exp (a i ^ 2 / 2) := fun i => by
    split
    · exact gauss_exp_mul (a i)
    · rw [one_mul, ← gauss_exp]; simp
  simp_rw [e, e2] at h
  rw [Finset.prod_mul_distrib, Finset.prod_ite_eq' Finset.univ j, if_pos (Finset.mem_univ j),
    ← Real.exp_sum] at h
  exact h

/-- The exponential of the draws times two of them. -/
theorem std_exp_mul2 (a : Fin n → ℝ) (i j : Fin n) :
    Integrable (fun z => Real.exp (∑ i, a i * z i) * (z i * z j)) (stdNormal n)
      ∧ ∫ z, Real.exp (∑ i, a i * z i) * (z i * z j) ∂stdNormal n
        = (a i * a j + if i = j then 1 else 0) * Real.exp (∑ i, a i ^ 2 / 2) := by
  by_cases hij : i = j
  · subst hij
    have h := std_prod (fun k x => (if k = i then x ^ 2 else 1) * Real.exp (a k * x)) fun k => by
      split
      · exact gauss_exp_sq_integrable (a k)
      · simpa using gauss_exp_integrable (a k)
    have e : ∀ z : Fin n → ℝ, ∏ k, (if k = i then z k ^ 2 else 1) * Real.exp (a k * z k)
        = Real.exp (∑ i, a i * z i) * (z i * z i) := fun z => by
      rw [Finset.prod_mul_distrib, Finset.prod_ite_eq' Finset.univ i, if_pos (Finset.mem_univ i),
        Real.exp_sum, mul_comm, sq]
    have e2 : ∀ k, ∫ x, (if k = i then x ^ 2 else 1) * Real.exp (a k * x) ∂gaussianReal 0 1
        = (if k = i then a k ^ 2 + 1 else 1) * Real.exp (a k ^ 2 / 2) := fun k => by
      split
      · exact gauss_exp_sq (a k)
      · rw [one_mul, ← gauss_exp]; simp
    simp_rw [e, e2] at h
    rw [Finset.prod_mul_distrib, Finset.prod_ite_eq' Finset.univ i, if_pos (Finset.mem_univ i),
      ← Real.exp_sum] at h
    rw [if_pos rfl, ← sq]
    exact h
  · have h := std_prod (fun k x => (if k = i then x else 1) * (if k = j then x else 1)
        * Real.exp (a k * x)) fun k => by
      by_cases h1 : k = i
      · subst h1
        simpa [hij] using gauss_exp_mul_integrable (a k)
      · by_cases h2 : k = j
        · simpa [h1, h2, Ne.symm hij] using gauss_exp_mul_integrable (a j)
        · simpa [h1, h2] using gauss_exp_integrable (a k)
    have e : ∀ z : Fin n → ℝ, ∏ k, (if k = i then z k else 1) * (if k = j then z k else 1)
        * Real.exp (a k * z k) = Real.exp (∑ i, a i * z i) * (z i * z j) := fun z => by
      rw [Finset.prod_mul_distrib, Finset.prod_mul_distrib, Finset.prod_ite_eq' Finset.univ i,
        Finset.prod_ite_eq' Finset.univ j, if_pos (Finset.mem_univ i), if_pos (Finset.mem_univ j),
        Real.exp_sum, mul_comm]
    have e2 : ∀ k, ∫ x, (if k = i then x else 1) * (if k = j then x else 1)
        * Real.exp (a k * x) ∂gaussianReal 0 1
        = (if k = i then a k else 1) * (if k = j then a k else 1) * Real.exp (a k ^ 2 / 2) := fun k => by
      by_cases h1 : k = i
      · subst h1
        simpa [hij] using gauss_exp_mul (a k)
      · by_cases h2 : k = j
        · simpa [h1, h2, Ne.symm hij] using gauss_exp_mul (a j)
        · simpa [h1, h2] using gauss_exp (a k)
    simp_rw [e, e2] at h
    rw [Finset.prod_mul_distrib, Finset.prod_mul_distrib, Finset.prod_ite_eq' Finset.univ i,
      Finset.prod_ite_eq' Finset.univ j, if_pos (Finset.mem_univ i), if_pos (Finset.mem_univ j),
      ← Real.exp_sum] at h
    rw [if_neg hij, add_zero]
    exact h

theorem std_coord (j : Fin n) :
    Integrable (fun z => z j) (stdNormal n) ∧ ∫ z, z j ∂stdNormal n = 0 := by
  have h := std_exp_mul (fun _ : Fin n => 0) j
  simpa using h

theorem std_cov (i j : Fin n) :
    Integrable (fun z => z i * z j) (stdNormal n)
      ∧ ∫ z, z i * z j ∂stdNormal n = if i = j then 1 else 0 := by
  by_cases hij : i = j
  · subst hij
    have h := std_prod (fun k x => if k = i then x ^ 2 else 1) fun k => by
      split
      · exact gauss_sq_integrable
      · simp
    have e2 : ∀ k, ∫ x, (if k = i then x ^ 2 else 1) ∂gaussianReal 0 1 = 1 := fun k => by
      split
      · exact gauss_sq
      · simp
    simp_rw [e2, Finset.prod_ite_eq' Finset.univ i, if_pos (Finset.mem_univ i)] at h
    simpa [sq] using h
  · rw [if_neg hij]
    have h := std_prod (fun k x => if k = i ∨ k = j then x else 1) fun k => by
      split
      · exact gauss_integrable
      · simp
    have e : ∀ z : Fin n → ℝ, ∏ k, (if k = i ∨ k = j then z k else 1) = z i * z j := fun z => by
      have : ∀ k, (if k = i ∨ k = j then z k else 1)
          = (if k = i then z k else 1) * (if k = j then z k else 1) := fun k => by
        by_cases h1 : k = i
        · subst h1; simp [hij]
        · simp [h1]
      simp_rw [this]
      rw [Finset.prod_mul_distrib, Finset.prod_ite_eq' Finset.univ i,
        Finset.prod_ite_eq' Finset.univ j, if_pos (Finset.mem_univ _), if_pos (Finset.mem_univ _)]
    simp_rw [e] at h
    refine ⟨h.1, h.2.trans (Finset.prod_eq_zero (Finset.mem_univ i) ?_)⟩
    simpa using gauss_mean

/-- Linear forms in the draws. -/
theorem std_linear (a : Fin n → ℝ) :
    Integrable (fun z => ∑ i, a i * z i) (stdNormal n) ∧ ∫ z, ∑ i, a i * z i ∂stdNormal n = 0 := by
  refine ⟨integrable_finsetSum _ fun i _ => (std_coord i).1.const_mul _, ?_⟩
  rw [integral_finsetSum _ fun i _ => (std_coord i).1.const_mul _]
  simp_rw [integral_const_mul, (std_coord _).2]
  simp

/-- The covariance of two linear forms in the draws. -/
theorem std_linear_cov (a b : Fin n → ℝ) :
    Integrable (fun z => (∑ i, a i * z i) * ∑ i, b i * z i) (stdNormal n)
      ∧ ∫ z, (∑ i, a i * z i) * ∑ i, b i * z i ∂stdNormal n = ∑ i, a i * b i := by
  have e : ∀ z : Fin n → ℝ, (∑ i, a i * z i) * ∑ i, b i * z i
      = ∑ i, ∑ j, (a i * b j) * (z i * z j) := fun z => by
    rw [Finset.sum_mul_sum]
    exact Finset.sum_congr rfl fun i _ => Finset.sum_congr rfl fun j _ => by ring
  have hi : ∀ i j, Integrable (fun z : Fin n → ℝ => (a i * b j) * (z i * z j)) (stdNormal n) :=
    fun i j => (std_cov i j).1.const_mul _
  simp_rw [e]
  refine ⟨integrable_finsetSum _ fun i _ => integrable_finsetSum _ fun j _ => hi i j, ?_⟩
  rw [integral_finsetSum _ fun i _ => integrable_finsetSum _ fun j _ => hi i j]
  simp_rw [integral_finsetSum _ fun j _ => hi _ j, integral_const_mul, (std_cov _ _).2]
  simp

/-- A linear form under the exponential tilt. -/
theorem std_exp_linear (a b : Fin n → ℝ) :
    Integrable (fun z => Real.exp (∑ i, a i * z i) * ∑ i, b i * z i) (stdNormal n)
      ∧ ∫ z, Real.exp (∑ i, a i * z i) * ∑ i, b i * z i ∂stdNormal n
        = (∑ i, a i * b i) * Real.exp (∑ i, a i ^ 2 / 2) := by
  have e : ∀ z : Fin n → ℝ, Real.exp (∑ i, a i * z i) * ∑ i, b i * z i
      = ∑ j, b j * (Real.exp (∑ i, a i * z i) * z j) := fun z => by
    rw [Finset.mul_sum]
    exact Finset.sum_congr rfl fun j _ => by ring
  simp_rw [e]
  refine ⟨integrable_finsetSum _ fun j _ => (std_exp_mul a j).1.const_mul _, ?_⟩
  rw [integral_finsetSum _ fun j _ => (std_exp_mul a j).1.const_mul _]
  simp_rw [integral_const_mul, (std_exp_mul a _).2]
  rw [Finset.sum_mul]
  exact Finset.sum_congr rfl fun j _ => by ring

/-- The square of a linear form under the exponential tilt. -/
theorem std_exp_linear_sq (a b : Fin n → ℝ) :
    Integrable (fun z => Real.exp (∑ i, a i * z i) * (∑ i, b i * z i) ^ 2) (stdNormal n)
      ∧ ∫ z, Real.exp (∑ i, a i * z i) * (∑ i, b i * z i) ^ 2 ∂stdNormal n
        = ((∑ i, a i * b i) ^ 2 + ∑ i, b i ^ 2) * Real.exp (∑ i, a i ^ 2 / 2) := by
  have e : ∀ z : Fin n → ℝ, Real.exp (∑ i, a i * z i) * (∑ i, b i * z i) ^ 2
      = ∑ i, ∑ j, (b i * b j) * (Real.exp (∑ i, a i * z i) * (z i * z j)) := fun z => by
    rw [sq, Finset.sum_mul_sum, Finset.mul_sum]
    refine Finset.sum_congr rfl fun i _ => ?_
    rw [Finset.mul_sum]
    exact Finset.sum_congr rfl fun j _ => by ring
  have hi : ∀ i j, Integrable (fun z : Fin n → ℝ =>
      (b i * b j) * (Real.exp (∑ i, a i * z i) * (z i * z j))) (stdNormal n) :=
    fun i j => (std_exp_mul2 a i j).1.const_mul _
  simp_rw [e]
  refine ⟨integrable_finsetSum _ fun i _ => integrable_finsetSum _ fun j _ => hi i j, ?_⟩
  rw [integral_finsetSum _ fun i _ => integrable_finsetSum _ fun j _ => hi i j]
  simp_rw [integral_finsetSum _ fun j _ => hi _ j, integral_const_mul, (std_exp_mul2 a _ _).2]
  simp_rw [← mul_assoc, ← Finset.sum_mul]
  congr 1
  rw [sq, Finset.sum_mul_sum, ← Finset.sum_add_distrib]
  refine Finset.sum_congr rfl fun i _ => ?_
  simp_rw [mul_add, Finset.sum_add_distrib]
  congr 1
  · exact Finset.sum_congr rfl fun j _ => by ring
  · simp [sq]

end Verif
