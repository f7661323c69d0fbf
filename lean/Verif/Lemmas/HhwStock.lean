import Verif.Spec.HhwStock
import Verif.Lemmas.HhwSim
import Verif.Props.HhwSim

/-!
# Lemmas on the foreign-stock simulator
-/

namespace Verif

open MeasureTheory

instance : MeasurableSpace HhwStockState :=
  MeasurableSpace.comap (fun s => (s.fx, s.stock, s.stockVariance)) inferInstance

theorem measurable_stock_tuple :
    Measurable fun s : HhwStockState => (s.fx, s.stock, s.stockVariance) := comap_measurable _

theorem measurable_stockState {α : Type} [MeasurableSpace α] {a : α → HhwState} {b c : α → ℝ}
    (ha : Measurable a) (hb : Measurable b) (hc : Measurable c) :
    Measurable fun x => (⟨a x, b x, c x⟩ : HhwStockState) :=
  measurable_comap_iff.2 (ha.prodMk (hb.prodMk hc))

theorem measurable_stock_fx : Measurable HhwStockState.fx :=
  measurable_fst.comp measurable_stock_tuple
theorem measurable_stock : Measurable HhwStockState.stock :=
  (measurable_fst.comp measurable_snd).comp measurable_stock_tuple
theorem measurable_stockVariance : Measurable HhwStockState.stockVariance :=
  (measurable_snd.comp measurable_snd).comp measurable_stock_tuple

/-- The coefficients of the six increments in the six draws. -/
noncomputable def stockRow (l : ℕ → ℕ → ℝ) (x w : ℝ) (i k : Fin 6) : ℝ :=
  if i = 4 then (if k = 0 then x else if k = 4 then √(1 - x * x) else 0)
  else if i = 5 then
    (if k = 0 then w * x else if k = 4 then w * √(1 - x * x) else if k = 5 then √(1 - w * w) else 0)
  else if k ≤ i then l i k else 0

theorem factor_first {m l : ℕ → ℕ → ℝ} (h : CholeskyFactor 4 m l) (h00 : m 0 0 = 1) :
    l 0 0 = 1 ∧ ∀ i < 4, l i 0 = m i 0 := by
  have p0 := h.product 0 (by norm_num) 0 (by norm_num)
  have d := h.diagonal 0 (by norm_num)
  have z1 := h.lower 0 (by norm_num) 1 (by norm_num) (by norm_num)
  have z2 := h.lower 0 (by norm_num) 2 (by norm_num) (by norm_num)
  have z3 := h.lower 0 (by norm_num) 3 (by norm_num) (by norm_num)
  simp only [Finset.sum_range_succ, Finset.sum_range_zero, z1, z2, z3, h00] at p0
  have h1 : l 0 0 = 1 := by nlinarith
  refine ⟨h1, fun i hi => ?_⟩
  have p := h.product i hi 0 (by norm_num)
  simp only [Finset.sum_range_succ, Finset.sum_range_zero, z1, z2, z3, h1] at p
  linarith

theorem stockRow_product {m l : ℕ → ℕ → ℝ} (h : CholeskyFactor 4 m l) (h00 : m 0 0 = 1) {x w : ℝ}
    (hx : |x| ≤ 1) (hw : |w| ≤ 1) (i j : Fin 6) :
    ∑ k, stockRow l x w i k * stockRow l x w j k = stockCorr m x w i j := by
  obtain ⟨h1, hc⟩ := factor_first h h00
  have hx' : √(1 - x * x) * √(1 - x * x) = 1 - x * x :=
    Real.mul_self_sqrt (by nlinarith [abs_le.1 hx, sq_abs x, abs_nonneg x])
  have hw' : √(1 - w * w) * √(1 - w * w) = 1 - w * w :=
    Real.mul_self_sqrt (by nlinarith [abs_le.1 hw, sq_abs w, abs_nonneg w])
  have hs : ∀ i < 4, m 0 i = m i 0 := fun i hi => by
    rw [← h.product 0 (by norm_num) i hi, ← h.product i hi 0 (by norm_num)]
    exact Finset.sum_congr rfl fun k _ => mul_comm _ _
  have z01 := h.lower 0 (by norm_num) 1 (by norm_num) (by norm_num)
  have z02 := h.lower 0 (by norm_num) 2 (by norm_num) (by norm_num)
  have z03 := h.lower 0 (by norm_num) 3 (by norm_num) (by norm_num)
  have z12 := h.lower 1 (by norm_num) 2 (by norm_num) (by norm_num)
  have z13 := h.lower 1 (by norm_num) 3 (by norm_num) (by norm_num)
  have z23 := h.lower 2 (by norm_num) 3 (by norm_num) (by norm_num)
  have hm : ∀ a < 4, ∀ b < 4, l a 0 * l b 0 + l a 1 * l b 1 + l a 2 * l b 2 + l a 3 * l b 3 = m a b := by
    intro a ha b hb
    rw [← h.product a ha b hb]
    simp [Finset.sum_range_succ]
  rw [Fin.sum_univ_six]
  fin_cases i <;> fin_cases j <;> simp [stockRow, stockCorr] <;>
    first
      | linear_combination hx'
      | linear_combination hw' + w ^ 2 * hx'
      | linear_combination w * hx'
      | (rw [← hm _ (by norm_num) _ (by norm_num)]; simp only [z01, z02, z03, z12, z13, z23]; ring1)
      | (rw [h1, h00]; ring1)
      | exact hm _ (by norm_num) _ (by norm_num)
      | linear_combination hm 1 (by norm_num) 1 (by norm_num) - l 1 2 * z12 - l 1 3 * z13
      | (rw [hc _ (by norm_num), hs _ (by norm_num)]; ring1)
      | exact Or.inl ((hc _ (by norm_num)).trans (hs _ (by norm_num)).symm)

/-- The six increments of a step. -/
noncomputable def HhwStockSim.increment (q : HhwStockSim) (dt : ℝ) (z : Fin 6 → ℝ) (i : Fin 6) : ℝ :=
  if h : i.1 < 4 then q.dwBase dt z ⟨i.1, h⟩ else if i = 4 then q.zSf z * √dt else q.zOmega z * √dt

theorem increment_linear (q : HhwStockSim) (dt : ℝ) (z : Fin 6 → ℝ) (i : Fin 6) :
    q.increment dt z i
      = ∑ k, (stockRow q.chol q.equity.rhoXiSf q.equity.rhoSfOmega i k * √dt) * z k := by
  have f : ∀ (i : Fin 4) (g : Fin 4 → ℝ), ∑ j ∈ Finset.univ.filter (fun j : Fin 4 => j ≤ i), g j
      = ∑ j, if j ≤ i then g j else 0 := fun i g => Finset.sum_filter _ _
  rw [Fin.sum_univ_six]
  have hb : ∀ i : Fin 4, q.dwBase dt z i
      = (∑ j, if j ≤ i then q.chol i j * z (j.castLE (by norm_num)) else 0) * √dt := fun i => by
    rw [HhwStockSim.dwBase, f]
  fin_cases i <;>
    simp [HhwStockSim.increment, hb, HhwStockSim.zSf, HhwStockSim.zOmega,
      stockRow, Fin.sum_univ_four] <;> ring!

theorem stock_new_factor {p : HhwParams} {e : ForeignStock} {q : HhwStockSim}
    (h : HhwStockSim.new p e = .ok q) :
    q.params = p ∧ q.equity = e ∧ CholeskyFactor 4 p.correlations.matrix q.chol
      ∧ |e.rhoXiSf| ≤ 1 ∧ |e.rhoSfOmega| ≤ 1 ∧ p.correlations.cholesky = some q.chol := by
  unfold HhwStockSim.new at h
  split at h
  · cases h
  · rename_i l hl
    split_ifs at h with h1 h2
    injection h with h
    subst h
    exact ⟨rfl, rfl, ((C52_correlation4 p.correlations).2 l hl).1, not_lt.1 h1, not_lt.1 h2, hl⟩

section Moments

variable {p : HhwParams} {e : ForeignStock} {q : HhwStockSim} (h : HhwStockSim.new p e = .ok q)
  {dt : ℝ} (hdt : 0 ≤ dt)
include h

theorem increment_form (dt : ℝ) (z : Fin 6 → ℝ) (i : Fin 6) :
    q.increment dt z i = ∑ k, (stockRow q.chol e.rhoXiSf e.rhoSfOmega i k * √dt) * z k := by
  rw [increment_linear, (stock_new_factor h).2.1]

include hdt

theorem increment_product (i j : Fin 6) :
    ∑ k, (stockRow q.chol e.rhoXiSf e.rhoSfOmega i k * √dt)
        * (stockRow q.chol e.rhoXiSf e.rhoSfOmega j k * √dt)
      = stockCorr p.correlations.matrix e.rhoXiSf e.rhoSfOmega i j * dt := by
  obtain ⟨-, -, hq, hx, hw, -⟩ := stock_new_factor h
  rw [← stockRow_product hq rfl hx hw i j, Finset.sum_mul]
  refine Finset.sum_congr rfl fun k _ => ?_
  linear_combination stockRow q.chol e.rhoXiSf e.rhoSfOmega i k
    * stockRow q.chol e.rhoXiSf e.rhoSfOmega j k * Real.mul_self_sqrt hdt

theorem increment_cov (i j : Fin 6) :
    Integrable (fun z => q.increment dt z i * q.increment dt z j) (stdNormal 6)
      ∧ ∫ z, q.increment dt z i * q.increment dt z j ∂stdNormal 6
        = stockCorr p.correlations.matrix e.rhoXiSf e.rhoSfOmega i j * dt := by
  have := std_linear_cov (fun k => stockRow q.chol e.rhoXiSf e.rhoSfOmega i k * √dt)
    fun k => stockRow q.chol e.rhoXiSf e.rhoSfOmega j k * √dt
  simp_rw [increment_product h hdt, ← increment_form h] at this
  exact this

omit hdt in
theorem increment_mean (i : Fin 6) :
    Integrable (fun z => q.increment dt z i) (stdNormal 6)
      ∧ ∫ z, q.increment dt z i ∂stdNormal 6 = 0 := by
  have := std_linear (fun k => stockRow q.chol e.rhoXiSf e.rhoSfOmega i k * √dt)
  simp_rw [← increment_form h] at this
  exact this

theorem increment_exp (i j : Fin 6) (x y : ℝ) :
    Integrable (fun z => Real.exp (x * q.increment dt z i + y * q.increment dt z j)) (stdNormal 6)
      ∧ ∫ z, Real.exp (x * q.increment dt z i + y * q.increment dt z j) ∂stdNormal 6
        = Real.exp ((x ^ 2 * stockCorr p.correlations.matrix e.rhoXiSf e.rhoSfOmega i i
          + y ^ 2 * stockCorr p.correlations.matrix e.rhoXiSf e.rhoSfOmega j j
          + 2 * x * y * stockCorr p.correlations.matrix e.rhoXiSf e.rhoSfOmega i j) * dt / 2) := by
  have := std_exp (fun k => x * (stockRow q.chol e.rhoXiSf e.rhoSfOmega i k * √dt)
    + y * (stockRow q.chol e.rhoXiSf e.rhoSfOmega j k * √dt))
  have e1 : ∀ z : Fin 6 → ℝ, ∑ k, (x * (stockRow q.chol e.rhoXiSf e.rhoSfOmega i k * √dt)
      + y * (stockRow q.chol e.rhoXiSf e.rhoSfOmega j k * √dt)) * z k
      = x * q.increment dt z i + y * q.increment dt z j := fun z => by
    rw [increment_form h, increment_form h, Finset.mul_sum, Finset.mul_sum, ← Finset.sum_add_distrib]
    exact Finset.sum_congr rfl fun k _ => by ring
  have e2 : ∑ k, (x * (stockRow q.chol e.rhoXiSf e.rhoSfOmega i k * √dt)
      + y * (stockRow q.chol e.rhoXiSf e.rhoSfOmega j k * √dt)) ^ 2 / 2
      = (x ^ 2 * stockCorr p.correlations.matrix e.rhoXiSf e.rhoSfOmega i i
          + y ^ 2 * stockCorr p.correlations.matrix e.rhoXiSf e.rhoSfOmega j j
          + 2 * x * y * stockCorr p.correlations.matrix e.rhoXiSf e.rhoSfOmega i j) * dt / 2 := by
    have := increment_product h hdt i i
    have := increment_product h hdt j j
    have := increment_product h hdt i j
    rw [add_mul, add_mul, mul_assoc, mul_assoc, mul_assoc (2 * x * y), ← increment_product h hdt i i,
      ← increment_product h hdt j j, ← increment_product h hdt i j, Finset.mul_sum, Finset.mul_sum,
      Finset.mul_sum, ← Finset.sum_add_distrib, ← Finset.sum_add_distrib, Finset.sum_div]
    exact Finset.sum_congr rfl fun k _ => by ring
  simp_rw [e1, e2] at this
  exact this

/-- An increment, and its square, under the tilt by the FX increment. -/
theorem increment_tilt (j : Fin 6) (x : ℝ) :
    (Integrable (fun z => Real.exp (x * q.increment dt z 0) * q.increment dt z j) (stdNormal 6)
      ∧ ∫ z, Real.exp (x * q.increment dt z 0) * q.increment dt z j ∂stdNormal 6
        = x * (stockCorr p.correlations.matrix e.rhoXiSf e.rhoSfOmega (0 : Fin 6) j * dt)
          * Real.exp (x ^ 2 * dt / 2))
    ∧ Integrable (fun z => Real.exp (x * q.increment dt z 0) * q.increment dt z j ^ 2) (stdNormal 6)
      ∧ ∫ z, Real.exp (x * q.increment dt z 0) * q.increment dt z j ^ 2 ∂stdNormal 6
        = ((x * (stockCorr p.correlations.matrix e.rhoXiSf e.rhoSfOmega (0 : Fin 6) j * dt)) ^ 2
          + stockCorr p.correlations.matrix e.rhoXiSf e.rhoSfOmega j j * dt)
          * Real.exp (x ^ 2 * dt / 2) := by
  have t1 := std_exp_linear (fun k => x * (stockRow q.chol e.rhoXiSf e.rhoSfOmega 0 k * √dt))
    fun k => stockRow q.chol e.rhoXiSf e.rhoSfOmega j k * √dt
  have t2 := std_exp_linear_sq (fun k => x * (stockRow q.chol e.rhoXiSf e.rhoSfOmega 0 k * √dt))
    fun k => stockRow q.chol e.rhoXiSf e.rhoSfOmega j k * √dt
  have e1 : ∀ z : Fin 6 → ℝ, ∑ k, x * (stockRow q.chol e.rhoXiSf e.rhoSfOmega 0 k * √dt) * z k
      = x * q.increment dt z 0 := fun z => by
    rw [increment_form h, Finset.mul_sum]
    exact Finset.sum_congr rfl fun k _ => by ring
  have e2 : ∑ k, (x * (stockRow q.chol e.rhoXiSf e.rhoSfOmega 0 k * √dt)) ^ 2 / 2
      = x ^ 2 * dt / 2 := by
    have t := increment_product h hdt 0 0
    rw [show stockCorr p.correlations.matrix e.rhoXiSf e.rhoSfOmega ((0 : Fin 6) : ℕ)
      ((0 : Fin 6) : ℕ) = 1 from rfl, one_mul] at t
    refine Eq.trans ?_ (congrArg (fun y => x ^ 2 * y / 2) t)
    rw [Finset.mul_sum, Finset.sum_div]
    exact Finset.sum_congr rfl fun k _ => by ring
  have e3 : ∑ k, x * (stockRow q.chol e.rhoXiSf e.rhoSfOmega 0 k * √dt)
      * (stockRow q.chol e.rhoXiSf e.rhoSfOmega j k * √dt)
      = x * (stockCorr p.correlations.matrix e.rhoXiSf e.rhoSfOmega (0 : Fin 6) j * dt) := by
    rw [← increment_product h hdt 0 j, Finset.mul_sum]
    exact Finset.sum_congr rfl fun k _ => by ring
  have e4 : ∑ k, (stockRow q.chol e.rhoXiSf e.rhoSfOmega j k * √dt) ^ 2
      = stockCorr p.correlations.matrix e.rhoXiSf e.rhoSfOmega j j * dt := by
    rw [← increment_product h hdt j j]
    exact Finset.sum_congr rfl fun k _ => by ring
  simp_rw [e3, e1, e2, ← increment_form h] at t1
  simp_rw [e3, e1, e2, e4, ← increment_form h] at t2
  exact ⟨t1, t2⟩

end Moments

theorem measurable_increment (q : HhwStockSim) (dt : ℝ) (i : Fin 6) :
    Measurable fun z => q.increment dt z i := by
  simp_rw [increment_linear]
  exact Finset.measurable_fun_sum _ fun k _ => (measurable_pi_apply k).const_mul _

theorem continuous_increment (q : HhwStockSim) (dt : ℝ) (i : Fin 6) :
    Continuous fun z => q.increment dt z i := by
  simp_rw [increment_linear]
  fun_prop

/-- The mean of a clamped Gaussian exceeds the mean before the clamp. -/
theorem clamp_mean_gt {n : ℕ} (m : ℝ) (a : Fin n → ℝ) {i : Fin n} (ha : a i ≠ 0) :
    m < ∫ z, max (m + ∑ k, a k * z k) 0 ∂stdNormal n := by
  have hn := std_linear a
  have hX : Integrable (fun z => m + ∑ k, a k * z k) (stdNormal n) :=
    (integrable_const _).add hn.1
  have hXm : ∫ z, (m + ∑ k, a k * z k) ∂stdNormal n = m := by
    rw [integral_add (integrable_const _) hn.1, hn.2]
    simp
  have hneg : Integrable (fun z => max (-(m + ∑ k, a k * z k)) 0) (stdNormal n) := hX.neg.pos_part
  have hsum : ∀ z : Fin n → ℝ, max (m + ∑ k, a k * z k) 0
      = (m + ∑ k, a k * z k) + max (-(m + ∑ k, a k * z k)) 0 := fun z => by
    rcases le_total 0 (m + ∑ k, a k * z k) with h0 | h0
    · rw [max_eq_left h0, max_eq_right (by linarith)]; ring
    · rw [max_eq_right h0, max_eq_left (by linarith)]; ring
  simp_rw [hsum]
  rw [integral_add hX hneg, hXm]
  refine lt_add_of_pos_right _ ?_
  refine (integral_pos_iff_support_of_nonneg (fun z => le_max_right _ 0) hneg).2 ?_
  have hsupp : {z : Fin n → ℝ | m + ∑ k, a k * z k < 0}
      ⊆ Function.support fun z => max (-(m + ∑ k, a k * z k)) 0 := fun z hz => by
    have hz' : m + ∑ k, a k * z k < 0 := hz
    rw [Function.mem_support, max_eq_left (by linarith)]
    linarith
  refine lt_of_lt_of_le ?_ (measure_mono hsupp)
  refine (isOpen_lt (by fun_prop) continuous_const).measure_pos _ ?_
  refine ⟨fun j => if j = i then -(m + 1) / a i else 0, ?_⟩
  simp only [Set.mem_ofPred_eq, mul_ite, mul_zero, Finset.sum_ite_eq', Finset.mem_univ, if_true]
  rw [mul_div_cancel₀ _ ha]
  linarith

end Verif
