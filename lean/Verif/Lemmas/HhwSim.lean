import Verif.Spec.HhwSim
import Verif.Lemmas.Chain
import Verif.Lemmas.GaussVec
import Verif.Spec.Cholesky

/-!
# Lemmas on the FX-HHW simulator
-/

namespace Verif

open MeasureTheory

/-- States are quadruples of reals. -/
instance : MeasurableSpace HhwState :=
  MeasurableSpace.comap (fun s => (s.fx, s.variance, s.rd, s.rf)) inferInstance

theorem measurable_hhw {α : Type} [MeasurableSpace α] {a b c d : α → ℝ} (ha : Measurable a)
    (hb : Measurable b) (hc : Measurable c) (hd : Measurable d) :
    Measurable fun x => (⟨a x, b x, c x, d x⟩ : HhwState) :=
  measurable_comap_iff.2 (ha.prodMk (hb.prodMk (hc.prodMk hd)))

theorem measurable_hhw_tuple :
    Measurable fun s : HhwState => (s.fx, s.variance, s.rd, s.rf) := comap_measurable _

theorem measurable_fx : Measurable HhwState.fx := measurable_fst.comp measurable_hhw_tuple
theorem measurable_variance : Measurable HhwState.variance :=
  (measurable_fst.comp measurable_snd).comp measurable_hhw_tuple
theorem measurable_rd : Measurable HhwState.rd :=
  (measurable_fst.comp (measurable_snd.comp measurable_snd)).comp measurable_hhw_tuple
theorem measurable_rf : Measurable HhwState.rf :=
  (measurable_snd.comp (measurable_snd.comp measurable_snd)).comp measurable_hhw_tuple

theorem measurable_noise (q : HhwSim) (dt : ℝ) (i : Fin 4) :
    Measurable fun z : Fin 4 → ℝ => q.noise dt z i := by
  unfold HhwSim.noise
  exact (Finset.measurable_fun_sum _ fun j _ => (measurable_pi_apply j).const_mul _).mul_const _

theorem measurable_hhwChainStep (q : HhwSim) (dt : ℕ → ℝ) (θ : ℕ → ℝ × ℝ) (k : ℕ) :
    Measurable fun x : HhwState × (Fin 4 → ℝ) => hhwChainStep q dt θ k x.1 x.2 := by
  have h0 : Measurable fun x : HhwState × (Fin 4 → ℝ) => x.1.fx := measurable_fx.comp measurable_fst
  have h1 : Measurable fun x : HhwState × (Fin 4 → ℝ) => x.1.variance := measurable_variance.comp measurable_fst
  have h2 : Measurable fun x : HhwState × (Fin 4 → ℝ) => x.1.rd := measurable_rd.comp measurable_fst
  have h3 : Measurable fun x : HhwState × (Fin 4 → ℝ) => x.1.rf := measurable_rf.comp measurable_fst
  have hn : ∀ i, Measurable fun x : HhwState × (Fin 4 → ℝ) => q.noise (dt k) x.2 i := fun i =>
    (measurable_noise q (dt k) i).comp measurable_snd
  have hs := h1.max (measurable_const (a := (0 : ℝ)))
  have hr := Real.continuous_sqrt.measurable.comp hs
  unfold hhwChainStep HhwSim.euler
  refine measurable_hhw ?_ ?_ ?_ ?_
  · exact Real.measurable_exp.comp (((Real.measurable_log.comp h0).add
      (((h2.sub h3).sub (hs.const_mul _)).mul_const _)).add (hr.mul (hn 0)))
  · exact ((hs.add (((measurable_const.sub hs).const_mul _).mul_const _)).add
      ((hr.const_mul _).mul (hn 1))).max measurable_const
  · exact (h2.add (((measurable_const.sub h2).const_mul _).mul_const _)).add ((hn 2).const_mul _)
  · exact (h3.add ((((measurable_const.sub h3).const_mul _).sub (hr.const_mul _)).mul_const _)).add
      ((hn 3).const_mul _)

/-- The increments are linear in the draws. -/
theorem noise_linear {c : ℕ → ℕ → ℝ} (q : HhwSim) (hq : CholeskyFactor 4 c q.chol) (dt : ℝ)
    (z : Fin 4 → ℝ) (i : Fin 4) :
    q.noise dt z i = ∑ j : Fin 4, (q.chol i j * √dt) * z j := by
  unfold HhwSim.noise
  rw [Finset.sum_mul, Finset.sum_filter]
  refine Finset.sum_congr rfl fun j _ => ?_
  split_ifs with h
  · ring
  · rw [hq.lower i i.2 j j.2 (by rw [not_le] at h; exact h)]; ring

theorem noise_product {c : ℕ → ℕ → ℝ} (q : HhwSim) (hq : CholeskyFactor 4 c q.chol) {dt : ℝ}
    (hdt : 0 ≤ dt) (i k : Fin 4) :
    ∑ j : Fin 4, (q.chol i j * √dt) * (q.chol k j * √dt) = c i k * dt := by
  have h := hq.product i i.2 k k.2
  rw [← h, ← Fin.sum_univ_eq_sum_range (fun x => q.chol i x * q.chol k x), Finset.sum_mul]
  refine Finset.sum_congr rfl fun j _ => ?_
  have := Real.mul_self_sqrt hdt
  linear_combination q.chol i j * q.chol k j * this

/-- Moments of one step.  `v ≥ 0` is the truncated variance. -/
theorem noise_exp {c : ℕ → ℕ → ℝ} (q : HhwSim) (hq : CholeskyFactor 4 c q.chol) {dt : ℝ}
    (hdt : 0 ≤ dt) (i : Fin 4) (x : ℝ) :
    Integrable (fun z => Real.exp (x * q.noise dt z i)) (stdNormal 4)
      ∧ ∫ z, Real.exp (x * q.noise dt z i) ∂stdNormal 4 = Real.exp (x ^ 2 * (c i i * dt) / 2) := by
  have h := std_exp (fun j : Fin 4 => x * (q.chol i j * √dt))
  have e : ∀ z : Fin 4 → ℝ, ∑ j : Fin 4, x * (q.chol i j * √dt) * z j = x * q.noise dt z i :=
    fun z => by
      rw [noise_linear q hq, Finset.mul_sum]
      exact Finset.sum_congr rfl fun j _ => by ring
  have e2 : ∑ j : Fin 4, (x * (q.chol i j * √dt)) ^ 2 / 2 = x ^ 2 * (c i i * dt) / 2 := by
    rw [← noise_product q hq hdt i i, Finset.mul_sum, Finset.sum_div]
    exact Finset.sum_congr rfl fun j _ => by ring
  simp_rw [e, e2] at h
  exact h

theorem noise_exp_mul {c : ℕ → ℕ → ℝ} (q : HhwSim) (hq : CholeskyFactor 4 c q.chol) {dt : ℝ}
    (hdt : 0 ≤ dt) (i k : Fin 4) (x : ℝ) :
    Integrable (fun z => Real.exp (x * q.noise dt z i) * q.noise dt z k) (stdNormal 4)
      ∧ ∫ z, Real.exp (x * q.noise dt z i) * q.noise dt z k ∂stdNormal 4
        = x * (c i k * dt) * Real.exp (x ^ 2 * (c i i * dt) / 2) := by
  have h := std_exp_linear (fun j : Fin 4 => x * (q.chol i j * √dt)) fun j => q.chol k j * √dt
  have e : ∀ z : Fin 4 → ℝ, ∑ j : Fin 4, x * (q.chol i j * √dt) * z j = x * q.noise dt z i :=
    fun z => by
      rw [noise_linear q hq, Finset.mul_sum]
      exact Finset.sum_congr rfl fun j _ => by ring
  have e2 : ∑ j : Fin 4, (x * (q.chol i j * √dt)) ^ 2 / 2 = x ^ 2 * (c i i * dt) / 2 := by
    rw [← noise_product q hq hdt i i, Finset.mul_sum, Finset.sum_div]
    exact Finset.sum_congr rfl fun j _ => by ring
  have e3 : ∑ j : Fin 4, x * (q.chol i j * √dt) * (q.chol k j * √dt) = x * (c i k * dt) := by
    rw [← noise_product q hq hdt i k, Finset.mul_sum]
    exact Finset.sum_congr rfl fun j _ => by ring
  simp_rw [e3, e, e2, ← noise_linear q hq] at h
  exact h

theorem noise_exp_sq {c : ℕ → ℕ → ℝ} (q : HhwSim) (hq : CholeskyFactor 4 c q.chol) {dt : ℝ}
    (hdt : 0 ≤ dt) (i k : Fin 4) (x : ℝ) :
    Integrable (fun z => Real.exp (x * q.noise dt z i) * q.noise dt z k ^ 2) (stdNormal 4)
      ∧ ∫ z, Real.exp (x * q.noise dt z i) * q.noise dt z k ^ 2 ∂stdNormal 4
        = ((x * (c i k * dt)) ^ 2 + c k k * dt) * Real.exp (x ^ 2 * (c i i * dt) / 2) := by
  have h := std_exp_linear_sq (fun j : Fin 4 => x * (q.chol i j * √dt)) fun j => q.chol k j * √dt
  have e : ∀ z : Fin 4 → ℝ, ∑ j : Fin 4, x * (q.chol i j * √dt) * z j = x * q.noise dt z i :=
    fun z => by
      rw [noise_linear q hq, Finset.mul_sum]
      exact Finset.sum_congr rfl fun j _ => by ring
  have e2 : ∑ j : Fin 4, (x * (q.chol i j * √dt)) ^ 2 / 2 = x ^ 2 * (c i i * dt) / 2 := by
    rw [← noise_product q hq hdt i i, Finset.mul_sum, Finset.sum_div]
    exact Finset.sum_congr rfl fun j _ => by ring
  have e3 : ∑ j : Fin 4, x * (q.chol i j * √dt) * (q.chol k j * √dt) = x * (c i k * dt) := by
    rw [← noise_product q hq hdt i k, Finset.mul_sum]
    exact Finset.sum_congr rfl fun j _ => by ring
  have e4 : ∑ j : Fin 4, (q.chol k j * √dt) ^ 2 = c k k * dt := by
    rw [← noise_product q hq hdt k k]
    exact Finset.sum_congr rfl fun j _ => by ring
  simp_rw [e3, e4, e, e2, ← noise_linear q hq] at h
  exact h

theorem noise_mean {c : ℕ → ℕ → ℝ} (q : HhwSim) (hq : CholeskyFactor 4 c q.chol) (dt : ℝ)
    (i : Fin 4) :
    Integrable (fun z => q.noise dt z i) (stdNormal 4) ∧ ∫ z, q.noise dt z i ∂stdNormal 4 = 0 := by
  have h := std_linear (fun j : Fin 4 => q.chol i j * √dt)
  simp_rw [← noise_linear q hq] at h
  exact h

theorem noise_cov {c : ℕ → ℕ → ℝ} (q : HhwSim) (hq : CholeskyFactor 4 c q.chol) {dt : ℝ}
    (hdt : 0 ≤ dt) (i k : Fin 4) :
    Integrable (fun z => q.noise dt z i * q.noise dt z k) (stdNormal 4)
      ∧ ∫ z, q.noise dt z i * q.noise dt z k ∂stdNormal 4 = c i k * dt := by
  have h := std_linear_cov (fun j : Fin 4 => q.chol i j * √dt) fun j => q.chol k j * √dt
  simp_rw [noise_product q hq hdt, ← noise_linear q hq] at h
  exact h

/-- The FX rate of one step as a multiple of the previous one. -/
theorem euler_fx (q : HhwSim) {s : HhwState} (hs : 0 < s.fx) (dt a b : ℝ) (z : Fin 4 → ℝ) :
    (q.euler s dt a b z).fx = s.fx * Real.exp ((s.rd - s.rf - 1 / 2 * max s.variance 0) * dt)
      * Real.exp (√(max s.variance 0) * q.noise dt z 0) := by
  change Real.exp (Real.log s.fx + _ + _) = _
  rw [Real.exp_add, Real.exp_add, Real.exp_log hs]

theorem euler_fx_pos (q : HhwSim) (s : HhwState) (dt a b : ℝ) (z : Fin 4 → ℝ) :
    0 < (q.euler s dt a b z).fx := Real.exp_pos _

end Verif
