import Verif.Model.Sabr
import Verif.Spec.Sabr
import Mathlib.Analysis.SpecialFunctions.Arsinh
import Mathlib.Analysis.SpecialFunctions.Trigonometric.DerivHyp
import Mathlib.Analysis.SpecialFunctions.Pow.Continuity
import Mathlib.Analysis.SpecialFunctions.Log.Deriv
import Mathlib.Tactic.Linarith
import Mathlib.Tactic.Ring
import Mathlib.Tactic.FieldSimp
import Mathlib.Tactic.Positivity

/-!
# C53: SABR
-/

namespace Verif

open Classical Outcome Filter Topology

/-- The parameters accepted by the constructor. -/
structure Sabr.Admissible (p : Sabr) : Prop where
  alpha : 0 < p.alpha
  beta0 : 0 ≤ p.beta
  beta1 : p.beta ≤ 1
  rho0 : -1 < p.rho
  rho1 : p.rho < 1
  nu : 0 ≤ p.nu

/-- **C53**: the constructor accepts exactly the documented ranges and stores what it is given. -/
theorem C53_new (a b r n : ℝ) :
    (Sabr.new a b r n = .ok ⟨a, b, r, n⟩ ↔ (⟨a, b, r, n⟩ : Sabr).Admissible) ∧
    (Sabr.new a b r n = .panic ↔ ¬ (⟨a, b, r, n⟩ : Sabr).Admissible) := by
  have h : (⟨a, b, r, n⟩ : Sabr).Admissible ↔
      0 < a ∧ (0 ≤ b ∧ b ≤ 1) ∧ (-1 < r ∧ r < 1) ∧ 0 ≤ n :=
    ⟨fun h => ⟨h.1, ⟨h.2, h.3⟩, ⟨h.4, h.5⟩, h.6⟩,
      fun h => ⟨h.1, h.2.1.1, h.2.1.2, h.2.2.1.1, h.2.2.1.2, h.2.2.2⟩⟩
  rw [h, Sabr.new]
  by_cases h1 : 0 < a
  · by_cases h2 : 0 ≤ b ∧ b ≤ 1
    · by_cases h3 : -1 < r ∧ r < 1
      · by_cases h4 : 0 ≤ n
        · rw [if_pos h1, if_pos h2, if_pos h3, if_pos h4]; simp [h1, h2, h3, h4]
        · rw [if_pos h1, if_pos h2, if_pos h3, if_neg h4]; simp [h4]
      · rw [if_pos h1, if_pos h2, if_neg h3]; simp only [h3]; simp
    · rw [if_pos h1, if_neg h2]; simp only [h2]; simp
  · rw [if_neg h1]; simp [h1]

theorem fkHalf_pos (p : Sabr) {f k : ℝ} (hf : 0 < f) (hk : 0 < k) : 0 < p.fkHalf f k :=
  Real.rpow_pos_of_pos (mul_pos hf hk) _

theorem fkHalf_self (p : Sabr) {f : ℝ} (hf : 0 < f) : p.fkHalf f f = f ^ (1 - p.beta) := by
  rw [Sabr.fkHalf, ← sq, ← Real.rpow_natCast, ← Real.rpow_mul hf.le]
  congr 1; push_cast; ring

theorem fkHalf_comm (p : Sabr) (f k : ℝ) : p.fkHalf f k = p.fkHalf k f := by
  rw [Sabr.fkHalf, Sabr.fkHalf, mul_comm]

theorem z_self (p : Sabr) {f : ℝ} (hf : 0 < f) : p.z f f = 0 := by
  rw [Sabr.z, div_self hf.ne', Real.log_one, mul_zero, ite_self]

theorem zOverX_zero (rho : ℝ) : zOverX rho 0 = 1 := by
  rw [zOverX, if_pos (by rw [abs_zero]; positivity)]; ring

theorem expansionDenom_pos (p : Sabr) (f k : ℝ) : 0 < p.expansionDenom f k := by
  have e : p.expansionDenom f k = 1 + (1 - p.beta) ^ 2 / 24 * Real.log (f / k) ^ 2 +
      (1 - p.beta) ^ 4 / 1920 * (Real.log (f / k) ^ 2) ^ 2 := by rw [Sabr.expansionDenom]; ring
  rw [e]; positivity

theorem expansionDenom_self (p : Sabr) {f : ℝ} (hf : 0 < f) : p.expansionDenom f f = 1 := by
  rw [Sabr.expansionDenom, div_self hf.ne', Real.log_one]; ring

/-- **C53**: at strike = forward the smile formula is the at-the-money formula. -/
theorem C53_atm (p : Sabr) (f t : ℝ) (hf : 0 < f) (ht : 0 < t) :
    haganVol p f f t = .ok (haganAtm p f t) := by
  rw [haganVol, if_pos ⟨hf, hf, ht⟩, z_self p hf, zOverX_zero, expansionDenom_self p hf,
    Sabr.timeCorrection, fkHalf_self p hf, haganAtm]
  congr 1
  simp only [sq]
  ring

/-- **C53**: without volatility of volatility and with `β = 1` the smile is flat at `α`. -/
theorem C53_flat (alpha rho f k t : ℝ) (hf : 0 < f) (hk : 0 < k) (ht : 0 < t) :
    haganVol ⟨alpha, 1, rho, 0⟩ f k t = .ok alpha := by
  have hz : (⟨alpha, 1, rho, 0⟩ : Sabr).z f k = 0 := by
    simp [Sabr.z]
  rw [haganVol, if_pos ⟨hf, hk, ht⟩, hz, zOverX_zero]
  simp [Sabr.fkHalf, Sabr.expansionDenom, Sabr.timeCorrection]

theorem sabr_root (rho z : ℝ) (h0 : -1 < rho) (h1 : rho < 1) :
    0 < √(1 - 2 * rho * z + z * z) + z - rho ∧ 0 < √(1 - 2 * rho * z + z * z) ∧
    √(1 - 2 * rho * z + z * z) * √(1 - 2 * rho * z + z * z) = 1 - 2 * rho * z + z * z := by
  have hd : 1 - 2 * rho * z + z * z = (z - rho) ^ 2 + (1 - rho) * (1 + rho) := by ring
  have hp : 0 < (1 - rho) * (1 + rho) := mul_pos (by linarith) (by linarith)
  have hpos : 0 < 1 - 2 * rho * z + z * z := by rw [hd]; positivity
  have hlt : |z - rho| < √(1 - 2 * rho * z + z * z) := by
    rw [Real.lt_sqrt (abs_nonneg _), sq_abs, hd]; linarith
  exact ⟨by linarith [neg_abs_le (z - rho)], Real.sqrt_pos.2 hpos, Real.mul_self_sqrt hpos.le⟩

/-- The logarithm has the sign of its argument. -/
theorem sabrX_sign (rho z : ℝ) (h0 : -1 < rho) (h1 : rho < 1) :
    (0 < z → 0 < sabrX rho z) ∧ (z < 0 → sabrX rho z < 0) := by
  obtain ⟨hr, hs, hm⟩ := sabr_root rho z h0 h1
  have e : z ^ 2 = z * z := sq z
  rw [sabrX, e]
  set s := √(1 - 2 * rho * z + z * z)
  have hden : 0 < 1 - rho := by linarith
  constructor
  · intro hz
    refine Real.log_pos ?_
    rw [lt_div_iff₀ hden, one_mul]
    by_contra hc
    have : s ≤ 1 - z := by linarith
    nlinarith [mul_pos hz hden]
  · intro hz
    refine Real.log_neg (div_pos hr hden) ?_
    rw [div_lt_one hden]
    by_contra hc
    have : 1 - z ≤ s := by linarith
    nlinarith [mul_pos (neg_pos.2 hz) hden]

theorem zOverX_large (rho z : ℝ) (h : ¬ |z| < 1 / 10 ^ 8) : zOverX rho z = z / sabrX rho z := by
  rw [zOverX, if_neg h, sabrX, sq]

/-- The factor `z / x(z)` is positive for every argument. -/
theorem zOverX_pos (rho z : ℝ) (h0 : -1 < rho) (h1 : rho < 1) : 0 < zOverX rho z := by
  by_cases h : |z| < 1 / 10 ^ 8
  · rw [zOverX, if_pos h]
    rw [abs_lt] at h
    nlinarith [mul_pos (by linarith : 0 < 1 - rho) (by linarith : 0 < 1 + rho), sq_nonneg z,
      sq_nonneg (rho * z), sq_nonneg (rho - z), sq_nonneg (rho + z)]
  · rw [zOverX_large rho z h]
    rcases lt_trichotomy z 0 with hz | hz | hz
    · exact div_pos_of_neg_of_neg hz ((sabrX_sign rho z h0 h1).2 hz)
    · subst hz
      exact absurd (by rw [abs_zero]; positivity) h
    · exact div_pos hz ((sabrX_sign rho z h0 h1).1 hz)

/-- **C53, partial**: the volatility is positive exactly when the expiry correction is.  Missing
from the claim: for large expiry or volatility of volatility the correction can be negative, see
`C53_positive_false`. -/
theorem C53_positive_partial (p : Sabr) (hp : p.Admissible) (f k t v : ℝ)
    (h : haganVol p f k t = .ok v) : 0 < v ↔ 0 < p.timeCorrection f k t := by
  rw [haganVol] at h
  by_cases hc : 0 < f ∧ 0 < k ∧ 0 < t
  · rw [if_pos hc] at h
    injection h with h
    rw [← h]
    have h1 := zOverX_pos p.rho (p.z f k) hp.rho0 hp.rho1
    have h2 := fkHalf_pos p hc.1 hc.2.1
    have h3 := expansionDenom_pos p f k
    have h4 := hp.alpha
    exact mul_pos_iff_of_pos_left (by positivity)
  · rw [if_neg hc] at h; cases h

/-- **C53, partial**: in particular for every strike and expiry when `0 ≤ ρ ≤ √(2/3)`, or when
`ν = 0`. -/
theorem C53_positive_moderate_partial (p : Sabr) (hp : p.Admissible)
    (hr : (0 ≤ p.rho ∧ 3 * p.rho ^ 2 ≤ 2) ∨ p.nu = 0) (f k t : ℝ) (hf : 0 < f) (hk : 0 < k)
    (ht : 0 < t) : ∃ v, haganVol p f k t = .ok v ∧ 0 < v := by
  refine ⟨_, by rw [haganVol, if_pos ⟨hf, hk, ht⟩], ?_⟩
  refine (C53_positive_partial p hp f k t _ (by rw [haganVol, if_pos ⟨hf, hk, ht⟩])).2 ?_
  have h2 := fkHalf_pos p hf hk
  rw [Sabr.timeCorrection]
  have a1 : 0 ≤ (1 - p.beta) ^ 2 / 24 * p.alpha * p.alpha / (p.fkHalf f k * p.fkHalf f k) := by
    have := hp.alpha; positivity
  have hb := hp.beta0
  have ha := hp.alpha
  have hn := hp.nu
  rcases hr with ⟨hr0, hr1⟩ | hn0
  · have a2 : 0 ≤ 0.25 * p.rho * p.beta * p.nu * p.alpha / p.fkHalf f k := by positivity
    have a3 : 0 ≤ (2 - 3 * p.rho * p.rho) * p.nu * p.nu / 24 := by
      have : 0 ≤ 2 - 3 * p.rho * p.rho := by nlinarith
      positivity
    nlinarith [mul_nonneg (add_nonneg (add_nonneg a1 a2) a3) ht.le]
  · rw [hn0]
    have := mul_nonneg a1 ht.le
    simp only [mul_zero, zero_mul, zero_div, add_zero]
    linarith

/-- **C53, refuted**: admissible parameters for which the returned volatility is negative
(`ρ = -0.9`, `ν = 10`, one year). -/
theorem C53_positive_false : ∃ (p : Sabr) (f k t v : ℝ), p.Admissible ∧ 0 < f ∧ 0 < k ∧ 0 < t ∧
    haganVol p f k t = .ok v ∧ v < 0 := by
  refine ⟨⟨1, 1, -9 / 10, 10⟩, 1, 1, 1, _, ⟨?_, ?_, ?_, ?_, ?_, ?_⟩, one_pos, one_pos, one_pos,
    C53_atm _ 1 1 one_pos one_pos, ?_⟩ <;> norm_num [haganAtm]

/-- **C53, refuted**: the small-argument series has the wrong sign in its second-order term.  With
`ρ = 0` the quotient `z / x(z)` exceeds one for every `z ≠ 0`, the code's series is below one. -/
theorem C53_series_false (z : ℝ) (hz : z ≠ 0) (hs : |z| < 1 / 10 ^ 8) :
    zOverX 0 z < 1 ∧ 1 < z / sabrX 0 z := by
  have hx : ∀ z, sabrX 0 z = Real.arsinh z := by
    intro z
    rw [sabrX, Real.arsinh]
    congr 1
    rw [show (1 : ℝ) - 2 * 0 * z + z ^ 2 = 1 + z ^ 2 by ring]; ring
  have hpos : ∀ z, 0 < z → 1 < z / Real.arsinh z := by
    intro z hz
    have h1 : Real.arsinh z < z := by
      rw [← Real.sinh_lt_sinh, Real.sinh_arsinh]
      exact Real.self_lt_sinh_iff.2 hz
    exact (one_lt_div (Real.arsinh_pos_iff.2 hz)).2 h1
  constructor
  · rw [zOverX, if_pos hs]
    have := mul_self_pos.2 hz
    linarith
  · rw [hx]
    rcases lt_or_gt_of_ne hz with h | h
    · have := hpos (-z) (by linarith)
      rwa [Real.arsinh_neg, neg_div_neg_eq] at this
    · exact hpos z h

/-- **C53**: exchanging forward and strike together with the sign of the correlation leaves
`z / x(z)` unchanged, so at zero correlation the smile is symmetric in forward and strike. -/
theorem C53_symmetric (p : Sabr) (f k t : ℝ) (hf : 0 < f) (hk : 0 < k) (ht : 0 < t)
    (hr : p.rho = 0) : haganVol p f k t = haganVol p k f t := by
  have hlog : Real.log (k / f) = -Real.log (f / k) := by
    rw [← Real.log_inv, inv_div]
  have hz : p.z k f = -p.z f k := by
    rw [Sabr.z, Sabr.z, hlog, fkHalf_comm p k f]
    by_cases h : 0 < p.alpha
    · rw [if_pos h, if_pos h]; ring
    · rw [if_neg h, if_neg h, neg_zero]
  have hzx : ∀ z, zOverX 0 (-z) = zOverX 0 z := by
    intro z
    by_cases h : |z| < 1 / 10 ^ 8
    · rw [zOverX, zOverX, if_pos h, if_pos (by rwa [abs_neg])]; ring
    · rw [zOverX_large _ _ h, zOverX_large _ _ (by rwa [abs_neg])]
      have hx : sabrX 0 (-z) = -sabrX 0 z := by
        have e : ∀ z, sabrX 0 z = Real.arsinh z := by
          intro z
          rw [sabrX, Real.arsinh]
          congr 1
          rw [show (1 : ℝ) - 2 * 0 * z + z ^ 2 = 1 + z ^ 2 by ring]; ring
        rw [e, e, Real.arsinh_neg]
      rw [hx, neg_div_neg_eq]
  have he : p.expansionDenom k f = p.expansionDenom f k := by
    rw [Sabr.expansionDenom, Sabr.expansionDenom, hlog]; ring
  rw [haganVol, haganVol, if_pos ⟨hf, hk, ht⟩, if_pos ⟨hk, hf, ht⟩, hz, hr, hzx, he,
    fkHalf_comm p k f]
  congr 2
  rw [Sabr.timeCorrection, Sabr.timeCorrection, fkHalf_comm p k f]

/-- **C53**: the general symmetry of `x`: `x(-z)` at correlation `-ρ` is `-x(z)` at `ρ`. -/
theorem C53_x_symmetric (rho z : ℝ) (h0 : -1 < rho) (h1 : rho < 1) :
    sabrX (-rho) (-z) = -sabrX rho z := by
  obtain ⟨hr, hs, hm⟩ := sabr_root rho z h0 h1
  rw [sabrX, sabrX, ← Real.log_inv, inv_div]
  congr 1
  have e1 : 1 - 2 * -rho * -z + (-z) ^ 2 = 1 - 2 * rho * z + z * z := by ring
  have e2 : 1 - 2 * rho * z + z ^ 2 = 1 - 2 * rho * z + z * z := by ring
  rw [e1, e2]
  set s := √(1 - 2 * rho * z + z * z)
  rw [div_eq_div_iff (by linarith) hr.ne']
  nlinarith

/-- **C53**: rescaling the currency unit (forward and strike by `c`, `α` by `c^(1-β)`) does not
change the volatility. -/
theorem C53_scaling (p : Sabr) (hp : 0 < p.alpha) (f k t c : ℝ) (hf : 0 < f) (hk : 0 < k)
    (hc : 0 < c) :
    haganVol { p with alpha := p.alpha * c ^ (1 - p.beta) } (c * f) (c * k) t =
      haganVol p f k t := by
  set q : Sabr := { p with alpha := p.alpha * c ^ (1 - p.beta) } with hq
  have hg : 0 < c ^ (1 - p.beta) := Real.rpow_pos_of_pos hc _
  have hfk : q.fkHalf (c * f) (c * k) = c ^ (1 - p.beta) * p.fkHalf f k := by
    have e : c * f * (c * k) = c ^ 2 * (f * k) := by ring
    rw [Sabr.fkHalf, e, Real.mul_rpow (by positivity) (by positivity), ← Real.rpow_natCast,
      ← Real.rpow_mul hc.le, Sabr.fkHalf]
    congr 2; push_cast; ring
  have hl : c * f / (c * k) = f / k := by field_simp
  have h2 := fkHalf_pos p hf hk
  have hz : q.z (c * f) (c * k) = p.z f k := by
    have hqa : 0 < q.alpha := mul_pos hp hg
    rw [Sabr.z, Sabr.z, if_pos hqa, if_pos hp, hfk, hl]
    show p.nu / (p.alpha * c ^ (1 - p.beta)) * (c ^ (1 - p.beta) * p.fkHalf f k) *
      Real.log (f / k) = _
    field_simp
  have hd : q.expansionDenom (c * f) (c * k) = p.expansionDenom f k := by
    rw [Sabr.expansionDenom, Sabr.expansionDenom, hl]
  have ht : q.timeCorrection (c * f) (c * k) t = p.timeCorrection f k t := by
    rw [Sabr.timeCorrection, Sabr.timeCorrection, hfk]
    show 1 + ((1 - p.beta) ^ 2 / 24 * (p.alpha * c ^ (1 - p.beta)) *
      (p.alpha * c ^ (1 - p.beta)) / (c ^ (1 - p.beta) * p.fkHalf f k *
      (c ^ (1 - p.beta) * p.fkHalf f k)) + 0.25 * p.rho * p.beta * p.nu *
      (p.alpha * c ^ (1 - p.beta)) / (c ^ (1 - p.beta) * p.fkHalf f k) +
      (2 - 3 * p.rho * p.rho) * p.nu * p.nu / 24) * t = _
    field_simp
  have hiff : (0 < c * f ∧ 0 < c * k ∧ 0 < t) ↔ (0 < f ∧ 0 < k ∧ 0 < t) := by
    rw [mul_pos_iff_of_pos_left hc, mul_pos_iff_of_pos_left hc]
  rw [haganVol, haganVol]
  by_cases hcond : 0 < f ∧ 0 < k ∧ 0 < t
  · rw [if_pos hcond, if_pos (hiff.2 hcond), hz, hd, ht, hfk]
    show Outcome.ok (p.alpha * c ^ (1 - p.beta) / _ * zOverX p.rho _ * _) = _
    congr 3
    have h3 := expansionDenom_pos p f k
    field_simp
  · rw [if_neg hcond, if_neg (fun h => hcond (hiff.1 h))]

/-- **C53**: the smile is continuous through the money: as the strike tends to the forward the
volatility tends to the at-the-money volatility. -/
theorem C53_atm_limit (p : Sabr) (f t : ℝ) (hf : 0 < f) (ht : 0 < t) :
    ∃ g : ℝ → ℝ, (∀ k, 0 < k → haganVol p f k t = .ok (g k)) ∧
      Tendsto g (𝓝 f) (𝓝 (haganAtm p f t)) := by
  refine ⟨fun k => p.alpha / (p.fkHalf f k * p.expansionDenom f k) * zOverX p.rho (p.z f k) *
      p.timeCorrection f k t, fun k hk => by rw [haganVol, if_pos ⟨hf, hk, ht⟩], ?_⟩
  have hH : ContinuousAt (fun k => p.fkHalf f k) f := by
    unfold Sabr.fkHalf
    exact (continuousAt_const.mul continuousAt_id).rpow_const (Or.inl (mul_pos hf hf).ne')
  have hL : ContinuousAt (fun k => Real.log (f / k)) f :=
    (continuousAt_const.div continuousAt_id hf.ne').log (div_pos hf hf).ne'
  have hZ : ContinuousAt (fun k => p.z f k) f := by
    unfold Sabr.z
    by_cases h : 0 < p.alpha
    · simp only [if_pos h]
      exact (continuousAt_const.mul hH).mul hL
    · simp only [if_neg h]
      exact continuousAt_const
  have hE : ContinuousAt (fun k => p.expansionDenom f k) f := by
    unfold Sabr.expansionDenom
    exact (continuousAt_const.add (continuousAt_const.mul (hL.mul hL))).add
      ((continuousAt_const.mul (hL.mul hL)).mul (hL.mul hL))
  have hH0 := (fkHalf_pos p hf hf).ne'
  have hT : ContinuousAt (fun k => p.timeCorrection f k t) f := by
    unfold Sabr.timeCorrection
    exact continuousAt_const.add ((((continuousAt_const.div (hH.mul hH)
      (mul_ne_zero hH0 hH0)).add (continuousAt_const.div hH hH0)).add continuousAt_const).mul
      continuousAt_const)
  have hzx0 : ContinuousAt (zOverX p.rho) 0 := by
    have hpoly : ContinuousAt
        (fun z : ℝ => 1 - 0.5 * p.rho * z + 1 / 12 * (3 * p.rho * p.rho - 2) * z * z) 0 := by
      fun_prop
    refine hpoly.congr ?_
    filter_upwards [Metric.ball_mem_nhds (0 : ℝ) (by positivity : (0 : ℝ) < 1 / 10 ^ 8)] with z hz
    rw [Metric.mem_ball, Real.dist_eq, sub_zero] at hz
    rw [zOverX, if_pos hz]
  have hZX : ContinuousAt (fun k => zOverX p.rho (p.z f k)) f := by
    refine ContinuousAt.comp (f := fun k => p.z f k) (g := zOverX p.rho) ?_ hZ
    rw [z_self p hf]; exact hzx0
  have hall := ((continuousAt_const (y := p.alpha)).div (hH.mul hE)
    (mul_ne_zero hH0 (expansionDenom_pos p f f).ne')).mul hZX |>.mul hT
  have hval := C53_atm p f t hf ht
  rw [haganVol, if_pos ⟨hf, hf, ht⟩] at hval
  injection hval with hval
  rw [← hval]
  exact hall

/-- **C53**: whatever the draws, one step of the simulator keeps the forward non-negative and a
positive volatility positive, and never panics on a positive step. -/
theorem C53_step (p : Sabr) (s : SabrState) (dt z1 z2 : ℝ) (ht : 0 < dt) :
    ∃ s', p.step s dt z1 z2 = .ok s' ∧ 0 ≤ s'.forward ∧ (0 < s.vol → 0 < s'.vol) := by
  refine ⟨_, by rw [Sabr.step, if_pos ht], le_max_right _ _, fun hv => ?_⟩
  exact mul_pos (lt_max_of_lt_left hv) (Real.exp_pos _)

/-- **C53**: along any list of draws, of any length, the forward stays non-negative and the
volatility is the exact lognormal solution `α exp(Σ(-½ν²dt + ν dW))`, hence positive. -/
theorem C53_path (p : Sabr) (dt : ℝ) (ht : 0 < dt) (draws : List (ℝ × ℝ)) (s : SabrState)
    (hf : 0 ≤ s.forward) (hv : 0 < s.vol) :
    ∃ s', p.path dt s draws = .ok s' ∧ 0 ≤ s'.forward ∧ 0 < s'.vol ∧
      s'.vol = s.vol * Real.exp (sabrLogVol p.rho p.nu dt draws) := by
  induction draws generalizing s with
  | nil => exact ⟨s, rfl, hf, hv, by simp [sabrLogVol]⟩
  | cons d ds ih =>
    obtain ⟨z1, z2⟩ := d
    obtain ⟨n, hstep, hnf, hnv⟩ : ∃ n : SabrState, p.step s dt z1 z2 = .ok n ∧ 0 ≤ n.forward ∧
        n.vol = max s.vol 0 * Real.exp (-0.5 * p.nu * p.nu * dt +
          p.nu * (√dt * (p.rho * z1 + √(1 - p.rho * p.rho) * z2))) :=
      ⟨_, by rw [Sabr.step, if_pos ht], le_max_right _ _, rfl⟩
    obtain ⟨s', h1, h2, h3, h4⟩ := ih n hnf
      (by rw [hnv]; exact mul_pos (lt_max_of_lt_left hv) (Real.exp_pos _))
    refine ⟨s', ?_, h2, h3, ?_⟩
    · rw [Sabr.path, hstep, ok_bind]; exact h1
    · rw [h4, hnv, max_eq_left hv.le, mul_assoc, ← Real.exp_add]
      congr 2
      rw [sabrLogVol, sabrLogVol, List.map_cons, List.sum_cons, sq p.rho]
      ring

/-- **C53**: from the initial state of an admissible model. -/
theorem C53_simulate (p : Sabr) (hp : p.Admissible) (f0 dt : ℝ) (hf : 0 < f0) (ht : 0 < dt)
    (draws : List (ℝ × ℝ)) : ∃ s', p.path dt (p.initial f0) draws = .ok s' ∧
      0 ≤ s'.forward ∧ 0 < s'.vol := by
  obtain ⟨s', h1, h2, h3, _⟩ := C53_path p dt ht draws (p.initial f0) hf.le hp.alpha
  exact ⟨s', h1, h2, h3⟩

/-- **C53**: with `β > 0` the origin is absorbing: a forward that has reached zero stays there. -/
theorem C53_absorbing (p : Sabr) (hb : 0 < p.beta) (v dt z1 z2 : ℝ) (s' : SabrState)
    (h : p.step ⟨0, v⟩ dt z1 z2 = .ok s') : s'.forward = 0 := by
  rw [Sabr.step] at h
  by_cases ht : 0 < dt
  · rw [if_pos ht] at h
    injection h with h
    rw [← h]
    simp [Real.zero_rpow hb.ne']
  · rw [if_neg ht] at h; cases h

/-- Typical FX parameters meet the hypotheses. -/
example : (⟨0.12, 0.5, -0.3, 0.4⟩ : Sabr).Admissible := by
  constructor <;> norm_num

example : ∃ v, haganVol ⟨0.12, 0.5, 0.3, 0.4⟩ 1.3 1.1 1 = .ok v ∧ 0 < v :=
  C53_positive_moderate_partial _ (by constructor <;> norm_num) (Or.inl (by norm_num)) _ _ _
    (by norm_num) (by norm_num) (by norm_num)

end Verif
