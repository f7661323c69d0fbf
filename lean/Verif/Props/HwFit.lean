import Verif.Lemmas.HwFit
import Verif.Props.Dated
import Verif.Props.HullWhite
import Mathlib.Probability.Distributions.Gaussian.Real

/-!
# C92: Hull-White rates fitted to a forward curve
-/

namespace Verif

open Outcome Classical MeasureTheory ProbabilityTheory Filter
open scoped NNReal

/-! ## Bonds -/

/-- **C92.** The mean of the bond formula when the rate is normal: the forward bond times the effect of a
wrong mean and of a wrong variance. -/
theorem C92_bond_mean (m : HullWhite) {t : ℝ} (ht : 0 ≤ t) (T p0t p0T f0t μ : ℝ) (v : ℝ≥0) :
    Integrable (fun r => m.discountAffine t T r p0t p0T f0t) (gaussianReal μ v)
    ∧ ∫ r, m.discountAffine t T r p0t p0T f0t ∂gaussianReal μ v
      = p0T / p0t * Real.exp (m.b t T * (μ - f0t) + m.b t T ^ 2 * (v - m.shortRateVariance 0 t) / 2) := by
  set b := m.b t T with hb
  obtain ⟨conv, hconv, hc⟩ : ∃ c, (∀ r, m.discountAffine t T r p0t p0T f0t
      = p0T / p0t * Real.exp (-b * f0t - c + b * r)) ∧ c = b ^ 2 * m.shortRateVariance 0 t / 2 := by
    refine ⟨_, fun r => rfl, ?_⟩
    rw [HullWhite.shortRateVariance, sub_zero]
    rcases ht.eq_or_lt with rfl | ht
    · rw [if_pos le_rfl]
      split_ifs <;> simp
    · rw [if_neg (not_le.2 ht)]
      by_cases h0 : |m.lambda| < 1 / 10 ^ 12
      · rw [if_pos h0, if_pos h0]
        ring
      · rw [if_neg h0, if_neg h0]
        have := ne_of_threshold (not_lt.1 h0)
        simp only [neg_mul]
        field_simp
        ring
  have hexp : ∀ r, m.discountAffine t T r p0t p0T f0t
      = p0T / p0t * Real.exp (-b * f0t - conv) * Real.exp (b * r) := fun r => by
    rw [hconv, mul_assoc, ← Real.exp_add]
  have hint : Integrable (fun r => Real.exp (b * r)) (gaussianReal μ v) :=
    integrable_exp_mul_gaussianReal b
  constructor
  · simp only [hexp]
    exact hint.const_mul _
  · simp only [hexp]
    rw [integral_const_mul]
    have : ∫ r, Real.exp (b * r) ∂gaussianReal μ v = Real.exp (μ * b + v * b ^ 2 / 2) := by
      have := congrFun (mgf_id_gaussianReal (μ := μ) (v := v)) b
      rw [mgf] at this
      simpa using this
    rw [this, mul_assoc, ← Real.exp_add, hc]
    congr 2
    ring

/-- **C92.** With the mean `f(0,t)` and the variance `short_rate_variance(0,t)` the bond formula
averages to the forward bond of the market, for every mean reversion. -/
theorem C92_forward_bond (m : HullWhite) {t : ℝ} (ht : 0 ≤ t) (T p0t p0T f0t : ℝ) :
    ∫ r, m.discountAffine t T r p0t p0T f0t ∂gaussianReal f0t (m.shortRateVariance 0 t).toNNReal
      = p0T / p0t := by
  rw [(C92_bond_mean m ht T p0t p0T f0t _ _).2,
    Real.coe_toNNReal _ (C49_short_rate_variance_nonneg m 0 t)]
  simp

/-! ## Euler steps -/

/-- **C92.** The mean of the simulated rate differs from the mean of the model by at most a multiple of
the largest step. -/
theorem C92_mean_error {lam : ℝ} (hl : 0 ≤ lam) {θ mean : ℝ → ℝ} {t : ℕ → ℝ} {K : ℕ} {h : ℝ}
    (hm : Mesh t K h) (hh : lam * h ≤ 1) (hmean : IsMean lam θ mean (t K)) {L B : ℝ} (hL0 : 0 ≤ L) (hB0 : 0 ≤ B)
    (hL : ∀ s ∈ Set.Icc 0 (t K), ∀ u ∈ Set.Icc 0 (t K), |θ s - θ u| ≤ L * |s - u|)
    (hB : ∀ s ∈ Set.Icc 0 (t K), |lam * (θ s - mean s)| ≤ B) :
    |steppedMean lam θ t (mean 0) K - mean (t K)| ≤ lam * (L / 2 + B) * h * t K :=
  steppedMean_error hl hm hh hmean hL hB hL0 hB0 K le_rfl

theorem srv_deriv (m : HullWhite) (hx : m.Exact) (T : ℝ) : ∀ s ∈ Set.Icc 0 T,
    HasDerivWithinAt (fun s => m.shortRateVariance 0 s)
      (m.sigma ^ 2 - 2 * m.lambda * m.shortRateVariance 0 s) (Set.Icc 0 T) s := by
  intro s hs
  rcases hx with h0 | h0
  · have e : ∀ u ∈ Set.Icc 0 T, m.shortRateVariance 0 u = m.sigma * m.sigma * u := fun u hu => by
      rw [HullWhite.shortRateVariance, sub_zero]
      rcases hu.1.eq_or_lt with rfl | hu
      · simp
      · rw [if_neg (not_le.2 hu), if_pos (by rw [h0, abs_zero]; norm_num)]
    have hd : HasDerivWithinAt (fun u : ℝ => m.sigma * m.sigma * u) (m.sigma * m.sigma) (Set.Icc 0 T) s := by
      simpa using ((hasDerivAt_id s).const_mul (m.sigma * m.sigma)).hasDerivWithinAt
    rw [h0, mul_zero, zero_mul, sub_zero, sq]
    exact hd.congr e (e s hs)
  · have hl := ne_of_threshold h0
    have e : ∀ u ∈ Set.Icc 0 T, m.shortRateVariance 0 u
        = m.sigma * m.sigma / (2 * m.lambda) * (1 - Real.exp (-(2 * m.lambda) * u)) := fun u hu => by
      rw [HullWhite.shortRateVariance, sub_zero]
      rcases hu.1.eq_or_lt with rfl | hu
      · simp
      · rw [if_neg (not_le.2 hu), if_neg (not_lt.2 h0)]
    have hd : HasDerivAt (fun u : ℝ => m.sigma * m.sigma / (2 * m.lambda)
        * (1 - Real.exp (-(2 * m.lambda) * u))) (m.sigma ^ 2 * Real.exp (-(2 * m.lambda) * s)) s := by
      have h1 := ((((hasDerivAt_id s).const_mul (-(2 * m.lambda))).exp).const_sub 1).const_mul
        (m.sigma * m.sigma / (2 * m.lambda))
      refine h1.congr_deriv ?_
      simp only [id]
      field_simp
    refine (hd.hasDerivWithinAt.congr e (e s hs)).congr_deriv ?_
    rw [e s hs]
    field_simp
    ring

theorem srv_bound (m : HullWhite) (hx : m.Exact) (s : ℝ) :
    0 ≤ m.shortRateVariance 0 s ∧ 2 * m.lambda * m.shortRateVariance 0 s ≤ m.sigma ^ 2 := by
  refine ⟨C49_short_rate_variance_nonneg m 0 s, ?_⟩
  rcases hx with h0 | h0
  · rw [h0]
    nlinarith [sq_nonneg m.sigma]
  · have hne := ne_of_threshold h0
    rw [HullWhite.shortRateVariance, sub_zero]
    by_cases h1 : s ≤ 0
    · rw [if_pos h1, mul_zero]
      exact sq_nonneg _
    · rw [if_neg h1, if_neg (not_lt.2 h0)]
      have hp := Real.exp_pos (-(2 * m.lambda) * s)
      have e : 2 * m.lambda * (m.sigma * m.sigma / (2 * m.lambda) * (1 - Real.exp (-(2 * m.lambda) * s)))
          = m.sigma ^ 2 * (1 - Real.exp (-(2 * m.lambda) * s)) := by
        field_simp
      simp only []
      rw [e]
      nlinarith [mul_nonneg (sq_nonneg m.sigma) hp.le]

/-- **C92.** So does its variance from `short_rate_variance`. -/
theorem C92_variance_error (m : HullWhite) (hx : m.Exact) (hl : 0 ≤ m.lambda) {t : ℕ → ℝ} {K : ℕ} {h : ℝ}
    (hm : Mesh t K h) (hh : m.lambda * h ≤ 1) :
    |steppedVariance m.lambda m.sigma t K - m.shortRateVariance 0 (t K)|
      ≤ 5 / 2 * m.lambda * m.sigma ^ 2 * h * t K :=
  steppedVariance_error hl m.sigma hm hh (v := fun s => m.shortRateVariance 0 s)
    (by simp [HullWhite.shortRateVariance]) (srv_deriv m hx (t K))
    (fun s _ => srv_bound m hx s) K le_rfl

/-! ## The target fitted to a forward curve -/

/-- **C92.** With the target `f + f'/λ` the mean of the model is the forward curve. -/
theorem C92_fitted {lam : ℝ} (hl : lam ≠ 0) {f f' : ℝ → ℝ} {T : ℝ}
    (hf : ∀ s ∈ Set.Icc 0 T, HasDerivWithinAt f (f' s) (Set.Icc 0 T) s) :
    IsMean lam (fittedTarget lam f f') f T := by
  intro s hs
  refine (hf s hs).congr_deriv ?_
  rw [fittedTarget]
  field_simp
  ring

/-- **C92 refuted for the simulated mean.** "Callers pass a Jamshidian fit so `E[r(t)] = f(0, t)`
exactly": for a rising linear forward curve the mean is above the forward rate after every number of
steps. -/
theorem C92_exact_fit_false {lam c r0 : ℝ} (hl : 0 < lam) (hc : 0 < c) {t : ℕ → ℝ} {K : ℕ} {h : ℝ}
    (hm : Mesh t K h) (hlt : ∀ k < K, t k < t (k + 1)) (hh : lam * h ≤ 1) :
    ∀ k, 0 < k → k ≤ K →
      r0 + c * t k < steppedMean lam (fittedTarget lam (fun s => r0 + c * s) fun _ => c) t r0 k := by
  have key : ∀ k ≤ K, r0 + c * t k ≤ steppedMean lam (fittedTarget lam (fun s => r0 + c * s) fun _ => c) t r0 k
      ∧ (0 < k → r0 + c * t k
        < steppedMean lam (fittedTarget lam (fun s => r0 + c * s) fun _ => c) t r0 k) := by
    intro k
    induction k with
    | zero =>
      intro _
      rw [steppedMean, hm.start]
      exact ⟨by linarith, fun h => absurd h (lt_irrefl _)⟩
    | succ k ih =>
      intro hk
      have h1 := (ih (by omega)).1
      have h2 := hlt k (by omega)
      have h3 := hm.fine k (by omega)
      have hlt' : r0 + c * t (k + 1)
          < steppedMean lam (fittedTarget lam (fun s => r0 + c * s) fun _ => c) t r0 (k + 1) := by
        rw [steppedMean]
        generalize steppedMean lam (fittedTarget lam (fun s => r0 + c * s) fun _ => c) t r0 k = M at h1 ⊢
        have h4 : lam * (t (k + 1) - t k) ≤ 1 := (mul_le_mul_of_nonneg_left h3 hl.le).trans hh
        have h5 : 0 ≤ (1 - lam * (t (k + 1) - t k)) * (M - (r0 + c * t k)) :=
          mul_nonneg (by linarith) (by linarith)
        have h6 : 0 < lam * c * (t (k + 1) - t k) ^ 2 / 2 := by
          have : 0 < t (k + 1) - t k := by linarith
          positivity
        have e : M + lam * (fittedTarget lam (fun s => r0 + c * s) (fun _ => c) ((t k + t (k + 1)) / 2) - M)
            * (t (k + 1) - t k)
            = r0 + c * t (k + 1) + (1 - lam * (t (k + 1) - t k)) * (M - (r0 + c * t k))
              + lam * c * (t (k + 1) - t k) ^ 2 / 2 := by
          rw [fittedTarget]
          have := hl.ne'
          field_simp
          ring
        rw [e]
        linarith
      exact ⟨hlt'.le, fun _ => hlt'⟩
  exact fun k h0 hk => (key k hk).2 h0

/-! ## Driven by dates -/

/-- Consecutive integration dates are at most `step` days apart. -/
theorem IsGrid.gap {val : Int} {dates : List Int} {step : ℕ} {later : List Int} (hs : 0 < step)
    (hg : IsGrid val dates step later) {k : ℕ} {a b : Int}
    (ha : (val :: later)[k]? = some a) (hb : (val :: later)[k + 1]? = some b) :
    val ≤ a ∧ a < b ∧ b ≤ a + step := by
  obtain ⟨h1, rfl⟩ := List.getElem?_eq_some_iff.1 ha
  obtain ⟨h2, rfl⟩ := List.getElem?_eq_some_iff.1 hb
  have hp := List.pairwise_iff_getElem.1 hg.increasing
  have hva : val ≤ (val :: later)[k] := by
    rcases Nat.eq_zero_or_pos k with rfl | hk
    · exact le_rfl
    · exact (hp 0 k (by omega) h1 hk).le
  refine ⟨hva, hp k (k + 1) h1 h2 (by omega), ?_⟩
  by_contra hc
  set a := (val :: later)[k] with hae
  set b := (val :: later)[k + 1] with hbe
  have hs' : (0 : Int) < step := by exact_mod_cast hs
  set g := val + step * ((a - val) / step + 1) with hgd
  have hg1 : a < g := by
    have := Int.lt_mul_ediv_self_add (x := a - val) hs'
    rw [hgd, mul_add, mul_one]
    omega
  have hg2 : g ≤ a + step := by
    have := Int.mul_ediv_self_le (x := a - val) hs'.ne'
    rw [hgd, mul_add, mul_one]
    omega
  have hbl : b ∈ later := by
    rw [hbe, List.getElem_cons_succ]
    exact List.getElem_mem _
  have hbd : ∃ d ∈ dates, b ≤ d := by
    rcases (hg.mem b).1 hbl with h | ⟨-, -, h⟩
    · exact ⟨b, h, le_rfl⟩
    · exact h
  have hgm : g ∈ val :: later := List.mem_cons_of_mem _ ((hg.mem g).2 (.inr ⟨by omega,
    ⟨(a - val) / step + 1, by rw [hgd]; ring⟩, by
      obtain ⟨d, hd, h⟩ := hbd
      exact ⟨d, hd, by omega⟩⟩))
  obtain ⟨j, hj, hje⟩ := List.getElem_of_mem hgm
  have hle : ∀ i j (hi : i < (val :: later).length) (hj : j < (val :: later).length), i ≤ j →
      (val :: later)[i] ≤ (val :: later)[j] := fun i j hi hj h => by
    rcases h.eq_or_lt with rfl | h
    · exact le_rfl
    · exact (hp i j hi hj h).le
  rcases Nat.lt_or_ge k j with h | h
  · have := hle (k + 1) j h2 hj h
    rw [hje] at this
    omega
  · have := hle j k hj h1 h
    rw [hje] at this
    omega

/-- **C92.** The simulator driven by dates with the target fitted to a forward curve `F`: at every
requested date the rate of every path is normal; its mean differs from the forward rate, its variance
from `short_rate_variance`, and the mean of the bond formula from the forward bond of the market, by at
most a multiple of the largest step `h`. -/
theorem C92_dated {Ω : Type} [MeasurableSpace Ω] {P : Measure Ω} [IsProbabilityMeasure P]
    {ξ : ℕ → Ω → ℝ} (hξ : NormalDraws P ξ) {m : HullWhite} (hx : m.Exact) (hl : 0 < m.lambda)
    {ks : KeySearch} {val : Int} {dates : List Int} {n step : ℕ} {dc : Int → Int → Outcome ℝ} {f : Int → ℝ}
    (hf : ∀ d, val ≤ d → yfOrZero dc val d = .ok (f d)) (hinc : ∀ a b, val ≤ a → a < b → f a < f b)
    (hval : f val = 0) {h : ℝ} (hstep : ∀ a b, val ≤ a → a < b → b ≤ a + step → f b - f a ≤ h)
    (hh : m.lambda * h ≤ 1) {F F' : ℝ → ℝ} {r : Ω → DatedPaths ℝ}
    (hr : ∀ ω, simulateAtDates ks (m.toModel (fittedTarget m.lambda F F') (F 0) fun k => ξ k ω) 0 val dates n
      step dc = .ok (r ω))
    {d : Int} (hd : d ∈ dates)
    (hF : ∀ s ∈ Set.Icc 0 (f d), HasDerivWithinAt F (F' s) (Set.Icc 0 (f d)) s) {L B : ℝ} (hL0 : 0 ≤ L)
    (hB0 : 0 ≤ B)
    (hL : ∀ s ∈ Set.Icc 0 (f d), ∀ u ∈ Set.Icc 0 (f d),
      |fittedTarget m.lambda F F' s - fittedTarget m.lambda F F' u| ≤ L * |s - u|)
    (hB : ∀ s ∈ Set.Icc 0 (f d), |F' s| ≤ B) {i : ℕ} (hi : i < n) :
    ∃ (X : Ω → ℝ) (μ : ℝ) (v : ℝ≥0),
      (∀ ω, ∃ c, (r ω).statesAt ks d = .ok (some c) ∧ c[i]? = some (X ω))
      ∧ P.map X = gaussianReal μ v
      ∧ |μ - F (f d)| ≤ m.lambda * (L / 2 + B) * h * f d
      ∧ |v - m.shortRateVariance 0 (f d)| ≤ 5 / 2 * m.lambda * m.sigma ^ 2 * h * f d
      ∧ ∀ T p0t p0T, ∃ ε : ℝ, ∫ ω, m.discountAffine (f d) T (X ω) p0t p0T (F (f d)) ∂P
          = p0T / p0t * Real.exp ε
        ∧ |ε| ≤ (|m.b (f d) T| * (L / 2 + B) + 5 / 4 * (m.b (f d) T * m.sigma) ^ 2) * m.lambda * h * f d := by
  obtain ⟨ω0⟩ : Nonempty Ω := P.nonempty_of_neZero
  obtain ⟨-, hs0, -⟩ := captured_exact hf hinc (hr ω0)
  obtain ⟨X, later, t, K, hgrid, hK, ht, hX, hlaw⟩ := C91_hull_white_law hξ m
    (fittedTarget m.lambda F F') (F 0) hf hinc hr hd hi
  have htK : t K = f d := by
    obtain ⟨e, e1, e2⟩ := ht K le_rfl
    rw [hK] at e1
    rw [e2, ← Option.some.inj e1]
  have hgap : ∀ k < K, t k ≤ t (k + 1) ∧ t (k + 1) - t k ≤ h := by
    intro k hk
    obtain ⟨a, a1, a2⟩ := ht k hk.le
    obtain ⟨b, b1, b2⟩ := ht (k + 1) hk
    obtain ⟨g1, g2, g3⟩ := hgrid.gap hs0 a1 b1
    rw [a2, b2]
    exact ⟨(hinc a b g1 g2).le, hstep a b g1 g2 g3⟩
  have hmesh : Mesh t K h := ⟨by
    obtain ⟨e, e1, e2⟩ := ht 0 (Nat.zero_le _)
    rw [e2, ← Option.some.inj e1, hval], fun k hk => (hgap k hk).1, fun k hk => (hgap k hk).2⟩
  rw [← htK] at hF hL hB ⊢
  have h1 := C92_mean_error hl.le hmesh hh (C92_fitted hl.ne' hF) hL0 hB0 hL fun s hs => by
    rw [fittedTarget, show m.lambda * (F s + F' s / m.lambda - F s) = F' s by
      have := hl.ne'
      field_simp
      ring]
    exact hB s hs
  have h2 := C92_variance_error m hx hl.le hmesh hh
  have hv0 : ∀ k ≤ K, 0 ≤ steppedVariance m.lambda m.sigma t k := by
    intro k
    induction k with
    | zero => intro _; exact le_rfl
    | succ k ih =>
      intro hk
      rw [steppedVariance]
      exact add_nonneg (mul_nonneg (sq_nonneg _) (ih (by omega)))
        (mul_nonneg (sq_nonneg _) (sub_nonneg.2 (hmesh.up k (by omega))))
  have hcoe : (((steppedVariance m.lambda m.sigma t K).toNNReal : ℝ≥0) : ℝ)
      = steppedVariance m.lambda m.sigma t K := Real.coe_toNNReal _ (hv0 K le_rfl)
  refine ⟨X, _, _, fun ω => ?_, hlaw, h1, by rw [hcoe]; exact h2, fun T p0t p0T => ?_⟩
  · exact hX ω
  · have hmX : AEMeasurable X P := by
      by_contra hc
      rw [Measure.map_of_not_aemeasurable hc] at hlaw
      exact (IsProbabilityMeasure.ne_zero (gaussianReal (steppedMean m.lambda
        (fittedTarget m.lambda F F') t (F 0) K) (steppedVariance m.lambda m.sigma t K).toNNReal)) hlaw.symm
    obtain ⟨b1, b2⟩ := C92_bond_mean m (hmesh.mono K le_rfl).1 T p0t p0T (F (t K))
      (steppedMean m.lambda (fittedTarget m.lambda F F') t (F 0) K)
      (steppedVariance m.lambda m.sigma t K).toNNReal
    rw [hcoe] at b2
    refine ⟨m.b (t K) T * (steppedMean m.lambda (fittedTarget m.lambda F F') t (F 0) K - F (t K))
      + m.b (t K) T ^ 2 * (steppedVariance m.lambda m.sigma t K - m.shortRateVariance 0 (t K)) / 2, ?_, ?_⟩
    · rw [← b2]
      have hb1 := b1.aestronglyMeasurable
      rw [← hlaw] at hb1 ⊢
      exact (integral_map hmX hb1).symm
    · refine (abs_add_le _ _).trans ?_
      rw [abs_mul, abs_div, abs_mul, abs_of_nonneg (sq_nonneg (m.b (t K) T)), abs_two]
      have g1 := mul_le_mul_of_nonneg_left h1 (abs_nonneg (m.b (t K) T))
      have g2 := mul_le_mul_of_nonneg_left h2 (sq_nonneg (m.b (t K) T))
      rw [mul_pow]
      nlinarith

/-! ## Examples -/

/-- Quarterly steps over two years with a forward curve rising by one percent a year: the simulated mean
is above the forward rate of five percent. -/
example : 3 / 100 + 1 / 100 * 2 < steppedMean (1 / 10)
    (fittedTarget (1 / 10) (fun s => 3 / 100 + 1 / 100 * s) fun _ => 1 / 100) (fun k => k / 4) (3 / 100) 8 := by
  have := C92_exact_fit_false (lam := 1 / 10) (c := 1 / 100) (r0 := 3 / 100) (by norm_num) (by norm_num)
    (t := fun k => (k : ℝ) / 4) (K := 8) (h := 1 / 4) ⟨by norm_num, fun k _ => by push_cast; linarith,
      fun k _ => by push_cast; linarith⟩ (fun k _ => by push_cast; linarith) (by norm_num) 8 (by norm_num) le_rfl
  norm_num at this ⊢
  exact this

/-- The same curve, simulated in steps of a fifth of a year: the third path after one year. -/
example : ∃ (ks : KeySearch) (r : (ℕ → ℝ) → DatedPaths ℝ) (X : (ℕ → ℝ) → ℝ) (μ : ℝ) (v : ℝ≥0),
    (∀ ω, simulateAtDates ks ((⟨1 / 10, 1 / 100⟩ : HullWhite).toModel
      (fittedTarget (1 / 10) (fun s => 3 / 100 + 1 / 100 * s) fun _ => 1 / 100) (3 / 100) ω) 0
      (ymd 2025 1 1) [ymd 2025 1 1 + 365, ymd 2025 1 1 + 73] 3 73 act365Dc = .ok (r ω))
    ∧ (∀ ω, ∃ c, (r ω).statesAt ks (ymd 2025 1 1 + 365) = .ok (some c) ∧ c[2]? = some (X ω))
    ∧ (Measure.infinitePi fun _ : ℕ => gaussianReal 0 1).map X = gaussianReal μ v
    ∧ |μ - 4 / 100| ≤ 3 / 10000
    ∧ |v - (⟨1 / 10, 1 / 100⟩ : HullWhite).shortRateVariance 0 1| ≤ 1 / 200000 := by
  obtain ⟨ks⟩ := exists_keySearch
  choose r hr using fun ω : ℕ → ℝ => fifths_run ks ((⟨1 / 10, 1 / 100⟩ : HullWhite).toModel
    (fittedTarget (1 / 10) (fun s => 3 / 100 + 1 / 100 * s) fun _ => 1 / 100) (3 / 100) ω) (n := 3) (by decide)
  have e1 : ((ymd 2025 1 1 + 365 - ymd 2025 1 1 : Int) : ℝ) / 365 = 1 := by norm_num
  obtain ⟨X, μ, v, h1, h2, h3, h4, -⟩ := C92_dated exists_normalDraws (m := ⟨1 / 10, 1 / 100⟩)
    (.inr (by norm_num [abs_of_pos])) (by norm_num) (ks := ks) (val := ymd 2025 1 1)
    (dates := [ymd 2025 1 1 + 365, ymd 2025 1 1 + 73]) (n := 3) (step := 73) (dc := act365Dc)
    (f := fun d => ((d - ymd 2025 1 1 : Int) : ℝ) / 365) (fun d _ => rfl) (act365Dc_increasing _)
    (by norm_num) (h := 1 / 5) (fun a b _ _ hab => by
      have : ((b - ymd 2025 1 1 : Int) : ℝ) ≤ ((a - ymd 2025 1 1 : Int) : ℝ) + 73 := by
        exact_mod_cast (by push_cast at hab; omega : b - ymd 2025 1 1 ≤ a - ymd 2025 1 1 + 73)
      beta_reduce
      linarith) (by norm_num) (F := fun s => 3 / 100 + 1 / 100 * s) (F' := fun _ => 1 / 100) (r := r)
    (fun ω => by
      have := hr ω
      simpa using this) (d := ymd 2025 1 1 + 365) (by simp)
    (fun s _ => by
      have := (((hasDerivAt_id s).const_mul (1 / 100 : ℝ)).const_add (3 / 100)).hasDerivWithinAt
        (s := Set.Icc (0 : ℝ) (((ymd 2025 1 1 + 365 - ymd 2025 1 1 : Int) : ℝ) / 365))
      rw [mul_one] at this
      exact this)
    (L := 1 / 100) (B := 1 / 100) (by norm_num) (by norm_num) (fun s _ u _ => by
      simp only [fittedTarget]
      rw [show (3 / 100 + 1 / 100 * s + 1 / 100 / (1 / 10) - (3 / 100 + 1 / 100 * u + 1 / 100 / (1 / 10)) : ℝ)
        = 1 / 100 * (s - u) by ring, abs_mul, abs_of_pos (by norm_num : (0 : ℝ) < 1 / 100)])
    (fun s _ => by rw [abs_of_pos (by norm_num)]) (i := 2) (by decide)
  beta_reduce at h3 h4
  rw [e1] at h3 h4
  refine ⟨ks, r, X, μ, v, hr, h1, h2, ?_, ?_⟩
  · norm_num at h3 ⊢
    exact h3
  · norm_num at h4 ⊢
    exact h4

/-- The forward bond from one to three years at a rate of four percent. -/
example : ∫ r, (⟨1 / 10, 1 / 100⟩ : HullWhite).discountAffine 1 3 r (Real.exp (-4 / 100))
      (Real.exp (-12 / 100)) (4 / 100)
      ∂gaussianReal (4 / 100) ((⟨1 / 10, 1 / 100⟩ : HullWhite).shortRateVariance 0 1).toNNReal
    = Real.exp (-8 / 100) := by
  rw [C92_forward_bond _ zero_le_one, ← Real.exp_sub]
  norm_num

end Verif
