import Verif.Lemmas.Quadrature
import Verif.Props.Hlmm
import Verif.Props.FxFmm

/-!
# C83: the quadratures of the FX-HLMM1 and FX-FMM1 characteristic functions converge
-/

namespace Verif

open MeasureTheory Filter Topology Outcome

/-! ## The relative error of `sqrt_mean` -/

/-- **C83.** The values of `sqrt_mean` are within 1/249 of the mean of the root. -/
theorem C83_root_error {p : Cir} (h : p.Fine) (T : ℝ) : p.RootWithin (1 / 249) T :=
  fun t ht => ⟨_, sqrtMean_phiOf p h.kappa t, phiOf_near h ht.1⟩

/-- **C83.** Where the series is summed they are within `1e-12`. -/
theorem C83_root_error_series {p : Cir} (h : p.Fine) {T : ℝ}
    (hb : ∀ t, 0 < t → t ≤ T → p.SeriesBranch t) : p.RootWithin (1 / 10 ^ 12) T := by
  intro t ht
  refine ⟨_, sqrtMean_phiOf p h.kappa t, ?_⟩
  rcases ht.1.eq_or_lt with h0 | h0
  · subst h0
    rw [phiOf_of_nonpos p le_rfl, max_eq_left h.pos.2.2.le, Cir.rootMean, if_pos le_rfl, sub_self, abs_zero]
    positivity
  · exact phiOf_series h h0 (hb t h0 ht.2)

/-- **C83.** The mean of the root is a continuous function of time, from the start on. -/
theorem C83_root_continuous {p : Cir} (h : p.Fine) : ContinuousOn p.rootMean (Set.Ici 0) :=
  continuousOn_rootMean h.kappa h.pos.1 h.pos.2.1 h.pos.2.2

theorem RootWithin.phi {p : Cir} (hk : 0 < p.kappa) {w T : ℝ} (h : p.RootWithin w T) {t : ℝ}
    (ht : t ∈ Set.Icc 0 T) : |phiOf p t - p.rootMean t| ≤ w * p.rootMean t := by
  obtain ⟨v, e, l⟩ := h t ht
  rw [sqrtMean_phiOf p hk] at e
  rw [Outcome.ok.inj e]
  exact l

/-! ## Bilinear forms of three roots -/

theorem triple_near {P Q R x y z x' y' z' w : ℝ} (hx : 0 ≤ x) (hy : 0 ≤ y) (hz : 0 ≤ z) (hw : 0 ≤ w)
    (ex : |x' - x| ≤ w * x) (ey : |y' - y| ≤ w * y) (ez : |z' - z| ≤ w * z) :
    |(P * (2 * x' * y') - Q * (2 * x' * z') - R * (2 * y' * z'))
      - (P * (2 * x * y) - Q * (2 * x * z) - R * (2 * y * z))|
      ≤ (2 * w + w ^ 2) * (|P| * (2 * x * y) + |Q| * (2 * x * z) + |R| * (2 * y * z)) := by
  have pair : ∀ {a b a' b' : ℝ}, 0 ≤ a → 0 ≤ b → |a' - a| ≤ w * a → |b' - b| ≤ w * b →
      |2 * a' * b' - 2 * a * b| ≤ (2 * w + w ^ 2) * (2 * a * b) := by
    intro a b a' b' ha hb e1 e2
    have e : 2 * a' * b' - 2 * a * b = 2 * ((a' - a) * (b' - b) + a * (b' - b) + (a' - a) * b) := by ring
    rw [e, abs_mul, abs_two]
    have t1 : |(a' - a) * (b' - b)| ≤ (w * a) * (w * b) := by
      rw [abs_mul]; exact mul_le_mul e1 e2 (abs_nonneg _) (by positivity)
    have t2 : |a * (b' - b)| ≤ a * (w * b) := by
      rw [abs_mul, abs_of_nonneg ha]; exact mul_le_mul_of_nonneg_left e2 ha
    have t3 : |(a' - a) * b| ≤ (w * a) * b := by
      rw [abs_mul, abs_of_nonneg hb]; exact mul_le_mul_of_nonneg_right e1 hb
    have := (abs_add_le ((a' - a) * (b' - b) + a * (b' - b)) ((a' - a) * b)).trans
      (add_le_add (abs_add_le _ _) le_rfl)
    nlinarith
  have e : (P * (2 * x' * y') - Q * (2 * x' * z') - R * (2 * y' * z'))
      - (P * (2 * x * y) - Q * (2 * x * z) - R * (2 * y * z))
      = P * (2 * x' * y' - 2 * x * y) - Q * (2 * x' * z' - 2 * x * z) - R * (2 * y' * z' - 2 * y * z) := by ring
  rw [e]
  have a1 : |P * (2 * x' * y' - 2 * x * y)| ≤ |P| * ((2 * w + w ^ 2) * (2 * x * y)) := by
    rw [abs_mul]; exact mul_le_mul_of_nonneg_left (pair hx hy ex ey) (abs_nonneg _)
  have a2 : |Q * (2 * x' * z' - 2 * x * z)| ≤ |Q| * ((2 * w + w ^ 2) * (2 * x * z)) := by
    rw [abs_mul]; exact mul_le_mul_of_nonneg_left (pair hx hz ex ez) (abs_nonneg _)
  have a3 : |R * (2 * y' * z' - 2 * y * z)| ≤ |R| * ((2 * w + w ^ 2) * (2 * y * z)) := by
    rw [abs_mul]; exact mul_le_mul_of_nonneg_left (pair hy hz ey ez) (abs_nonneg _)
  have b1 := abs_sub (P * (2 * x' * y' - 2 * x * y) - Q * (2 * x' * z' - 2 * x * z)) (R * (2 * y' * z' - 2 * y * z))
  have b2 := abs_sub (P * (2 * x' * y' - 2 * x * y)) (Q * (2 * x' * z' - 2 * x * z))
  linarith

theorem crossCov_scale (xiD xiF : List ℝ) (cross : List (List ℝ)) (s : Finset ℕ) (x y z : ℝ) (u v : ℕ → ℝ) :
    crossCov xiD xiF cross s x (fun j => y * u j) (fun j => -(z * v j))
      = (∑ j ∈ s, u j * xiD.getD (j - 1) 0) * (2 * x * y) - (∑ j ∈ s, v j * xiF.getD (j - 1) 0) * (2 * x * z)
        - (∑ i ∈ s, ∑ j ∈ s, u i * v j * matAt cross i j) * (2 * y * z) := by
  have e1 : ∑ j ∈ s, y * u j * xiD.getD (j - 1) 0 = y * ∑ j ∈ s, u j * xiD.getD (j - 1) 0 := by
    rw [Finset.mul_sum]; exact Finset.sum_congr rfl fun j _ => by ring
  have e2 : ∑ j ∈ s, -(z * v j) * xiF.getD (j - 1) 0 = -(z * ∑ j ∈ s, v j * xiF.getD (j - 1) 0) := by
    rw [Finset.mul_sum, ← Finset.sum_neg_distrib]; exact Finset.sum_congr rfl fun j _ => by ring
  have e3 : ∑ i ∈ s, ∑ j ∈ s, y * u i * -(z * v j) * matAt cross i j
      = -(y * z * ∑ i ∈ s, ∑ j ∈ s, u i * v j * matAt cross i j) := by
    rw [Finset.mul_sum, ← Finset.sum_neg_distrib]
    refine Finset.sum_congr rfl fun i _ => ?_
    rw [Finset.mul_sum, ← Finset.sum_neg_distrib]
    exact Finset.sum_congr rfl fun j _ => by ring
  rw [crossCov, e1, e2, e3]
  ring

theorem crossSize_scale (xiD xiF : List ℝ) (cross : List (List ℝ)) (s : Finset ℕ) {x y z : ℝ} (u v : ℕ → ℝ)
    (hx : 0 ≤ x) (hy : 0 ≤ y) (hz : 0 ≤ z) :
    crossSize xiD xiF cross s x (fun j => y * u j) (fun j => -(z * v j))
      = |∑ j ∈ s, u j * xiD.getD (j - 1) 0| * (2 * x * y) + |∑ j ∈ s, v j * xiF.getD (j - 1) 0| * (2 * x * z)
        + |∑ i ∈ s, ∑ j ∈ s, u i * v j * matAt cross i j| * (2 * y * z) := by
  have e1 : ∑ j ∈ s, y * u j * xiD.getD (j - 1) 0 = y * ∑ j ∈ s, u j * xiD.getD (j - 1) 0 := by
    rw [Finset.mul_sum]; exact Finset.sum_congr rfl fun j _ => by ring
  have e2 : ∑ j ∈ s, -(z * v j) * xiF.getD (j - 1) 0 = -(z * ∑ j ∈ s, v j * xiF.getD (j - 1) 0) := by
    rw [Finset.mul_sum, ← Finset.sum_neg_distrib]; exact Finset.sum_congr rfl fun j _ => by ring
  have e3 : ∑ i ∈ s, ∑ j ∈ s, y * u i * -(z * v j) * matAt cross i j
      = -(y * z * ∑ i ∈ s, ∑ j ∈ s, u i * v j * matAt cross i j) := by
    rw [Finset.mul_sum, ← Finset.sum_neg_distrib]
    refine Finset.sum_congr rfl fun i _ => ?_
    rw [Finset.mul_sum, ← Finset.sum_neg_distrib]
    exact Finset.sum_congr rfl fun j _ => by ring
  rw [crossSize, e1, e2, e3]
  have c1 : (2 * (x * (y * ∑ j ∈ s, u j * xiD.getD (j - 1) 0)) : ℝ)
      = (∑ j ∈ s, u j * xiD.getD (j - 1) 0) * (2 * x * y) := by ring
  have c2 : (2 * (x * -(z * ∑ j ∈ s, v j * xiF.getD (j - 1) 0)) : ℝ)
      = -((∑ j ∈ s, v j * xiF.getD (j - 1) 0) * (2 * x * z)) := by ring
  have c3 : (2 * -(y * z * ∑ i ∈ s, ∑ j ∈ s, u i * v j * matAt cross i j) : ℝ)
      = -((∑ i ∈ s, ∑ j ∈ s, u i * v j * matAt cross i j) * (2 * y * z)) := by ring
  have am : ∀ a {b : ℝ}, 0 ≤ b → |a * b| = |a| * b := fun a b hb => by rw [abs_mul, abs_of_nonneg hb]
  rw [c1, c2, c3, abs_neg, abs_neg, am _ (by positivity), am _ (by positivity), am _ (by positivity)]

/-! ## The segments together -/

theorem integral_of_eq_Ioo {a b : ℝ} (hab : a ≤ b) {g G : ℝ → ℝ} (hG : ContinuousOn G (Set.Icc a b))
    (h : ∀ t ∈ Set.Ioo a b, g t = G t) :
    IntervalIntegrable g volume a b ∧ ∫ t in a..b, g t = ∫ t in a..b, G t := by
  have hi : IntervalIntegrable G volume a b := by
    refine ContinuousOn.intervalIntegrable ?_
    rwa [Set.uIcc_of_le hab]
  have hae : ∀ᵐ t ∂volume.restrict (Set.Ioc a b), G t = g t := by
    have : ∀ᵐ t ∂volume.restrict (Set.Ioo a b), G t = g t := by
      filter_upwards [ae_restrict_mem measurableSet_Ioo] with t ht using (h t ht).symm
    rwa [Measure.restrict_congr_set Ioo_ae_eq_Ioc] at this
  constructor
  · refine hi.congr_ae ?_
    rwa [Set.uIoc_of_le hab]
  · rw [intervalIntegral.integral_of_le hab, intervalIntegral.integral_of_le hab]
    exact (integral_congr_ae hae).symm

theorem tiles_near {T : ℝ} (F : Segment → ℝ → ℝ) (G E : Segment → ℝ → ℝ) (g e : ℝ → ℝ) (segs : List Segment) :
    ∀ prev, Tiles T prev segs →
      (∀ s ∈ segs, ContinuousOn (G s) (Set.Icc (s.tau - s.length) s.tau)
        ∧ ContinuousOn (E s) (Set.Icc (s.tau - s.length) s.tau)
        ∧ (∀ t ∈ Set.Icc (s.tau - s.length) s.tau, |F s t - G s t| ≤ E s t)
        ∧ ∀ t ∈ Set.Ioo (s.tau - s.length) s.tau, g t = G s t ∧ e t = E s t) →
      IntervalIntegrable g volume prev T ∧ IntervalIntegrable e volume prev T ∧
        ∀ ε > 0, ∃ N, ∀ m ≥ N, |(segs.map fun s => simpsonOn m (s.tau - s.length) s.tau (F s)).sum
          - ∫ t in prev..T, g t| ≤ (∫ t in prev..T, e t) + ε := by
  induction segs with
  | nil =>
    intro prev ht _
    rw [Tiles] at ht
    subst ht
    refine ⟨by simp, by simp, fun ε hε => ⟨0, fun m _ => ?_⟩⟩
    simp [hε.le]
  | cons s rest ih =>
    rintro prev ⟨t1, t2, t3⟩ hs
    obtain ⟨i1, i2, i3⟩ := ih s.tau t3 fun s' hs' => hs s' (List.mem_cons_of_mem _ hs')
    obtain ⟨c1, c2, c3, c4⟩ := hs s List.mem_cons_self
    have ep : s.tau - s.length = prev := by rw [t2]; ring
    rw [ep] at c1 c2 c3 c4
    obtain ⟨g1, g2⟩ := integral_of_eq_Ioo t1.le c1 fun t ht => (c4 t ht).1
    obtain ⟨e1, e2⟩ := integral_of_eq_Ioo t1.le c2 fun t ht => (c4 t ht).2
    refine ⟨g1.trans i1, e1.trans i2, fun ε hε => ?_⟩
    obtain ⟨N1, h1⟩ := simpsonOn_near t1.le c1 c2 c3 (half_pos hε)
    obtain ⟨N2, h2⟩ := i3 (ε / 2) (half_pos hε)
    refine ⟨max N1 N2, fun m hm => ?_⟩
    have k1 := h1 m (le_trans (le_max_left _ _) hm)
    have k2 := h2 m (le_trans (le_max_right _ _) hm)
    rw [List.map_cons, List.sum_cons, ep, ← intervalIntegral.integral_add_adjacent_intervals g1 i1,
      ← intervalIntegral.integral_add_adjacent_intervals e1 i2, g2, e2]
    have := abs_add_le (simpsonOn m prev s.tau (F s) - ∫ t in prev..s.tau, G s t)
      ((rest.map fun s => simpsonOn m (s.tau - s.length) s.tau (F s)).sum - ∫ t in s.tau..T, g t)
    rw [show simpsonOn m prev s.tau (F s) + (rest.map fun s => simpsonOn m (s.tau - s.length) s.tau (F s)).sum
        - ((∫ t in prev..s.tau, G s t) + ∫ t in s.tau..T, g t)
      = (simpsonOn m prev s.tau (F s) - ∫ t in prev..s.tau, G s t)
        + ((rest.map fun s => simpsonOn m (s.tau - s.length) s.tau (F s)).sum - ∫ t in s.tau..T, g t) by ring]
    linarith

/-! ## FX-HLMM1 -/

theorem withSimpsonSteps_same {p : HlmmParams} {T : ℝ} {segs : List Segment} {m m' : ℕ} (hm : 0 < m')
    (h : HlmmChf.withSimpsonSteps p T (2 * m) = .ok ⟨p, T, segs, 2 * m⟩) :
    HlmmChf.withSimpsonSteps p T (2 * m') = .ok ⟨p, T, segs, 2 * m'⟩ := by
  rw [HlmmChf.withSimpsonSteps] at h ⊢
  split at h
  · rename_i c
    rw [if_pos ⟨⟨by omega, by omega⟩, c.2⟩]
    obtain ⟨l, e1, h⟩ := bind_eq_ok.1 h
    obtain ⟨s, e2, h⟩ := bind_eq_ok.1 h
    rw [e1, ok_bind, e2, ok_bind]
    have := Outcome.ok.inj h
    simp only [HlmmChf.mk.injEq] at this
    rw [this.2.2.1]
  · cases h

theorem meanCross_form {p : HlmmParams} (hL : ∀ j, 1 ≤ j → j ≤ p.tenor.n →
      1 + (p.tenor.T j - p.tenor.T (j - 1)) * p.tenor.L j ≠ 0) {t : ℝ} {a : ℕ} (ha : 1 ≤ a)
    (hs : openLibors p.tenor t = Finset.Icc a p.tenor.n) :
    p.meanCross t = crossForm p (p.heston.rootMean t) (p.domestic.cir.rootMean t) (p.foreign.cir.rootMean t) a := by
  have e : ∀ l : DdSvLmm, ∀ j ∈ Finset.Icc a p.tenor.n, loading l p.tenor j = psiVal l p.tenor j := by
    intro l j hj
    rw [Finset.mem_Icc] at hj
    exact (psiVal_eq_loading l _ j (hL j (by omega) hj.2)).symm
  rw [HlmmParams.meanCross, hs, crossCov_scale, crossForm]
  congr 1
  · congr 1
    · congr 1
      exact Finset.sum_congr rfl fun j hj => by rw [e _ j hj]
    · congr 1
      exact Finset.sum_congr rfl fun j hj => by rw [e _ j hj]
  · congr 1
    exact Finset.sum_congr rfl fun i hi => Finset.sum_congr rfl fun j hj => by rw [e _ i hi, e _ j hj]

/-- The sum of the sizes with the entries of `psi`. -/
noncomputable def crossFormSize (p : HlmmParams) (x y z : ℝ) (a : ℕ) : ℝ :=
  |∑ j ∈ Finset.Icc a p.tenor.n, psiVal p.domestic p.tenor j * p.correlations.xiD.getD (j - 1) 0|
      * (2 * x * y)
    + |∑ j ∈ Finset.Icc a p.tenor.n, psiVal p.foreign p.tenor j * p.correlations.xiF.getD (j - 1) 0|
      * (2 * x * z)
    + |∑ j ∈ Finset.Icc a p.tenor.n, ∑ k ∈ Finset.Icc a p.tenor.n,
        psiVal p.domestic p.tenor j * psiVal p.foreign p.tenor k * matAt p.correlations.cross j k|
      * (2 * y * z)

theorem meanCrossSize_form {p : HlmmParams} (hL : ∀ j, 1 ≤ j → j ≤ p.tenor.n →
      1 + (p.tenor.T j - p.tenor.T (j - 1)) * p.tenor.L j ≠ 0) {t : ℝ} {a : ℕ} (ha : 1 ≤ a)
    (hs : openLibors p.tenor t = Finset.Icc a p.tenor.n) :
    p.meanCrossSize t
      = crossFormSize p (p.heston.rootMean t) (p.domestic.cir.rootMean t) (p.foreign.cir.rootMean t) a := by
  have e : ∀ l : DdSvLmm, ∀ j ∈ Finset.Icc a p.tenor.n, loading l p.tenor j = psiVal l p.tenor j := by
    intro l j hj
    rw [Finset.mem_Icc] at hj
    exact (psiVal_eq_loading l _ j (hL j (by omega) hj.2)).symm
  rw [HlmmParams.meanCrossSize, hs, crossSize_scale _ _ _ _ _ _ (rootMean_nonneg _) (rootMean_nonneg _)
    (rootMean_nonneg _), crossFormSize]
  congr 1
  · congr 1
    · congr 2
      exact Finset.sum_congr rfl fun j hj => by rw [e _ j hj]
    · congr 2
      exact Finset.sum_congr rfl fun j hj => by rw [e _ j hj]
  · congr 2
    exact Finset.sum_congr rfl fun i hi => Finset.sum_congr rfl fun j hj => by rw [e _ i hi, e _ j hj]

/-- **C83.** The component `A` of the FX-HLMM1 characteristic function is the integral of
`κθ C + λ_d v_d D_d + λ_f v_f D_f` plus `((iu)² - iu)/2` times the integral of the covariances at the mean
roots of the variances, up to an error that with enough Simpson steps is at most `2w + w²` times the
integral of the sizes of the covariances, plus any `ε`; `w` is the relative error of `sqrt_mean`.  The
segments do not depend on the number of steps. -/
theorem C83_hlmm {p : HlmmParams} (h : p.tenor.Ordered) (hv : p.Valid)
    (hcd : UnitSymm p.domestic.liborCorr p.tenor.n) (hcf : UnitSymm p.foreign.liborCorr p.tenor.n)
    (hpd : ∀ w, 0 ≤ quadOn p.domestic.liborCorr w (Finset.Icc 1 p.tenor.n))
    (hpf : ∀ w, 0 ≤ quadOn p.foreign.liborCorr w (Finset.Icc 1 p.tenor.n))
    (hn : 0 < p.tenor.n) (h0 : p.tenor.T 0 = 0 ∨ 1 / 10 ^ 12 < p.tenor.T 0)
    (hL : ∀ j, 1 ≤ j → j ≤ p.tenor.n → 1 + (p.tenor.T j - p.tenor.T (j - 1)) * p.tenor.L j ≠ 0)
    (hr : |p.correlations.xiSigma| ≤ 1) (hx : p.heston.Fine) (hy : p.domestic.cir.Fine)
    (hz : p.foreign.cir.Fine) {T : ℝ} (hT : 0 < T) {w : ℝ} (hw : 0 ≤ w) (wx : p.heston.RootWithin w T)
    (wy : p.domestic.cir.RootWithin w T) (wz : p.foreign.cir.RootWithin w T) :
    ∃ segs : List Segment, Tiles T 0 segs ∧
      IntervalIntegrable p.meanCross volume 0 T ∧ IntervalIntegrable p.meanCrossSize volume 0 T ∧
      ∀ u : ℝ, ∃ Dd Df : ℝ → ℂ,
      SolvesD segs Segment.ad p.domestic.lambda p.domestic.eta T ((Complex.I * u) ^ 2 - Complex.I * u) Dd
      ∧ SolvesD segs Segment.af p.foreign.lambda p.foreign.eta T ((Complex.I * u) ^ 2 - Complex.I * u) Df
      ∧ (∀ t ∈ Set.Icc 0 T, (Dd t).re ≤ 0 ∧ (Df t).re ≤ 0)
      ∧ ∀ ε > 0, ∃ N, ∀ m ≥ N, 0 < m → ∃ A, HlmmChf.withSimpsonSteps p T (2 * m) = .ok ⟨p, T, segs, 2 * m⟩
        ∧ (HlmmChf.mk p T segs (2 * m)).components u = .ok ⟨A, Complex.I * u,
          hestonCFn u p.heston.kappa p.heston.gamma p.correlations.xiSigma T, Dd T, Df T⟩
        ∧ ‖A - (((p.heston.kappa * p.heston.theta : ℝ) : ℂ) * (∫ t in (0 : ℝ)..T,
              hestonCFn u p.heston.kappa p.heston.gamma p.correlations.xiSigma t)
            + ((p.domestic.lambda * p.domestic.v0 : ℝ) : ℂ) * (∫ t in (0 : ℝ)..T, Dd t)
            + ((p.foreign.lambda * p.foreign.v0 : ℝ) : ℂ) * (∫ t in (0 : ℝ)..T, Df t)
            + ((Complex.I * u) ^ 2 - Complex.I * u) / 2 * ((∫ t in (0 : ℝ)..T, p.meanCross t : ℝ) : ℂ))‖
          ≤ ‖((Complex.I * u) ^ 2 - Complex.I * u) / 2‖
            * ((2 * w + w ^ 2) * (∫ t in (0 : ℝ)..T, p.meanCrossSize t) + ε) := by
  obtain ⟨segs, h1, h2, h3⟩ := withSimpsonSteps_segments h hv hn h0 hT one_pos
  have hk := hx.kappa
  -- the quadrature
  set F : Segment → ℝ → ℝ := fun s t => crossForm p (phiOf p.heston (T - t)) (phiOf p.domestic.cir (T - t))
      (phiOf p.foreign.cir (T - t)) s.startIdx with hF
  have cont : ∀ q : Cir, q.Fine → ∀ s ∈ segs,
      ContinuousOn (fun t => q.rootMean (T - t)) (Set.Icc (s.tau - s.length) s.tau) := by
    intro q hq s hs
    refine (C83_root_continuous hq).comp (by fun_prop) fun t ht => ?_
    have := (h3 s hs).2.2.2.1
    exact sub_nonneg.2 (ht.2.trans this)
  have size : ∀ s ∈ segs, ContinuousOn (fun t => crossFormSize p (p.heston.rootMean (T - t))
      (p.domestic.cir.rootMean (T - t)) (p.foreign.cir.rootMean (T - t)) s.startIdx)
      (Set.Icc (s.tau - s.length) s.tau) := by
    intro s hs
    have cx := cont _ hx s hs
    have cy := cont _ hy s hs
    have cz := cont _ hz s hs
    unfold crossFormSize; fun_prop
  have sizeEq : ∀ s ∈ segs, ∀ t ∈ Set.Ioo (s.tau - s.length) s.tau, p.meanCrossSize (T - t)
      = crossFormSize p (p.heston.rootMean (T - t)) (p.domestic.cir.rootMean (T - t))
        (p.foreign.cir.rootMean (T - t)) s.startIdx := by
    intro s hs t ht
    obtain ⟨s1, -, -, -, s5, -, -⟩ := h3 s hs
    exact meanCrossSize_form hL s1 (by rw [openLibors_eq h, s5 t ht.1 ht.2])
  obtain ⟨j1, -, -⟩ := tiles_near (fun s t => crossFormSize p (p.heston.rootMean (T - t))
      (p.domestic.cir.rootMean (T - t)) (p.foreign.cir.rootMean (T - t)) s.startIdx)
    (fun s t => crossFormSize p (p.heston.rootMean (T - t))
      (p.domestic.cir.rootMean (T - t)) (p.foreign.cir.rootMean (T - t)) s.startIdx) (fun _ _ => 0)
    (fun t => p.meanCrossSize (T - t)) (fun _ => 0) segs 0 h2
    (fun s hs => ⟨size s hs, continuousOn_const, fun t _ => by rw [sub_self, abs_zero],
      fun t ht => ⟨sizeEq s hs t ht, rfl⟩⟩)
  obtain ⟨i1, -, i3⟩ := tiles_near F
    (fun s t => crossForm p (p.heston.rootMean (T - t)) (p.domestic.cir.rootMean (T - t))
      (p.foreign.cir.rootMean (T - t)) s.startIdx)
    (fun s t => (2 * w + w ^ 2) * crossFormSize p (p.heston.rootMean (T - t)) (p.domestic.cir.rootMean (T - t))
      (p.foreign.cir.rootMean (T - t)) s.startIdx)
    (fun t => p.meanCross (T - t)) (fun t => (2 * w + w ^ 2) * p.meanCrossSize (T - t)) segs 0 h2
    (by
      intro s hs
      obtain ⟨s1, s2, s3, s4, s5, -, -⟩ := h3 s hs
      have cx := cont _ hx s hs
      have cy := cont _ hy s hs
      have cz := cont _ hz s hs
      refine ⟨?_, ?_, fun t ht => ?_, fun t ht => ?_⟩
      · unfold crossForm; fun_prop
      · exact continuousOn_const.mul (size s hs)
      · have hm : T - t ∈ Set.Icc 0 T := ⟨by linarith [ht.2], by linarith [ht.1]⟩
        exact triple_near (rootMean_nonneg _) (rootMean_nonneg _) (rootMean_nonneg _) hw
          (RootWithin.phi hk wx hm) (RootWithin.phi hy.kappa wy hm) (RootWithin.phi hz.kappa wz hm)
      · have ho : openLibors p.tenor (T - t) = Finset.Icc s.startIdx p.tenor.n := by
          rw [openLibors_eq h, s5 t ht.1 ht.2]
        exact ⟨meanCross_form hL s1 ho, by rw [sizeEq s hs t ht]⟩)
  have flip : ∀ g : ℝ → ℝ, ∫ t in (0 : ℝ)..T, g (T - t) = ∫ t in (0 : ℝ)..T, g t := fun g => by
    rw [intervalIntegral.integral_comp_sub_left, sub_self, sub_zero]
  have back : ∀ g : ℝ → ℝ, IntervalIntegrable (fun t => g (T - t)) volume 0 T →
      IntervalIntegrable g volume 0 T := fun g hg => by
    have := (hg.comp_sub_left T).symm
    simpa using this
  refine ⟨segs, h2, back _ i1, back _ j1, fun u => ?_⟩
  have hqe : (Complex.I * (u : ℂ)) ^ 2 - Complex.I * u = chfQ u := by unfold chfQ; ring
  have had : ∀ s ∈ segs, 0 ≤ s.ad := by
    intro s hs
    obtain ⟨s1, -, -, -, -, s6, -⟩ := h3 s hs
    rw [s6, triForm_eq _ _ _ hcd _ _ s1 rfl]
    exact quadOn_nonneg hpd _ s1
  have haf : ∀ s ∈ segs, 0 ≤ s.af := by
    intro s hs
    obtain ⟨s1, -, -, -, -, -, s7⟩ := h3 s hs
    rw [s7, triForm_eq _ _ _ hcf _ _ s1 rfl]
    exact quadOn_nonneg hpf _ s1
  obtain ⟨Dd, d1, d2, d3, d4, d5⟩ := path_exists (v0 := p.domestic.v0) hv.1.2.2.2.2.2.1
    hv.1.2.2.2.2.2.2.1.ne' Segment.ad u segs 0 0 h2 le_rfl had
  obtain ⟨Df, f1, f2, f3, f4, f5⟩ := path_exists (v0 := p.foreign.v0) hv.2.1.2.2.2.2.2.1
    hv.2.1.2.2.2.2.2.2.1.ne' Segment.af u segs 0 0 h2 le_rfl haf
  refine ⟨Dd, Df, ⟨d1, d2, by rw [hqe]; exact d4⟩, ⟨f1, f2, by rw [hqe]; exact f4⟩,
    fun t ht => ⟨d3 t ht, f3 t ht⟩, fun ε hε => ?_⟩
  obtain ⟨N, hN⟩ := i3 ε hε
  refine ⟨N, fun m hm hm0 => ?_⟩
  refine ⟨((p.heston.kappa * p.heston.theta : ℝ) : ℂ) * (∫ t in (0 : ℝ)..T,
              hestonCFn u p.heston.kappa p.heston.gamma p.correlations.xiSigma t)
            + ((p.domestic.lambda * p.domestic.v0 : ℝ) : ℂ) * (∫ t in (0 : ℝ)..T, Dd t)
            + ((p.foreign.lambda * p.foreign.v0 : ℝ) : ℂ) * (∫ t in (0 : ℝ)..T, Df t)
            + ((Complex.I * u) ^ 2 - Complex.I * u) / 2
              * (((segs.map fun s => simpsonOn m (s.tau - s.length) s.tau (F s)).sum : ℝ) : ℂ),
    withSimpsonSteps_same hm0 h1, ?_, ?_⟩
  · rw [HlmmChf.components]
    dsimp only
    rw [pass_fold h hv hk T segs hm0 u segs ⟨0, 0, 0, 0⟩ h2 fun s hs => (h3 s hs).1, ok_bind]
    dsimp only
    rw [d5, f5, hestonAIncrement_eq hk hx.pos.2.1 hr u le_rfl hT.le, zero_add, hqe]
    rfl
  · have k := hN m hm
    rw [flip p.meanCross, intervalIntegral.integral_const_mul, flip p.meanCrossSize] at k
    rw [add_sub_add_left_eq_sub, ← mul_sub, norm_mul, ← Complex.ofReal_sub, Complex.norm_real, Real.norm_eq_abs]
    exact mul_le_mul_of_nonneg_left k (norm_nonneg _)

/-- **C83.** With parameters away from the thresholds of the code the error of `A` in the limit is at most
`‖(iu)² - iu‖/2` times 1/124 of the integral of the sizes of the covariances. -/
theorem C83_hlmm_limit {p : HlmmParams} (h : p.tenor.Ordered) (hv : p.Valid)
    (hcd : UnitSymm p.domestic.liborCorr p.tenor.n) (hcf : UnitSymm p.foreign.liborCorr p.tenor.n)
    (hpd : ∀ w, 0 ≤ quadOn p.domestic.liborCorr w (Finset.Icc 1 p.tenor.n))
    (hpf : ∀ w, 0 ≤ quadOn p.foreign.liborCorr w (Finset.Icc 1 p.tenor.n))
    (hn : 0 < p.tenor.n) (h0 : p.tenor.T 0 = 0 ∨ 1 / 10 ^ 12 < p.tenor.T 0)
    (hL : ∀ j, 1 ≤ j → j ≤ p.tenor.n → 1 + (p.tenor.T j - p.tenor.T (j - 1)) * p.tenor.L j ≠ 0)
    (hr : |p.correlations.xiSigma| ≤ 1) (hx : p.heston.Fine) (hy : p.domestic.cir.Fine)
    (hz : p.foreign.cir.Fine) {T : ℝ} (hT : 0 < T) (u : ℝ) :
    ∃ segs : List Segment, Tiles T 0 segs ∧ ∃ Dd Df : ℝ → ℂ,
      SolvesD segs Segment.ad p.domestic.lambda p.domestic.eta T ((Complex.I * u) ^ 2 - Complex.I * u) Dd
      ∧ SolvesD segs Segment.af p.foreign.lambda p.foreign.eta T ((Complex.I * u) ^ 2 - Complex.I * u) Df
      ∧ ∀ ε > 0, ∃ N, ∀ m ≥ N, 0 < m → ∃ A q, HlmmChf.withSimpsonSteps p T (2 * m) = .ok q
        ∧ q.segments = segs ∧ q.components u = .ok ⟨A, Complex.I * u,
          hestonCFn u p.heston.kappa p.heston.gamma p.correlations.xiSigma T, Dd T, Df T⟩
        ∧ ‖A - (((p.heston.kappa * p.heston.theta : ℝ) : ℂ) * (∫ t in (0 : ℝ)..T,
              hestonCFn u p.heston.kappa p.heston.gamma p.correlations.xiSigma t)
            + ((p.domestic.lambda * p.domestic.v0 : ℝ) : ℂ) * (∫ t in (0 : ℝ)..T, Dd t)
            + ((p.foreign.lambda * p.foreign.v0 : ℝ) : ℂ) * (∫ t in (0 : ℝ)..T, Df t)
            + ((Complex.I * u) ^ 2 - Complex.I * u) / 2 * ((∫ t in (0 : ℝ)..T, p.meanCross t : ℝ) : ℂ))‖
          ≤ ‖((Complex.I * u) ^ 2 - Complex.I * u) / 2‖
            * (1 / 124 * (∫ t in (0 : ℝ)..T, p.meanCrossSize t) + ε) := by
  obtain ⟨segs, a1, -, -, a4⟩ := C83_hlmm h hv hcd hcf hpd hpf hn h0 hL hr hx hy hz hT (w := 1 / 249)
    (by norm_num) (C83_root_error hx T) (C83_root_error hy T) (C83_root_error hz T)
  obtain ⟨Dd, Df, b1, b2, -, b3⟩ := a4 u
  refine ⟨segs, a1, Dd, Df, b1, b2, fun ε hε => ?_⟩
  obtain ⟨N, hN⟩ := b3 ε hε
  refine ⟨N, fun m hm hm0 => ?_⟩
  obtain ⟨A, c1, c2, c3⟩ := hN m hm hm0
  refine ⟨A, _, c1, rfl, c2, c3.trans (mul_le_mul_of_nonneg_left (add_le_add ?_ le_rfl) (norm_nonneg _))⟩
  refine mul_le_mul_of_nonneg_right (by norm_num) (intervalIntegral.integral_nonneg hT.le fun t _ => ?_)
  rw [HlmmParams.meanCrossSize, crossSize]
  positivity

theorem tenth_tiny {x : ℝ} (h : 1 / 10 ≤ x) : 1 / 10 ^ 300 ≤ x := by
  refine le_trans ?_ h
  rw [show (10 : ℝ) ^ 300 = 10 * 10 ^ 299 by rw [← pow_succ']]
  exact one_div_le_one_div_of_le (by norm_num) (le_mul_of_one_le_right (by norm_num) (one_le_pow₀ (by norm_num)))

theorem exHlmm_libor : ∀ j, 1 ≤ j → j ≤ exHlmm.tenor.n →
    1 + (exHlmm.tenor.T j - exHlmm.tenor.T (j - 1)) * exHlmm.tenor.L j ≠ 0 := by
  intro j h1 h2
  have h2 : j ≤ 2 := h2
  interval_cases j <;> norm_num [exHlmm, exTenor, LiborTenor.T, LiborTenor.L]

theorem exHlmm_fine : exHlmm.heston.Fine ∧ exHlmm.domestic.cir.Fine ∧ exHlmm.foreign.cir.Fine := by
  refine ⟨⟨?_, tenth_tiny ?_, ?_, tenth_tiny ?_⟩, ⟨?_, tenth_tiny ?_, ?_, tenth_tiny ?_⟩,
    ⟨?_, tenth_tiny ?_, ?_, tenth_tiny ?_⟩⟩ <;> norm_num [exHlmm, exLmm, DdSvLmm.cir]

example (u : ℝ) : ∃ segs, Tiles 2 0 segs ∧ ∃ N, ∀ m ≥ N, 0 < m →
    ∃ A q, HlmmChf.withSimpsonSteps exHlmm 2 (2 * m) = .ok q ∧ q.segments = segs ∧
      ∃ c, q.components u = .ok c ∧ c.a = A := by
  obtain ⟨segs, h1, _, _, -, -, h2⟩ := C83_hlmm_limit (p := exHlmm) exTenor_ordered exHlmm_valid exLmm_symm
    exLmm_symm exLmm_psd exLmm_psd (by decide)
    (.inl (by simp [exHlmm, exTenor, LiborTenor.T])) exHlmm_libor
    (by norm_num [exHlmm, abs_of_neg]) exHlmm_fine.1 exHlmm_fine.2.1 exHlmm_fine.2.2 (T := 2) (by norm_num) u
  obtain ⟨N, h3⟩ := h2 1 one_pos
  refine ⟨segs, h1, N, fun m hm hm0 => ?_⟩
  obtain ⟨A, q, a1, a2, a3, -⟩ := h3 m hm hm0
  exact ⟨A, q, a1, a2, _, a3, rfl⟩

/-! ## FX-FMM1 -/

theorem withResolution_same {p : FmmParams} {T : ℝ} {segs : List Segment} {n m m' : ℕ} (hm : 0 < m')
    (h : FmmChf.withResolution p T n (2 * m) = .ok (fmmBuilt p T segs n m)) :
    FmmChf.withResolution p T n (2 * m') = .ok (fmmBuilt p T segs n m') := by
  rw [FmmChf.withResolution] at h ⊢
  split at h
  · rename_i c
    rw [if_pos ⟨c.1, c.2.1, ⟨by omega, by omega⟩, c.2.2.2⟩]
    obtain ⟨l, e1, h⟩ := bind_eq_ok.1 h
    obtain ⟨s, e2, h⟩ := bind_eq_ok.1 h
    obtain ⟨b, e3, h⟩ := bind_eq_ok.1 h
    obtain ⟨b', e4, h⟩ := bind_eq_ok.1 h
    rw [e1, ok_bind, e2, ok_bind, e3, ok_bind, e4, ok_bind]
    have := Outcome.ok.inj h
    simp only [fmmBuilt, FmmChf.mk.injEq] at this
    rw [this.2.2.1, this.2.2.2.1, this.2.2.2.2.1]
    rfl
  · cases h

theorem fmmMeanCross_form {p : FmmParams} (hL : ∀ j, 1 ≤ j → j ≤ p.tenor.m →
      1 + (p.tenor.T j - p.tenor.T (j - 1)) * p.tenor.R j ≠ 0) (t : ℝ) :
    p.meanCross t = fmmCross p t (p.heston.rootMean t) (p.domestic.cir.rootMean t) (p.foreign.cir.rootMean t) 1 := by
  have e : ∀ l : FmmSide, ∀ j ∈ Finset.Icc 1 p.tenor.m, fmmLoading l p.tenor t j = wVal l p.tenor t j := by
    intro l j hj
    rw [Finset.mem_Icc] at hj
    exact (wVal_eq_loading l _ t j (hL j hj.1 hj.2)).symm
  rw [FmmParams.meanCross, crossCov_scale, fmmCross]
  congr 1
  · congr 1
    · congr 1
      exact Finset.sum_congr rfl fun j hj => by rw [e _ j hj]
    · congr 1
      exact Finset.sum_congr rfl fun j hj => by rw [e _ j hj]
  · congr 1
    exact Finset.sum_congr rfl fun i hi => Finset.sum_congr rfl fun j hj => by rw [e _ i hi, e _ j hj]

/-- The sum of the sizes with the entries of `psi_at`. -/
noncomputable def fmmCrossSize (p : FmmParams) (t x y z : ℝ) : ℝ :=
  |∑ j ∈ Finset.Icc 1 p.tenor.m, wVal p.domestic p.tenor t j * p.correlations.xiD.getD (j - 1) 0|
      * (2 * x * y)
    + |∑ j ∈ Finset.Icc 1 p.tenor.m, wVal p.foreign p.tenor t j * p.correlations.xiF.getD (j - 1) 0|
      * (2 * x * z)
    + |∑ j ∈ Finset.Icc 1 p.tenor.m, ∑ k ∈ Finset.Icc 1 p.tenor.m,
        wVal p.domestic p.tenor t j * wVal p.foreign p.tenor t k * matAt p.correlations.cross j k|
      * (2 * y * z)

theorem fmmMeanCrossSize_form {p : FmmParams} (hL : ∀ j, 1 ≤ j → j ≤ p.tenor.m →
      1 + (p.tenor.T j - p.tenor.T (j - 1)) * p.tenor.R j ≠ 0) (t : ℝ) :
    p.meanCrossSize t
      = fmmCrossSize p t (p.heston.rootMean t) (p.domestic.cir.rootMean t) (p.foreign.cir.rootMean t) := by
  have e : ∀ l : FmmSide, ∀ j ∈ Finset.Icc 1 p.tenor.m, fmmLoading l p.tenor t j = wVal l p.tenor t j := by
    intro l j hj
    rw [Finset.mem_Icc] at hj
    exact (wVal_eq_loading l _ t j (hL j hj.1 hj.2)).symm
  rw [FmmParams.meanCrossSize, crossSize_scale _ _ _ _ _ _ (rootMean_nonneg _) (rootMean_nonneg _)
    (rootMean_nonneg _), fmmCrossSize]
  congr 1
  · congr 1
    · congr 2
      exact Finset.sum_congr rfl fun j hj => by rw [e _ j hj]
    · congr 2
      exact Finset.sum_congr rfl fun j hj => by rw [e _ j hj]
  · congr 2
    exact Finset.sum_congr rfl fun i hi => Finset.sum_congr rfl fun j hj => by rw [e _ i hi, e _ j hj]

theorem continuous_wVal (l : FmmSide) (q : FmmTenor) (j : ℕ) : Continuous fun t => wVal l q t j := by
  unfold wVal ahead
  fun_prop

/-- The rates before the start index of a segment have ended on the whole segment. -/
theorem subOk_ended {p : FmmParams} {T : ℝ} {n : ℕ} {s : Segment} (h : p.tenor.Ordered)
    (hs : SubOk p T n s) (hT : T ≤ p.tenor.T p.tenor.m) {t : ℝ} (ht : t ∈ Set.Icc (s.tau - s.length) s.tau)
    {j : ℕ} (h1 : 1 ≤ j) (h2 : j < s.startIdx) : j < p.tenor.m ∧ p.tenor.T j ≤ T - t := by
  obtain ⟨s1, s2, -, -, s5, a, b, ⟨-, -, ha0, hab, hbT, hgap⟩, -, ha, hb⟩ := hs
  obtain ⟨-, m1, m2, m3, m4⟩ := FmmTenor.eta_spec h (T - (s.tau - s.length / 2))
  rw [← s2] at m1 m2 m3 m4
  have hle : s.startIdx ≤ p.tenor.m := by
    by_contra hc
    have := m3 p.tenor.m h.1 (by omega)
    linarith
  have k1 := m3 j h1 h2
  refine ⟨by omega, ?_⟩
  by_contra hc
  have := ht.2
  exact hgap j (by omega) ⟨by linarith, by linarith⟩

/-- **C83.** The component `A` of the FX-FMM1 characteristic function is the integral of
`κθ C + λ_d v_d D_d + λ_f v_f D_f` plus `((iu)² - iu)/2` times the integral of the covariances at the mean
roots of the variances, up to an error that with enough Simpson steps is at most `2w + w²` times the
integral of the sizes of the covariances, plus any `ε`; `w` is the relative error of `sqrt_mean`.  The
segments do not depend on the number of steps. -/
theorem C83_fmm {p : FmmParams} (h : p.tenor.Ordered) (hv : p.Valid)
    (hcd : UnitSymm p.domestic.rateCorr p.tenor.m) (hcf : UnitSymm p.foreign.rateCorr p.tenor.m)
    (hpd : ∀ w, 0 ≤ quadOn p.domestic.rateCorr w (Finset.Icc 1 p.tenor.m))
    (hpf : ∀ w, 0 ≤ quadOn p.foreign.rateCorr w (Finset.Icc 1 p.tenor.m))
    (h0 : p.tenor.T 0 = 0 ∨ 1 / 10 ^ 12 < p.tenor.T 0)
    (hL : ∀ j, 1 ≤ j → j ≤ p.tenor.m → 1 + (p.tenor.T j - p.tenor.T (j - 1)) * p.tenor.R j ≠ 0)
    (hr : |p.correlations.xiSigma| ≤ 1) (hx : p.heston.Fine) (hy : p.domestic.cir.Fine)
    (hz : p.foreign.cir.Fine) {T : ℝ} (hT : 0 < T) (hTm : T ≤ p.tenor.T p.tenor.m)
    {n : ℕ} (hn : 0 < n) {w : ℝ} (hw : 0 ≤ w) (wx : p.heston.RootWithin w T)
    (wy : p.domestic.cir.RootWithin w T) (wz : p.foreign.cir.RootWithin w T) :
    ∃ segs : List Segment, Tiles T 0 segs ∧
      IntervalIntegrable p.meanCross volume 0 T ∧ IntervalIntegrable p.meanCrossSize volume 0 T ∧
      ∀ u : ℝ, ∃ Dd Df : ℝ → ℂ,
      SolvesD segs Segment.ad p.domestic.lambda p.domestic.eta T ((Complex.I * u) ^ 2 - Complex.I * u) Dd
      ∧ SolvesD segs Segment.af p.foreign.lambda p.foreign.eta T ((Complex.I * u) ^ 2 - Complex.I * u) Df
      ∧ (∀ t ∈ Set.Icc 0 T, (Dd t).re ≤ 0 ∧ (Df t).re ≤ 0)
      ∧ ∀ ε > 0, ∃ N, ∀ m ≥ N, 0 < m → ∃ A, ∃ q, FmmChf.withResolution p T n (2 * m) = .ok q ∧ q.subSegments = segs
        ∧ q.components u = .ok ⟨A, Complex.I * u,
          hestonCFn u p.heston.kappa p.heston.gamma p.correlations.xiSigma T, Dd T, Df T⟩
        ∧ ‖A - (((p.heston.kappa * p.heston.theta : ℝ) : ℂ) * (∫ t in (0 : ℝ)..T,
              hestonCFn u p.heston.kappa p.heston.gamma p.correlations.xiSigma t)
            + ((p.domestic.lambda * p.domestic.v0 : ℝ) : ℂ) * (∫ t in (0 : ℝ)..T, Dd t)
            + ((p.foreign.lambda * p.foreign.v0 : ℝ) : ℂ) * (∫ t in (0 : ℝ)..T, Df t)
            + ((Complex.I * u) ^ 2 - Complex.I * u) / 2 * ((∫ t in (0 : ℝ)..T, p.meanCross t : ℝ) : ℂ))‖
          ≤ ‖((Complex.I * u) ^ 2 - Complex.I * u) / 2‖
            * ((2 * w + w ^ 2) * (∫ t in (0 : ℝ)..T, p.meanCrossSize t) + ε) := by
  obtain ⟨segs, h1, h2, h3⟩ := withResolution_ok h hv h0 hT hn one_pos
  have hk := hx.kappa
  set F : Segment → ℝ → ℝ := fun s t => fmmCross p (T - t) (phiOf p.heston (T - t)) (phiOf p.domestic.cir (T - t))
      (phiOf p.foreign.cir (T - t)) s.startIdx with hF
  have inside : ∀ s ∈ segs, ∀ t ∈ Set.Icc (s.tau - s.length) s.tau, T - t ∈ Set.Icc 0 T := by
    intro s hs t ht
    obtain ⟨-, -, -, -, -, a, b, ⟨-, -, ha0, -, hbT, -⟩, -, ha, hb⟩ := h3 s hs
    exact ⟨by linarith [ht.2], by linarith [ht.1]⟩
  have cont : ∀ q : Cir, q.Fine → ∀ s ∈ segs,
      ContinuousOn (fun t => q.rootMean (T - t)) (Set.Icc (s.tau - s.length) s.tau) := by
    intro q hq s hs
    exact (C83_root_continuous hq).comp (by fun_prop) fun t ht => (inside s hs t ht).1
  have cw : ∀ (l : FmmSide) (j : ℕ), Continuous fun t => wVal l p.tenor (T - t) j := fun l j =>
    (continuous_wVal l p.tenor j).comp (by fun_prop)
  have c1 : ∀ (l : FmmSide) (x : List ℝ), Continuous fun t =>
      ∑ j ∈ Finset.Icc 1 p.tenor.m, wVal l p.tenor (T - t) j * x.getD (j - 1) 0 := fun l x =>
    continuous_finsetSum _ fun j _ => (cw l j).mul continuous_const
  have c2 : Continuous fun t => ∑ j ∈ Finset.Icc 1 p.tenor.m, ∑ k ∈ Finset.Icc 1 p.tenor.m,
      wVal p.domestic p.tenor (T - t) j * wVal p.foreign p.tenor (T - t) k * matAt p.correlations.cross j k :=
    continuous_finsetSum _ fun j _ => continuous_finsetSum _ fun k _ =>
      ((cw _ j).mul (cw _ k)).mul continuous_const
  have size : ∀ s ∈ segs, ContinuousOn (fun t => fmmCrossSize p (T - t) (p.heston.rootMean (T - t))
      (p.domestic.cir.rootMean (T - t)) (p.foreign.cir.rootMean (T - t)))
      (Set.Icc (s.tau - s.length) s.tau) := by
    intro s hs
    have cx := cont _ hx s hs
    have cy := cont _ hy s hs
    have cz := cont _ hz s hs
    have k1 := (c1 p.domestic p.correlations.xiD).continuousOn (s := Set.Icc (s.tau - s.length) s.tau)
    have k2 := (c1 p.foreign p.correlations.xiF).continuousOn (s := Set.Icc (s.tau - s.length) s.tau)
    have k3 := c2.continuousOn (s := Set.Icc (s.tau - s.length) s.tau)
    unfold fmmCrossSize
    exact ((k1.abs.mul ((continuousOn_const.mul cx).mul cy)).add
      (k2.abs.mul ((continuousOn_const.mul cx).mul cz))).add (k3.abs.mul ((continuousOn_const.mul cy).mul cz))
  obtain ⟨j1, -, -⟩ := tiles_near (fun _ t => fmmCrossSize p (T - t) (p.heston.rootMean (T - t))
      (p.domestic.cir.rootMean (T - t)) (p.foreign.cir.rootMean (T - t)))
    (fun _ t => fmmCrossSize p (T - t) (p.heston.rootMean (T - t))
      (p.domestic.cir.rootMean (T - t)) (p.foreign.cir.rootMean (T - t))) (fun _ _ => 0)
    (fun t => p.meanCrossSize (T - t)) (fun _ => 0) segs 0 h2
    (fun s hs => ⟨size s hs, continuousOn_const, fun t _ => by rw [sub_self, abs_zero],
      fun t ht => ⟨fmmMeanCrossSize_form hL _, rfl⟩⟩)
  obtain ⟨i1, -, i3⟩ := tiles_near F
    (fun _ t => fmmCross p (T - t) (p.heston.rootMean (T - t)) (p.domestic.cir.rootMean (T - t))
      (p.foreign.cir.rootMean (T - t)) 1)
    (fun _ t => (2 * w + w ^ 2) * fmmCrossSize p (T - t) (p.heston.rootMean (T - t))
      (p.domestic.cir.rootMean (T - t)) (p.foreign.cir.rootMean (T - t)))
    (fun t => p.meanCross (T - t)) (fun t => (2 * w + w ^ 2) * p.meanCrossSize (T - t)) segs 0 h2
    (by
      intro s hs
      have cx := cont _ hx s hs
      have cy := cont _ hy s hs
      have cz := cont _ hz s hs
      refine ⟨?_, continuousOn_const.mul (size s hs), fun t ht => ?_, fun t ht => ?_⟩
      · have k1 := (c1 p.domestic p.correlations.xiD).continuousOn (s := Set.Icc (s.tau - s.length) s.tau)
        have k2 := (c1 p.foreign p.correlations.xiF).continuousOn (s := Set.Icc (s.tau - s.length) s.tau)
        have k3 := c2.continuousOn (s := Set.Icc (s.tau - s.length) s.tau)
        unfold fmmCross
        exact ((k1.mul ((continuousOn_const.mul cx).mul cy)).sub
          (k2.mul ((continuousOn_const.mul cx).mul cz))).sub (k3.mul ((continuousOn_const.mul cy).mul cz))
      · have hm := inside s hs t ht
        have e0 : ∀ (l : FmmSide) (j : ℕ), 1 ≤ j → j < s.startIdx → j ≤ p.tenor.m →
            wVal l p.tenor (T - t) j = 0 := fun l j k1 k2 k3 =>
          wVal_past h l k1 k3 (subOk_ended h (h3 s hs) hTm ht k1 k2).2
        rw [hF]
        beta_reduce
        rw [fmmCross_full (h3 s hs).1 (e0 _) (e0 _)]
        exact triple_near (rootMean_nonneg _) (rootMean_nonneg _) (rootMean_nonneg _) hw
          (RootWithin.phi hk wx hm) (RootWithin.phi hy.kappa wy hm) (RootWithin.phi hz.kappa wz hm)
      · exact ⟨fmmMeanCross_form hL _, by rw [fmmMeanCrossSize_form hL]⟩)
  have flip : ∀ g : ℝ → ℝ, ∫ t in (0 : ℝ)..T, g (T - t) = ∫ t in (0 : ℝ)..T, g t := fun g => by
    rw [intervalIntegral.integral_comp_sub_left, sub_self, sub_zero]
  have back : ∀ g : ℝ → ℝ, IntervalIntegrable (fun t => g (T - t)) volume 0 T →
      IntervalIntegrable g volume 0 T := fun g hg => by
    have := (hg.comp_sub_left T).symm
    simpa using this
  refine ⟨segs, h2, back _ i1, back _ j1, fun u => ?_⟩
  have hqe : (Complex.I * (u : ℂ)) ^ 2 - Complex.I * u = chfQ u := by unfold chfQ; ring
  have had : ∀ s ∈ segs, 0 ≤ s.ad := by
    intro s hs
    obtain ⟨s1, -, s6, -⟩ := h3 s hs
    rw [s6, triForm_eq _ _ _ hcd _ _ s1 rfl]
    exact quadOn_nonneg hpd _ s1
  have haf : ∀ s ∈ segs, 0 ≤ s.af := by
    intro s hs
    obtain ⟨s1, -, -, s7, -⟩ := h3 s hs
    rw [s7, triForm_eq _ _ _ hcf _ _ s1 rfl]
    exact quadOn_nonneg hpf _ s1
  obtain ⟨Dd, d1, d2, d3, d4, d5⟩ := path_exists (v0 := p.domestic.v0) hv.1.2.2.2.2.1.1
    hv.1.2.2.2.2.1.2.1.ne' Segment.ad u segs 0 0 h2 le_rfl had
  obtain ⟨Df, f1, f2, f3, f4, f5⟩ := path_exists (v0 := p.foreign.v0) hv.2.1.2.2.2.2.1.1
    hv.2.1.2.2.2.2.1.2.1.ne' Segment.af u segs 0 0 h2 le_rfl haf
  refine ⟨Dd, Df, ⟨d1, d2, by rw [hqe]; exact d4⟩, ⟨f1, f2, by rw [hqe]; exact f4⟩,
    fun t ht => ⟨d3 t ht, f3 t ht⟩, fun ε hε => ?_⟩
  obtain ⟨N, hN⟩ := i3 ε hε
  refine ⟨N, fun m hm hm0 => ?_⟩
  refine ⟨((p.heston.kappa * p.heston.theta : ℝ) : ℂ) * (∫ t in (0 : ℝ)..T,
              hestonCFn u p.heston.kappa p.heston.gamma p.correlations.xiSigma t)
            + ((p.domestic.lambda * p.domestic.v0 : ℝ) : ℂ) * (∫ t in (0 : ℝ)..T, Dd t)
            + ((p.foreign.lambda * p.foreign.v0 : ℝ) : ℂ) * (∫ t in (0 : ℝ)..T, Df t)
            + ((Complex.I * u) ^ 2 - Complex.I * u) / 2
              * (((segs.map fun s => simpsonOn m (s.tau - s.length) s.tau (F s)).sum : ℝ) : ℂ),
    fmmBuilt p T segs n m, withResolution_same hm0 h1, rfl, ?_, ?_⟩
  · rw [FmmChf.components]
    have hp := fmmPass_fold (n := n) h hv hk T segs hm0 u segs ⟨0, 0, 0, 0⟩ h2 fun s hs => (h3 s hs).1
    have hp' : List.foldlM ((fmmBuilt p T segs n m).pass u) ⟨0, 0, 0, 0⟩
      (fmmBuilt p T segs n m).subSegments = _ := hp
    rw [hp', ok_bind]
    dsimp only
    rw [d5, f5, hestonAIncrement_eq hk hx.pos.2.1 hr u le_rfl hT.le, zero_add, hqe]
    rfl
  · have k := hN m hm
    rw [flip p.meanCross, intervalIntegral.integral_const_mul, flip p.meanCrossSize] at k
    rw [add_sub_add_left_eq_sub, ← mul_sub, norm_mul, ← Complex.ofReal_sub, Complex.norm_real, Real.norm_eq_abs]
    exact mul_le_mul_of_nonneg_left k (norm_nonneg _)

/-- **C83.** With parameters away from the thresholds of the code the error of `A` in the limit is at most
`‖(iu)² - iu‖/2` times 1/124 of the integral of the sizes of the covariances. -/
theorem C83_fmm_limit {p : FmmParams} (h : p.tenor.Ordered) (hv : p.Valid)
    (hcd : UnitSymm p.domestic.rateCorr p.tenor.m) (hcf : UnitSymm p.foreign.rateCorr p.tenor.m)
    (hpd : ∀ w, 0 ≤ quadOn p.domestic.rateCorr w (Finset.Icc 1 p.tenor.m))
    (hpf : ∀ w, 0 ≤ quadOn p.foreign.rateCorr w (Finset.Icc 1 p.tenor.m))
    (h0 : p.tenor.T 0 = 0 ∨ 1 / 10 ^ 12 < p.tenor.T 0)
    (hL : ∀ j, 1 ≤ j → j ≤ p.tenor.m → 1 + (p.tenor.T j - p.tenor.T (j - 1)) * p.tenor.R j ≠ 0)
    (hr : |p.correlations.xiSigma| ≤ 1) (hx : p.heston.Fine) (hy : p.domestic.cir.Fine)
    (hz : p.foreign.cir.Fine) {T : ℝ} (hT : 0 < T) (hTm : T ≤ p.tenor.T p.tenor.m)
    {n : ℕ} (hn : 0 < n) (u : ℝ) :
    ∃ segs : List Segment, Tiles T 0 segs ∧ ∃ Dd Df : ℝ → ℂ,
      SolvesD segs Segment.ad p.domestic.lambda p.domestic.eta T ((Complex.I * u) ^ 2 - Complex.I * u) Dd
      ∧ SolvesD segs Segment.af p.foreign.lambda p.foreign.eta T ((Complex.I * u) ^ 2 - Complex.I * u) Df
      ∧ ∀ ε > 0, ∃ N, ∀ m ≥ N, 0 < m → ∃ A q, FmmChf.withResolution p T n (2 * m) = .ok q
        ∧ q.subSegments = segs ∧ q.components u = .ok ⟨A, Complex.I * u,
          hestonCFn u p.heston.kappa p.heston.gamma p.correlations.xiSigma T, Dd T, Df T⟩
        ∧ ‖A - (((p.heston.kappa * p.heston.theta : ℝ) : ℂ) * (∫ t in (0 : ℝ)..T,
              hestonCFn u p.heston.kappa p.heston.gamma p.correlations.xiSigma t)
            + ((p.domestic.lambda * p.domestic.v0 : ℝ) : ℂ) * (∫ t in (0 : ℝ)..T, Dd t)
            + ((p.foreign.lambda * p.foreign.v0 : ℝ) : ℂ) * (∫ t in (0 : ℝ)..T, Df t)
            + ((Complex.I * u) ^ 2 - Complex.I * u) / 2 * ((∫ t in (0 : ℝ)..T, p.meanCross t : ℝ) : ℂ))‖
          ≤ ‖((Complex.I * u) ^ 2 - Complex.I * u) / 2‖
            * (1 / 124 * (∫ t in (0 : ℝ)..T, p.meanCrossSize t) + ε) := by
  obtain ⟨segs, a1, -, -, a4⟩ := C83_fmm h hv hcd hcf hpd hpf h0 hL hr hx hy hz hT hTm hn (w := 1 / 249)
    (by norm_num) (C83_root_error hx T) (C83_root_error hy T) (C83_root_error hz T)
  obtain ⟨Dd, Df, b1, b2, -, b3⟩ := a4 u
  refine ⟨segs, a1, Dd, Df, b1, b2, fun ε hε => ?_⟩
  obtain ⟨N, hN⟩ := b3 ε hε
  refine ⟨N, fun m hm hm0 => ?_⟩
  obtain ⟨A, q, c1, c0, c2, c3⟩ := hN m hm hm0
  refine ⟨A, q, c1, c0, c2, c3.trans (mul_le_mul_of_nonneg_left (add_le_add ?_ le_rfl) (norm_nonneg _))⟩
  refine mul_le_mul_of_nonneg_right (by norm_num) (intervalIntegral.integral_nonneg hT.le fun t _ => ?_)
  rw [FmmParams.meanCrossSize, crossSize]
  positivity

theorem exFmm_rate : ∀ j, 1 ≤ j → j ≤ exFmm.tenor.m →
    1 + (exFmm.tenor.T j - exFmm.tenor.T (j - 1)) * exFmm.tenor.R j ≠ 0 := by
  intro j h1 h2
  have h2 : j ≤ 2 := h2
  interval_cases j <;> norm_num [exFmm, exFmmTenor, FmmTenor.T, FmmTenor.R]

theorem exFmm_fine : exFmm.heston.Fine ∧ exFmm.domestic.cir.Fine ∧ exFmm.foreign.cir.Fine := by
  refine ⟨⟨?_, tenth_tiny ?_, ?_, tenth_tiny ?_⟩, ⟨?_, tenth_tiny ?_, ?_, tenth_tiny ?_⟩,
    ⟨?_, tenth_tiny ?_, ?_, tenth_tiny ?_⟩⟩ <;> norm_num [exFmm, exSide, FmmSide.cir]

example (u : ℝ) : ∃ segs, Tiles 1 0 segs ∧ ∃ N, ∀ m ≥ N, 0 < m →
    ∃ A q, FmmChf.withResolution exFmm 1 4 (2 * m) = .ok q ∧ q.subSegments = segs ∧
      ∃ c, q.components u = .ok c ∧ c.a = A := by
  obtain ⟨segs, h1, _, _, -, -, h2⟩ := C83_fmm_limit (p := exFmm) exFmmTenor_ordered exFmm_valid exSide_symm
    exSide_symm exSide_psd exSide_psd exFmm_start exFmm_rate (by norm_num [exFmm, abs_of_neg])
    exFmm_fine.1 exFmm_fine.2.1 exFmm_fine.2.2 (T := 1) (by norm_num)
    (by norm_num [exFmm, exFmmTenor, FmmTenor.T, FmmTenor.m]) (n := 4) (by norm_num) u
  obtain ⟨N, h3⟩ := h2 1 one_pos
  refine ⟨segs, h1, N, fun m hm hm0 => ?_⟩
  obtain ⟨A, q, a1, a2, a3, -⟩ := h3 m hm hm0
  exact ⟨A, q, a1, a2, _, a3, rfl⟩

end Verif
