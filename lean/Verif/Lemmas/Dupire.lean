import Verif.Spec.Dupire
import Verif.Lemmas.ImpliedVol
import Verif.Lemmas.HlmmTenor
import Mathlib.Analysis.Calculus.MeanValue
import Mathlib.Analysis.Calculus.Deriv.Pow

/-!
# Facts about finite differences and interpolation on a grid
-/

namespace Verif

open Filter Topology Outcome

theorem incr_lt {xs : List ℝ} (h : windowsIncrease xs) {i j : ℕ} (hij : i < j) (hj : j < xs.length) :
    xs.getD i 0 < xs.getD j 0 := by
  induction j with
  | zero => omega
  | succ j ih =>
    rcases Nat.lt_succ_iff_lt_or_eq.1 hij with h1 | h1
    · exact (ih h1 (by omega)).trans (h j hj)
    · subst h1; exact h _ hj

theorem incr_le {xs : List ℝ} (h : windowsIncrease xs) {i j : ℕ} (hij : i ≤ j) (hj : j < xs.length) :
    xs.getD i 0 ≤ xs.getD j 0 := by
  rcases hij.lt_or_eq with h1 | h1
  · exact (incr_lt h h1 hj).le
  · rw [h1]

/-! ## Finite differences -/

/-- A difference quotient over an interval around the point tends to the derivative. -/
theorem straddle {f : ℝ → ℝ} {d x : ℝ} (h : HasDerivAt f d x) {ε : ℝ} (hε : 0 < ε) :
    ∃ δ > 0, ∀ a b, a ≤ x → x ≤ b → a < b → |a - x| < δ → |b - x| < δ →
      |(f b - f a) / (b - a) - d| ≤ ε := by
  have h1 := (hasDerivAt_iff_isLittleO.1 h).def hε
  obtain ⟨δ, hδ, hb⟩ := Metric.eventually_nhds_iff.1 h1
  refine ⟨δ, hδ, fun a b ha hb' hab hda hdb => ?_⟩
  have ea := hb (y := a) (by rwa [Real.dist_eq])
  have eb := hb (y := b) (by rwa [Real.dist_eq])
  simp only [Real.norm_eq_abs, smul_eq_mul] at ea eb
  rw [abs_of_nonpos (by linarith : a - x ≤ 0)] at ea
  rw [abs_of_nonneg (by linarith : 0 ≤ b - x)] at eb
  have hp : 0 < b - a := by linarith
  rw [show (f b - f a) / (b - a) - d = (f b - f a - (b - a) * d) / (b - a) by field_simp,
    abs_div, abs_of_pos hp, div_le_iff₀ hp]
  rw [abs_le] at ea eb ⊢
  constructor <;> nlinarith [ea.1, ea.2, eb.1, eb.2]

/-- Taylor's formula of second order around a moving point. -/
theorem taylor_moving {f D : ℝ → ℝ} {c x : ℝ} (h1 : ∀ᶠ k in 𝓝 x, HasDerivAt f (D k) k)
    (h2 : HasStrictDerivAt D c x) {ε : ℝ} (hε : 0 < ε) :
    ∃ δ > 0, ∀ y z, |y - x| < δ → |z - x| < δ →
      |f z - f y - D y * (z - y) - c / 2 * (z - y) ^ 2| ≤ ε * (z - y) ^ 2 := by
  have h3 := h2.hasStrictFDerivAt.isLittleO.def hε
  rw [nhds_prod_eq] at h3
  obtain ⟨p, hp, q, hq, hpq⟩ := eventually_prod_iff.1 h3
  obtain ⟨δ1, d1, e1⟩ := Metric.eventually_nhds_iff.1 h1
  obtain ⟨δ2, d2, e2⟩ := Metric.eventually_nhds_iff.1 hp
  obtain ⟨δ3, d3, e3⟩ := Metric.eventually_nhds_iff.1 hq
  refine ⟨min δ1 (min δ2 δ3), by positivity, fun y z hy hz => ?_⟩
  set δ := min δ1 (min δ2 δ3) with hδ
  have hball : ∀ u ∈ Set.uIcc y z, |u - x| < δ := by
    intro u hu
    have hs : Set.uIcc y z ⊆ Metric.ball x δ :=
      (convex_ball x δ).ordConnected.uIcc_subset (by rwa [Metric.mem_ball, Real.dist_eq])
        (by rwa [Metric.mem_ball, Real.dist_eq])
    have := hs hu
    rwa [Metric.mem_ball, Real.dist_eq] at this
  have hg : ∀ u ∈ Set.uIcc y z, HasDerivWithinAt
      (fun u => f u - f y - D y * (u - y) - c / 2 * (u - y) ^ 2)
      (D u - D y - c * (u - y)) (Set.uIcc y z) u := by
    intro u hu
    have hf := e1 (y := u) (by
      rw [Real.dist_eq]; exact (hball u hu).trans_le (min_le_left _ _))
    have hl := ((hasDerivAt_id u).sub_const y)
    refine (((hf.sub_const (f y)).sub (hl.const_mul (D y))).sub
      ((hl.pow 2).const_mul (c / 2))).hasDerivWithinAt.congr_deriv ?_
    simp only [id]
    norm_num
    ring
  have hbound : ∀ u ∈ Set.uIcc y z, ‖D u - D y - c * (u - y)‖ ≤ ε * |z - y| := by
    intro u hu
    have hp' := e2 (y := u) (by
      rw [Real.dist_eq]
      exact (hball u hu).trans_le ((min_le_right _ _).trans (min_le_left _ _)))
    have hq' := e3 (y := y) (by
      rw [Real.dist_eq]
      exact hy.trans_le ((min_le_right _ _).trans (min_le_right _ _)))
    have := hpq hp' hq'
    simp only [ContinuousLinearMap.toSpanSingleton_apply, smul_eq_mul, Real.norm_eq_abs] at this
    rw [mul_comm (u - y) c] at this
    refine this.trans (mul_le_mul_of_nonneg_left ?_ hε.le)
    exact Set.abs_sub_left_of_mem_uIcc hu
  have := (convex_uIcc y z).norm_image_sub_le_of_norm_hasDerivWithin_le hg hbound
    Set.left_mem_uIcc Set.right_mem_uIcc
  simp only [sub_self, mul_zero, Real.norm_eq_abs] at this
  norm_num at this
  refine this.trans (le_of_eq ?_)
  rw [mul_assoc, ← abs_mul, ← sq, abs_of_nonneg (sq_nonneg _)]

/-- The three-point formula for the second derivative. -/
noncomputable def threePoint (f : ℝ → ℝ) (a b e : ℝ) : ℝ :=
  2 * (f e * (b - a) - f b * (b - a + (e - b)) + f a * (e - b))
    / ((b - a) * (e - b) * (b - a + (e - b)))

theorem threePoint_tendsto {f D : ℝ → ℝ} {c x : ℝ} (h1 : ∀ᶠ k in 𝓝 x, HasDerivAt f (D k) k)
    (h2 : HasStrictDerivAt D c x) {ε : ℝ} (hε : 0 < ε) :
    ∃ δ > 0, ∀ a b e, a < b → b < e → |a - x| < δ → |b - x| < δ → |e - x| < δ →
      |threePoint f a b e - c| ≤ ε := by
  obtain ⟨δ, hδ, ht⟩ := taylor_moving h1 h2 (half_pos hε)
  refine ⟨δ, hδ, fun a b e hab hbe ha hb he => ?_⟩
  have r1 := ht b e hb he
  have r2 := ht b a hb ha
  have p1 : 0 < b - a := by linarith
  have p2 : 0 < e - b := by linarith
  have hpos : 0 < (b - a) * (e - b) * (b - a + (e - b)) := by positivity
  set R1 := f e - f b - D b * (e - b) - c / 2 * (e - b) ^ 2 with hR1
  set R2 := f a - f b - D b * (a - b) - c / 2 * (a - b) ^ 2 with hR2
  have hk : threePoint f a b e - c
      = 2 * (R1 * (b - a) + R2 * (e - b)) / ((b - a) * (e - b) * (b - a + (e - b))) := by
    rw [threePoint, hR1, hR2]
    field_simp
    ring
  rw [hk, abs_div, abs_of_pos hpos, div_le_iff₀ hpos]
  rw [abs_le] at r1 r2 ⊢
  have m1 := mul_le_mul_of_nonneg_right r1.1 p1.le
  have m2 := mul_le_mul_of_nonneg_right r1.2 p1.le
  have m3 := mul_le_mul_of_nonneg_right r2.1 p2.le
  have m4 := mul_le_mul_of_nonneg_right r2.2 p2.le
  constructor <;> nlinarith

theorem fdT_near {c : ℕ → ℝ} {f : ℝ → ℝ} {d x ε δ : ℝ} {xs : List ℝ} {i : ℕ}
    (h : windowsIncrease xs) (h3 : 3 ≤ xs.length) (hi : i < xs.length) (hx : xs.getD i 0 = x)
    (hs : ∀ a b, a ≤ x → x ≤ b → a < b → |a - x| < δ → |b - x| < δ →
      |(f b - f a) / (b - a) - d| ≤ ε)
    (hc : ∀ a < xs.length, a ≤ i + 1 → i ≤ a + 1 → |xs.getD a 0 - x| < δ ∧ c a = f (xs.getD a 0)) :
    |fdT c xs i - d| ≤ ε := by
  have key : ∀ a b, a < b → b < xs.length → a ≤ i → i ≤ b → b ≤ i + 1 → i ≤ a + 1 →
      |(c b - c a) / (xs.getD b 0 - xs.getD a 0) - d| ≤ ε := by
    intro a b hab hb h1 h2 h4 h5
    obtain ⟨n1, e1⟩ := hc a (by omega) (by omega) h5
    obtain ⟨n2, e2⟩ := hc b hb h4 (by omega)
    rw [e1, e2]
    exact hs _ _ (hx ▸ incr_le h h1 hi) (hx ▸ incr_le h h2 hb) (incr_lt h hab hb) n1 n2
  unfold fdT
  dsimp only
  split
  · exact key 0 1 (by omega) (by omega) (by omega) (by omega) (by omega) (by omega)
  · split
    · exact key _ _ (by omega) (by omega) (by omega) (by omega) (by omega) (by omega)
    · exact key _ _ (by omega) (by omega) (by omega) (by omega) (by omega) (by omega)

theorem fdK_eq_fdT (c : ℕ → ℝ) (xs : List ℝ) (j : ℕ) : fdK c xs j = fdT c xs j := rfl

theorem fdKK_near {c : ℕ → ℝ} {f : ℝ → ℝ} {d x ε δ : ℝ} {xs : List ℝ} {j : ℕ}
    (h : windowsIncrease xs) (h3 : 3 ≤ xs.length) (hj : j < xs.length)
    (hs : ∀ a b e, a < b → b < e → |a - x| < δ → |b - x| < δ → |e - x| < δ →
      |threePoint f a b e - d| ≤ ε)
    (hc : ∀ b < xs.length, b ≤ j + 2 → j ≤ b + 2 → |xs.getD b 0 - x| < δ ∧ c b = f (xs.getD b 0)) :
    |fdKK c xs j - d| ≤ ε := by
  have key : ∀ a, 1 ≤ a → a + 1 < xs.length → a ≤ j + 1 → j ≤ a + 1 →
      |fdKKInner c xs a - d| ≤ ε := by
    intro a h1 h2 h4 h5
    obtain ⟨n1, e1⟩ := hc (a - 1) (by omega) (by omega) (by omega)
    obtain ⟨n2, e2⟩ := hc a (by omega) (by omega) (by omega)
    obtain ⟨n3, e3⟩ := hc (a + 1) (by omega) (by omega) (by omega)
    have := hs _ _ _ (incr_lt h (by omega : a - 1 < a) (by omega)) (incr_lt h (by omega) h2) n1 n2 n3
    rw [threePoint] at this
    unfold fdKKInner
    dsimp only
    rw [e1, e2, e3]
    exact this
  unfold fdKK
  dsimp only
  split
  · exact key 1 (by omega) (by omega) (by omega) (by omega)
  · split
    · exact key _ (by omega) (by omega) (by omega) (by omega)
    · exact key _ (by omega) (by omega) (by omega) (by omega)

/-- Numerator and denominator of the formula at a node. -/
noncomputable def dupireNumer (expiries strikes : List ℝ) (vols : List (List ℝ)) (spot rd rf : ℝ)
    (i j : ℕ) : ℝ :=
  fdT (fun i => gridPrice expiries strikes vols spot rd rf i j) expiries i
    + (rd - rf) * strikes.getD j 0 * fdK (gridPrice expiries strikes vols spot rd rf i) strikes j
    + rf * gridPrice expiries strikes vols spot rd rf i j

noncomputable def dupireDenom (expiries strikes : List ℝ) (vols : List (List ℝ)) (spot rd rf : ℝ)
    (i j : ℕ) : ℝ :=
  strikes.getD j 0 * strikes.getD j 0 * fdKK (gridPrice expiries strikes vols spot rd rf i) strikes j

theorem nodeVariance_eq (expiries strikes : List ℝ) (vols : List (List ℝ)) (spot rd rf : ℝ)
    (i j : ℕ) : nodeVariance expiries strikes vols spot rd rf i j
      = intoBand (if 1 / 10 ^ 8 < dupireDenom expiries strikes vols spot rd rf i j
          ∧ 0 < dupireNumer expiries strikes vols spot rd rf i j
        then 2 * dupireNumer expiries strikes vols spot rd rf i j
          / dupireDenom expiries strikes vols spot rd rf i j
        else (vols.getD i []).getD j 0 * (vols.getD i []).getD j 0) := by
  rw [intoBand, show (1 / 10000 : ℝ) = 1 / 100 * (1 / 100) by norm_num,
    show (4 : ℝ) = 2 * 2 by norm_num]
  rfl

theorem dupire_near {C : ℝ → ℝ → ℝ} {D : ℝ → ℝ} {rd rf T K ct ckk s : ℝ}
    (h : HasLocalVariance C D rd rf T K ct ckk s) {ε : ℝ} (hε : 0 < ε) :
    ∃ δ > 0, ∀ (expiries strikes : List ℝ) (vols : List (List ℝ)) (spot : ℝ) (i j : ℕ),
      windowsIncrease expiries → windowsIncrease strikes → 3 ≤ expiries.length →
      3 ≤ strikes.length → GridNear expiries strikes vols spot rd rf C T K δ i j →
      |dupireNumer expiries strikes vols spot rd rf i j - 1 / 2 * s * K ^ 2 * ckk| ≤ ε
      ∧ |dupireDenom expiries strikes vols spot rd rf i j - K ^ 2 * ckk| ≤ ε := by
  set M := 2 + |(rd - rf) * K| + K * K with hM
  have hMp : 0 < M := by
    have := abs_nonneg ((rd - rf) * K)
    have := mul_self_nonneg K
    positivity
  have he : 0 < ε / M := by positivity
  obtain ⟨δ1, d1, e1⟩ := straddle h.time he
  obtain ⟨δ2, d2, e2⟩ := straddle (h.slope.self_of_nhds) he
  obtain ⟨δ3, d3, e3⟩ := threePoint_tendsto h.slope h.convexity he
  refine ⟨min δ1 (min δ2 δ3), by positivity, fun X Y vols spot i j hX hY lX lY hn => ?_⟩
  have m1 : min δ1 (min δ2 δ3) ≤ δ1 := min_le_left _ _
  have m2 : min δ1 (min δ2 δ3) ≤ δ2 := (min_le_right _ _).trans (min_le_left _ _)
  have m3 : min δ1 (min δ2 δ3) ≤ δ3 := (min_le_right _ _).trans (min_le_right _ _)
  have hK := hn.strike
  have hT := hn.expiry
  have k1 : |fdT (fun i => gridPrice X Y vols spot rd rf i j) X i - ct| ≤ ε / M := by
    refine fdT_near hX lX hn.row hT e1 fun a ha h1 h2 => ?_
    obtain ⟨q1, q2⟩ := hn.times a ha h1 h2
    refine ⟨q1.trans_le m1, ?_⟩
    rw [← q2, ← hK]; rfl
  have k2 : |fdK (gridPrice X Y vols spot rd rf i) Y j - D K| ≤ ε / M := by
    rw [fdK_eq_fdT]
    refine fdT_near hY lY hn.col hK e2 fun a ha h1 h2 => ?_
    obtain ⟨q1, q2⟩ := hn.strikes a ha (by omega) (by omega)
    refine ⟨q1.trans_le m2, ?_⟩
    rw [← q2, ← hT]; rfl
  have k3 : |fdKK (gridPrice X Y vols spot rd rf i) Y j - ckk| ≤ ε / M := by
    refine fdKK_near hY lY hn.col e3 fun a ha h1 h2 => ?_
    obtain ⟨q1, q2⟩ := hn.strikes a ha h1 h2
    refine ⟨q1.trans_le m3, ?_⟩
    rw [← q2, ← hT]; rfl
  have k4 : gridPrice X Y vols spot rd rf i j = C T K := by
    obtain ⟨-, q2⟩ := hn.strikes j hn.col (by omega) (by omega)
    rw [hK] at q2
    rw [← q2, ← hT, ← hK]; rfl
  have hmul : ε = ε / M * M := by field_simp
  constructor
  · rw [dupireNumer, hK, k4]
    have e := h.equation
    have : fdT (fun i => gridPrice X Y vols spot rd rf i j) X i
        + (rd - rf) * K * fdK (gridPrice X Y vols spot rd rf i) Y j + rf * C T K
        - 1 / 2 * s * K ^ 2 * ckk
        = (fdT (fun i => gridPrice X Y vols spot rd rf i j) X i - ct)
          + (rd - rf) * K * (fdK (gridPrice X Y vols spot rd rf i) Y j - D K) := by
      rw [e]; ring
    rw [this]
    refine (abs_add_le _ _).trans ?_
    rw [abs_mul]
    have := mul_le_mul_of_nonneg_left k2 (abs_nonneg ((rd - rf) * K))
    have hk := mul_self_nonneg K
    nlinarith
  · rw [dupireDenom, hK, show K * K * fdKK (gridPrice X Y vols spot rd rf i) Y j - K ^ 2 * ckk
      = K * K * (fdKK (gridPrice X Y vols spot rd rf i) Y j - ckk) by ring, abs_mul,
      abs_of_nonneg (mul_self_nonneg K)]
    have := mul_le_mul_of_nonneg_left k3 (mul_self_nonneg K)
    have hk := abs_nonneg ((rd - rf) * K)
    nlinarith

theorem intoBand_lipschitz (x y : ℝ) : |intoBand x - intoBand y| ≤ |x - y| := by
  unfold intoBand
  refine (abs_max_sub_max_le_max _ _ _ _).trans ?_
  rw [sub_self, abs_zero, max_eq_right (abs_nonneg _)]
  refine (abs_min_sub_min_le_max _ _ _ _).trans ?_
  rw [sub_self, abs_zero, max_eq_right (abs_nonneg _)]

theorem quotient_near {n d : ℝ} (hd : 0 < d) {ε : ℝ} (hε : 0 < ε) :
    ∃ η > 0, ∀ x y, |x - n| ≤ η → |y - d| ≤ η → 0 < y ∧ |2 * x / y - 2 * n / d| < ε := by
  have hc : ContinuousAt (fun p : ℝ × ℝ => 2 * p.1 / p.2) (n, d) :=
    (continuous_const.mul continuous_fst).continuousAt.div continuous_snd.continuousAt hd.ne'
  obtain ⟨η, hη, h⟩ := Metric.continuousAt_iff.1 hc ε hε
  refine ⟨min (η / 2) (d / 2), by positivity, fun x y hx hy => ?_⟩
  have h1 := hx.trans (min_le_left _ _)
  have h2 := hy.trans (min_le_left _ _)
  have h3 := hy.trans (min_le_right _ _)
  refine ⟨by rw [abs_le] at h3; linarith, ?_⟩
  have := h (x := (x, y)) (by
    rw [Prod.dist_eq, Real.dist_eq, Real.dist_eq, max_lt_iff]
    constructor
    · show |x - n| < η; linarith
    · show |y - d| < η; linarith)
  rwa [Real.dist_eq] at this

/-! ## Interpolation -/

/-- One at and after `b`, zero up to `a`, linear in between. -/
noncomputable def ramp (a b t : ℝ) : ℝ := max 0 (min 1 ((t - a) / (b - a)))

/-- The piecewise linear interpolation of the values `y` at the points `xs`. -/
noncomputable def interpolate (xs : List ℝ) (y : ℕ → ℝ) (t : ℝ) : ℝ :=
  y 0 + ∑ i ∈ Finset.range (xs.length - 1),
    ramp (xs.getD i 0) (xs.getD (i + 1) 0) t * (y (i + 1) - y i)

theorem ramp_zero {a b t : ℝ} (h : a < b) (ht : t ≤ a) : ramp a b t = 0 := by
  have : (t - a) / (b - a) ≤ 0 := div_nonpos_of_nonpos_of_nonneg (by linarith) (by linarith)
  rw [ramp, min_eq_right (by linarith), max_eq_left this]

theorem ramp_one {a b t : ℝ} (h : a < b) (ht : b ≤ t) : ramp a b t = 1 := by
  have : 1 ≤ (t - a) / (b - a) := by rw [le_div_iff₀ (by linarith)]; linarith
  rw [ramp, min_eq_left this, max_eq_right zero_le_one]

theorem ramp_mid {a b t : ℝ} (h : a < b) (h1 : a ≤ t) (h2 : t ≤ b) :
    ramp a b t = (t - a) / (b - a) := by
  have p1 : (t - a) / (b - a) ≤ 1 := by rw [div_le_iff₀ (by linarith)]; linarith
  have p2 : 0 ≤ (t - a) / (b - a) := div_nonneg (by linarith) (by linarith)
  rw [ramp, min_eq_right p1, max_eq_right p2]

theorem continuous_ramp (a b : ℝ) : Continuous (ramp a b) := by unfold ramp; fun_prop

/-- The interpolation in the `i`-th interval; outside the range it is constant. -/
theorem interpolate_cell {xs : List ℝ} (h : windowsIncrease xs) (y : ℕ → ℝ) {t : ℝ} {i : ℕ}
    (hi : i + 1 < xs.length) (h1 : xs.getD i 0 ≤ t ∨ i = 0) (h2 : t ≤ xs.getD (i + 1) 0 ∨ i + 2 = xs.length) :
    interpolate xs y t = y i + ramp (xs.getD i 0) (xs.getD (i + 1) 0) t * (y (i + 1) - y i) := by
  have key : ∀ n, n ≤ xs.length - 1 → y 0 + ∑ k ∈ Finset.range n,
      ramp (xs.getD k 0) (xs.getD (k + 1) 0) t * (y (k + 1) - y k)
      = if n ≤ i then y n
        else y i + ramp (xs.getD i 0) (xs.getD (i + 1) 0) t * (y (i + 1) - y i) := by
    intro n
    induction n with
    | zero => intro _; simp
    | succ n ih =>
      intro hn
      rw [Finset.sum_range_succ, ← add_assoc, ih (by omega)]
      rcases lt_trichotomy n i with hc | hc | hc
      · rw [if_pos (by omega), if_pos (by omega)]
        have : xs.getD (n + 1) 0 ≤ t := by
          rcases h1 with h1 | h1
          · exact (incr_le h (by omega) (by omega)).trans h1
          · omega
        rw [ramp_one (h n (by omega)) this]
        ring
      · subst hc
        rw [if_pos le_rfl, if_neg (by omega)]
      · rw [if_neg (by omega), if_neg (by omega)]
        have : t ≤ xs.getD n 0 := by
          rcases h2 with h2 | h2
          · exact h2.trans (incr_le h (by omega) (by omega))
          · omega
        rw [ramp_zero (h n (by omega)) this]
        ring
  rw [interpolate, key _ le_rfl, if_neg (by omega)]

theorem bracketLoop_spec {xs : List ℝ} (x : ℝ) :
    ∀ (k a : ℕ), 1 ≤ a → a + k = xs.length → 0 < k → xs.getD (a - 1) 0 < x →
      x ≤ xs.getD (xs.length - 1) 0 →
      ∃ p, a ≤ p ∧ p < xs.length ∧ xs.getD (p - 1) 0 < x ∧ x ≤ xs.getD p 0
        ∧ bracketLoop xs x (List.range' a k)
          = (p - 1, p, (x - xs.getD (p - 1) 0) / (xs.getD p 0 - xs.getD (p - 1) 0)) := by
  intro k
  induction k with
  | zero => intro a _ _ h; omega
  | succ k ih =>
    intro a ha hl _ hlo hhi
    rw [List.range'_succ, bracketLoop]
    by_cases hc : x ≤ xs.getD a 0
    · rw [if_pos hc]
      exact ⟨a, le_rfl, by omega, hlo, hc, rfl⟩
    · rw [if_neg hc]
      rcases Nat.eq_zero_or_pos k with hk | hk
      · subst hk
        exact absurd hhi (by rw [show xs.length - 1 = a by omega]; exact hc)
      · obtain ⟨p, q1, q2, q3, q4, q5⟩ := ih (a + 1) (by omega) (by omega) hk
          (by rw [Nat.add_sub_cancel]; exact not_le.1 hc) hhi
        exact ⟨p, by omega, q2, q3, q4, q5⟩

theorem bracketAt_spec {xs : List ℝ} (h : windowsIncrease xs) (hl : 2 ≤ xs.length) (t : ℝ) :
    ∃ i0 i1 w, bracketAt xs t = .ok (i0, i1, w) ∧ i0 < xs.length ∧ i1 < xs.length ∧ 0 ≤ w ∧ w ≤ 1
      ∧ ∀ y : ℕ → ℝ, y i0 + w * (y i1 - y i0) = interpolate xs y t := by
  have e0 : unwrap xs[0]? = .ok (xs.getD 0 0) := unwrap_getD xs 0 (by omega) 0
  have e1 : unwrap xs.getLast? = .ok (xs.getD (xs.length - 1) 0) := by
    rw [List.getLast?_eq_getElem?]
    exact unwrap_getD xs _ (by omega) 0
  unfold bracketAt
  rw [e0, ok_bind]
  by_cases h0 : t ≤ xs.getD 0 0
  · rw [if_pos h0]
    refine ⟨0, 0, 0, rfl, by omega, by omega, le_rfl, zero_le_one, fun y => ?_⟩
    rw [interpolate_cell h y (i := 0) (by omega) (.inr rfl)
      (.inl (h0.trans (h 0 (by omega)).le)), ramp_zero (h 0 (by omega)) h0]
    ring
  rw [if_neg h0, e1, ok_bind]
  by_cases hn : xs.getD (xs.length - 1) 0 ≤ t
  · rw [if_pos hn]
    refine ⟨_, _, 0, rfl, by omega, by omega, le_rfl, zero_le_one, fun y => ?_⟩
    have hlt := h (xs.length - 2) (by omega)
    rw [show xs.length - 2 + 1 = xs.length - 1 by omega] at hlt
    have hi := interpolate_cell h y (i := xs.length - 2) (t := t) (by omega)
      (.inl (hlt.le.trans hn)) (.inr (by omega))
    rw [show xs.length - 2 + 1 = xs.length - 1 by omega, ramp_one hlt hn] at hi
    rw [hi]
    ring
  rw [if_neg hn]
  obtain ⟨p, q1, q2, q3, q4, q5⟩ := bracketLoop_spec (xs := xs) t (xs.length - 1) 1 le_rfl (by omega)
    (by omega) (not_le.1 h0) (not_le.1 hn).le
  have hp : p - 1 + 1 = p := by omega
  have hlt := h (p - 1) (by omega)
  rw [hp] at hlt
  refine ⟨_, _, _, congrArg Outcome.ok q5, by omega, q2, ?_, ?_, fun y => ?_⟩
  · exact div_nonneg (by linarith) (by linarith)
  · rw [div_le_iff₀ (by linarith)]; linarith
  · have := interpolate_cell h y (i := p - 1) (t := t) (by omega) (.inl q3.le) (.inl (hp.symm ▸ q4))
    rw [hp, ramp_mid hlt q3.le q4] at this
    exact this.symm

/-! ## Black prices -/

theorem hasDerivAt_bd1_K {F K s : ℝ} (hF : 0 < F) (hK : 0 < K) :
    HasDerivAt (fun K => bd1 F K s) (-(1 / (K * s))) K := by
  have h1 : HasDerivAt (fun K : ℝ => Real.log (F / K)) (-(1 / K)) K := by
    have := ((hasDerivAt_const K F).div (hasDerivAt_id K) hK.ne').log (div_ne_zero hF.ne' hK.ne')
    refine this.congr_deriv ?_
    simp only [id, Pi.div_apply]
    field_simp
    ring
  refine ((h1.add_const (s ^ 2 / 2)).div_const s).congr_deriv ?_
  by_cases hs : s = 0
  · simp [hs]
  · field_simp

theorem hasDerivAt_blackCore_K {F K s : ℝ} (hF : 0 < F) (hK : 0 < K) (hs : s ≠ 0) :
    HasDerivAt (fun K => blackCore F K s) (-normCdf (bd2 F K s)) K := by
  have h1 := hasDerivAt_bd1_K (s := s) hF hK
  have h2 : HasDerivAt (fun K => bd2 F K s) (-(1 / (K * s))) K := h1.sub_const s
  have c1 := ((hasDerivAt_normCdf (bd1 F K s)).comp K h1).const_mul F
  have c2 := (hasDerivAt_id K).mul ((hasDerivAt_normCdf (bd2 F K s)).comp K h2)
  refine (c1.sub c2).congr_deriv ?_
  have := black_pdf hF hK hs
  simp only [id, Function.comp_apply]
  linear_combination (-(1 / (K * s))) * this

theorem hasStrictDerivAt_cdf_d2_K {F K s : ℝ} (hF : 0 < F) (hK : 0 < K) :
    HasStrictDerivAt (fun K => -normCdf (bd2 F K s)) (normPdf (bd2 F K s) / (K * s)) K := by
  have hev : ∀ᶠ k in 𝓝 K, HasDerivAt (fun K => -normCdf (bd2 F K s))
      (normPdf (bd2 F k s) / (k * s)) k := by
    filter_upwards [lt_mem_nhds hK] with k hk
    have h2 : HasDerivAt (fun K => bd2 F K s) (-(1 / (k * s))) k :=
      (hasDerivAt_bd1_K (s := s) hF hk).sub_const s
    refine ((hasDerivAt_normCdf (bd2 F k s)).comp k h2).neg.congr_deriv ?_
    ring
  refine hasStrictDerivAt_of_hasDerivAt_of_continuousAt hev ?_
  have h2 : HasDerivAt (fun K => bd2 F K s) (-(1 / (K * s))) K :=
    (hasDerivAt_bd1_K (s := s) hF hK).sub_const s
  by_cases hs : s = 0
  · simp only [hs, mul_zero, div_zero]; exact continuousAt_const
  · exact (continuous_normPdf.continuousAt.comp h2.continuousAt).div
      (continuousAt_id.mul continuousAt_const) (mul_ne_zero hK.ne' hs)

/-- The derivative of the Black price along moving forward and standard deviation. -/
theorem hasDerivAt_blackCore_T {F s : ℝ → ℝ} {K t F' s' : ℝ} (hF : 0 < F t) (hK : 0 < K)
    (hs : s t ≠ 0) (dF : HasDerivAt F F' t) (ds : HasDerivAt s s' t) :
    HasDerivAt (fun t => blackCore (F t) K (s t))
      (F' * normCdf (bd1 (F t) K (s t)) + F t * normPdf (bd1 (F t) K (s t)) * s') t := by
  have hl : HasDerivAt (fun t => Real.log (F t / K)) (F' / K / (F t / K)) t :=
    (dF.div_const K).log (by positivity)
  have h1 := (hl.add ((ds.pow 2).div_const 2)).div ds hs
  have h2 := h1.sub ds
  have c1 := dF.mul ((hasDerivAt_normCdf (bd1 (F t) K (s t))).comp t h1)
  have c2 := ((hasDerivAt_normCdf (bd2 (F t) K (s t))).comp t h2).const_mul K
  refine (c1.sub c2).congr_deriv ?_
  have := black_pdf hF hK hs
  simp only [Function.comp_apply]
  generalize ((F' / K / (F t / K) + _) * s t - _) / _ = a
  change F' * normCdf (bd1 (F t) K (s t)) + F t * (normPdf (bd1 (F t) K (s t)) * a)
    - K * (normPdf (bd2 (F t) K (s t)) * (a - s')) = _
  linear_combination (a - s') * this

end Verif
