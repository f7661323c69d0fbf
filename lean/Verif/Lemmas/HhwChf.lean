import Verif.Spec.HhwChf
import Verif.Lemmas.Heston
import Verif.Lemmas.Simpson

/-! # Lemmas on the FX-HHW1 characteristic function -/

namespace Verif

open Outcome Classical

/-! ## `sqrt_mean` returns a value -/

theorem sqrtMean_ok (p : Cir) (hk : 0 < p.kappa) (t : ℝ) : ∃ v, p.sqrtMean t = .ok v := by
  unfold Cir.sqrtMean
  rw [Cir.sqrtMeanTol]
  by_cases h1 : t ≤ 0
  · rw [if_pos h1]; exact ⟨_, rfl⟩
  rw [if_neg h1, if_neg (not_le.2 hk)]
  by_cases h2 : |p.gamma| < 1 / 10 ^ 14
  · rw [if_pos h2]; exact ⟨_, rfl⟩
  rw [if_neg h2]
  dsimp only
  by_cases h3 : 500 < 4 * p.kappa * p.sigma0 * Real.exp (-p.kappa * t)
      / (p.gamma * p.gamma * (1 - Real.exp (-p.kappa * t)))
  · rw [if_pos h3]; exact ⟨_, rfl⟩
  · rw [if_neg h3]; exact ⟨_, rfl⟩

/-- The value of `sqrt_mean`. -/
noncomputable def phiOf (p : Cir) (t : ℝ) : ℝ :=
  match p.sqrtMean t with
  | .ok v => v
  | _ => 0

theorem sqrtMean_phiOf (p : Cir) (hk : 0 < p.kappa) (t : ℝ) : p.sqrtMean t = .ok (phiOf p t) := by
  obtain ⟨v, hv⟩ := sqrtMean_ok p hk t
  rw [phiOf, hv]

theorem phiOf_of_nonpos (p : Cir) {t : ℝ} (ht : t ≤ 0) : phiOf p t = √(max p.sigma0 0) := by
  rw [phiOf, Cir.sqrtMean, Cir.sqrtMeanTol, if_pos ht]

/-! ## The integrand -/

/-- The value of the integrand. -/
noncomputable def integrandVal (p : HhwParams) (u : ℂ) (s T : ℝ) : ℂ :=
  driftRate p (phiOf p.heston s) (p.domestic.b s T) (p.foreign.b s T) u (p.cOfTau u s)

theorem integrand_eq (p : HhwParams) (hk : 0 < p.heston.kappa) (u : ℂ) (s T : ℝ) :
    p.integrand u s T = .ok (integrandVal p u s T) := by
  rw [HhwParams.integrand, sqrtMean_phiOf _ hk]
  simp only [ok_bind, integrandVal, driftRate, fwdCovXV, fwdVarX]
  congr 1
  push_cast
  set φ : ℂ := (phiOf p.heston s : ℂ)
  set c := p.cOfTau u s
  have hI : (Complex.I * u) ^ 2 = -(u * u) := by
    rw [mul_pow, Complex.I_sq]; ring
  rw [hI]
  ring

/-! ## Simpson sums -/

theorem foldlM_ok {f : ℂ → ℕ → Outcome ℂ} {g : ℕ → ℂ} (l : List ℕ) (acc : ℂ)
    (h : ∀ a, ∀ k ∈ l, f a k = .ok (a + g k)) :
    l.foldlM f acc = .ok (acc + (l.map g).sum) := by
  induction l generalizing acc with
  | nil => simp [List.foldlM, pure]
  | cons k ks ih =>
    rw [List.foldlM_cons, h acc k List.mem_cons_self, ok_bind,
      ih _ (fun a j hj => h a j (List.mem_cons_of_mem _ hj)), List.map_cons, List.sum_cons, add_assoc]

theorem weighted_sum (f : ℝ → ℂ) (h : ℝ) (m : ℕ) (hm : 0 < m) :
    ((List.range (2 * m + 1)).map (fun k : ℕ => (simpsonWeight (2 * m) k : ℂ) * f (k * h))).sum
      = ∑ j ∈ Finset.range m, (f ((2 * j : ℕ) * h) + 4 * f ((2 * j + 1 : ℕ) * h)
          + f ((2 * j + 2 : ℕ) * h)) := by
  -- interior weights first
  set w : ℕ → ℂ := fun k => if k % 2 = 1 then 4 else 2 with hw
  have key : ∀ m : ℕ, ∑ j ∈ Finset.range m, (f ((2 * j : ℕ) * h) + 4 * f ((2 * j + 1 : ℕ) * h)
      + f ((2 * j + 2 : ℕ) * h))
      = (∑ k ∈ Finset.range (2 * m + 1), w k * f (k * h)) - f ((0 : ℕ) * h) - f ((2 * m : ℕ) * h) := by
    intro m
    induction m with
    | zero => simp [hw]; ring
    | succ m ih =>
      rw [Finset.sum_range_succ, ih, show 2 * (m + 1) + 1 = 2 * m + 1 + 1 + 1 by ring,
        Finset.sum_range_succ _ (2 * m + 1 + 1), Finset.sum_range_succ _ (2 * m + 1)]
      have w1 : w (2 * m + 1) = 4 := by simp only [hw]; rw [if_pos (by omega)]
      have w2 : w (2 * m + 1 + 1) = 2 := by simp only [hw]; rw [if_neg (by omega)]
      rw [w1, w2, show 2 * (m + 1) = 2 * m + 2 by ring, show 2 * m + 1 + 1 = 2 * m + 2 by ring]
      ring
  have hsum : ∀ (n : ℕ) (g : ℕ → ℂ), ((List.range n).map g).sum = ∑ k ∈ Finset.range n, g k := by
    intro n g
    induction n with
    | zero => simp
    | succ n ih => rw [List.range_succ, List.map_append, List.sum_append, ih, Finset.sum_range_succ]; simp
  have hsw : ∀ k, (simpsonWeight (2 * m) k : ℂ)
      = w k - (if k = 0 then 1 else 0) - (if k = 2 * m then 1 else 0) := by
    intro k
    by_cases h0 : k = 0
    · subst h0
      have : ¬ (0 = 2 * m) := by omega
      simp [simpsonWeight, hw, this]; norm_num
    · by_cases hn : k = 2 * m
      · subst hn
        have : ¬ (2 * m % 2 = 1) := by omega
        simp [simpsonWeight, hw, h0]; norm_num
      · simp [simpsonWeight, hw, h0, hn]
        split_ifs <;> norm_num
  rw [key m, hsum]
  simp_rw [hsw, sub_mul, ite_mul, one_mul, zero_mul]
  rw [Finset.sum_sub_distrib, Finset.sum_sub_distrib, Finset.sum_ite_eq', Finset.sum_ite_eq',
    if_pos (by simp), if_pos (by simp)]

/-- The weighted sum times `h / 3` is the composite rule. -/
theorem weighted_sum_panels (f : ℝ → ℂ) (T : ℝ) (m : ℕ) (hm : 0 < m) :
    ((List.range (2 * m + 1)).map (fun k : ℕ => (simpsonWeight (2 * m) k : ℂ)
        * f (k * (T / (2 * m : ℕ))))).sum * ((T / (2 * m : ℕ) / 3 : ℝ) : ℂ)
      = simpsonPanels m T f := by
  have e : (((2 * m : ℕ) : ℝ)) = 2 * m := by push_cast; ring
  rw [e, weighted_sum _ _ m hm, simpsonPanels, Finset.sum_mul]
  exact Finset.sum_congr rfl fun j _ => mul_comm _ _

/-- `a_of_tau` is the composite rule applied to the integrand. -/
theorem aOfTau_eq (p : HhwParams) (hk : 0 < p.heston.kappa) (u : ℂ) {tau : ℝ} (ht : 0 < tau)
    (T : ℝ) {m : ℕ} (hm : 0 < m) :
    p.aOfTau u tau T (2 * m) = .ok (simpsonPanels m tau fun s => integrandVal p u s T) := by
  rw [HhwParams.aOfTau, if_neg (not_le.2 ht)]
  dsimp only
  rw [foldlM_ok (g := fun k : ℕ => (simpsonWeight (2 * m) k : ℂ)
    * integrandVal p u (k * (tau / (2 * m : ℕ))) T)]
  · rw [ok_bind, zero_add,
      weighted_sum_panels (fun s => integrandVal p u s T) tau m hm]
  · intro a k _
    rw [integrand_eq p hk, ok_bind]

/-- The value of a grid entry. -/
noncomputable def entryVal (p : HhwParams) (T s : ℝ) : GridEntry :=
  ⟨phiOf p.heston s, p.domestic.b s T, p.foreign.b s T,
    p.correlations.dF * p.domestic.sigma * p.foreign.sigma * p.domestic.b s T * p.foreign.b s T
      - 0.5 * (p.domestic.sigma * p.domestic.sigma * p.domestic.b s T * p.domestic.b s T
        + p.foreign.sigma * p.foreign.sigma * p.foreign.b s T * p.foreign.b s T),
    p.correlations.xiD * p.domestic.sigma * p.domestic.b s T
      - p.correlations.xiF * p.foreign.sigma * p.foreign.b s T⟩

theorem gridLoop_eq (p : HhwParams) (hk : 0 < p.heston.kappa) (T h : ℝ) (l : List ℕ) :
    p.gridLoop T h l = .ok (l.map fun k : ℕ => entryVal p T (k * h)) := by
  induction l with
  | nil => rfl
  | cons k ks ih =>
    rw [HhwParams.gridLoop, HhwParams.gridEntry, sqrtMean_phiOf _ hk, ih]
    rfl

theorem buildGrid_eq (p : HhwParams) (hk : 0 < p.heston.kappa) (T : ℝ) (n : ℕ) :
    p.buildGrid T n = .ok ⟨T / n, (List.range (n + 1)).map
      fun k : ℕ => entryVal p T (k * (T / n))⟩ := by
  rw [HhwParams.buildGrid, gridLoop_eq p hk]
  rfl

theorem cachedTerm_eq (p : HhwParams) (u : ℂ) (s T : ℝ) :
    p.cachedTerm u s (entryVal p T s) = integrandVal p u s T := by
  simp only [HhwParams.cachedTerm, entryVal, integrandVal, driftRate, fwdCovXV, fwdVarX]
  push_cast
  have hI : (Complex.I * u) ^ 2 = -(u * u) := by
    rw [mul_pow, Complex.I_sq]; ring
  rw [hI]
  ring

/-- `a_of_tau_cached` on the grid of `build`. -/
theorem aCached_eq (p : HhwParams) (u : ℂ) (T : ℝ) {m : ℕ} (hm : 0 < m) :
    p.aCached u ⟨T / (2 * m : ℕ), (List.range (2 * m + 1)).map
      fun k : ℕ => entryVal p T (k * (T / (2 * m : ℕ)))⟩
      = .ok (simpsonPanels m T fun s => integrandVal p u s T) := by
  rw [HhwParams.aCached]
  simp only [List.length_map, List.length_range, Nat.add_sub_cancel]
  rw [if_neg (by omega), foldlM_ok (g := fun k : ℕ => (simpsonWeight (2 * m) k : ℂ)
    * integrandVal p u (k * (T / (2 * m : ℕ))) T)]
  · rw [ok_bind, zero_add, weighted_sum_panels (fun s => integrandVal p u s T) T m hm]
  · intro a k hk
    have hk := List.mem_range.1 hk
    rw [List.getElem?_map, List.getElem?_range hk]
    simp only [Option.map_some, cachedTerm_eq]

theorem withSimpsonSteps_eq (p : HhwParams) (hk : 0 < p.heston.kappa) (T : ℝ) {m : ℕ} (hm : 0 < m) :
    HhwChf.withSimpsonSteps p T (2 * m) = .ok ⟨p, T, 2 * m, ⟨T / (2 * m : ℕ),
      (List.range (2 * m + 1)).map fun k : ℕ => entryVal p T (k * (T / (2 * m : ℕ)))⟩⟩ := by
  rw [HhwChf.withSimpsonSteps, if_pos ⟨by omega, by omega⟩, buildGrid_eq p hk]
  rfl

theorem components_expiry (p : HhwParams) (u : ℂ) {T : ℝ} (hT : 0 ≤ T) {m : ℕ} (hm : 0 < m) (n : ℕ) :
    HhwChf.components ⟨p, T, n, ⟨T / (2 * m : ℕ),
      (List.range (2 * m + 1)).map fun k : ℕ => entryVal p T (k * (T / (2 * m : ℕ)))⟩⟩ u T
      = .ok ⟨simpsonPanels m T fun s => integrandVal p u s T, Complex.I * u, p.cOfTau u T⟩ := by
  rw [HhwChf.components, if_pos ⟨hT, by dsimp only; linarith [show (0:ℝ) < 1 / 10 ^ 12 by positivity]⟩]
  dsimp only
  rw [if_pos (by rw [sub_self, abs_zero]; positivity), aCached_eq p u T hm]
  rfl

/-! ## `C` -/

/-- The discriminant under the square root. -/
noncomputable def chfX (p : HhwParams) (u : ℂ) : ℂ :=
  p.heston.kappa - p.heston.gamma * p.correlations.xiSigma * (Complex.I * u)

noncomputable def chfQ (u : ℂ) : ℂ := Complex.I * u * (Complex.I * u) - Complex.I * u

noncomputable def chfDisc (p : HhwParams) (u : ℂ) : ℂ :=
  chfX p u * chfX p u - p.heston.gamma * p.heston.gamma * (Complex.I * u) * (Complex.I * u - 1)

noncomputable def chfD (p : HhwParams) (u : ℂ) : ℂ := chfDisc p u ^ (1 / 2 : ℂ)

theorem chfD_sq (p : HhwParams) (u : ℂ) : chfD p u * chfD p u = chfDisc p u := by
  have := Complex.cpow_nat_inv_pow (chfDisc p u) (n := 2) two_ne_zero
  rw [pow_two] at this
  rw [chfD, show (1 / 2 : ℂ) = ((2 : ℕ) : ℂ)⁻¹ by norm_num]
  exact this

theorem chfDisc_eq (p : HhwParams) (u : ℂ) :
    chfDisc p u = chfX p u * chfX p u - ((p.heston.gamma ^ 2 : ℝ) : ℂ) * chfQ u := by
  unfold chfDisc chfQ; push_cast; ring

theorem cOfTau_eq (p : HhwParams) (u : ℂ) {t : ℝ} (ht : 0 ≤ t) :
    p.cOfTau u t = hestonC (chfQ u) (chfX p u) (chfD p u) t := by
  rcases ht.eq_or_lt with rfl | h
  · rw [HhwParams.cOfTau, if_pos (le_refl _), hestonC_zero]
  · rw [HhwParams.cOfTau, if_neg (not_le.2 h)]
    rfl

theorem chfX_re (p : HhwParams) (u : ℝ) : (chfX p u).re = p.heston.kappa := by
  simp [chfX]

theorem chfDisc_re (p : HhwParams) (u : ℝ) :
    (chfDisc p u).re = p.heston.kappa ^ 2
      + p.heston.gamma ^ 2 * u ^ 2 * (1 - p.correlations.xiSigma ^ 2) := by
  simp [chfDisc, chfX]
  ring

/-- Real frequencies: the square root is not zero and its square has non-negative real part. -/
theorem chf_regular (p : HhwParams) (hk : 0 < p.heston.kappa) (hr : |p.correlations.xiSigma| ≤ 1)
    (u : ℝ) : 0 < (chfX p u).re ∧ chfD p u ≠ 0
      ∧ (chfX p u).re ^ 2 ≤ (chfD p u * chfD p u).re := by
  have h1 : p.correlations.xiSigma ^ 2 ≤ 1 := by
    rw [← sq_abs]; nlinarith [abs_nonneg p.correlations.xiSigma]
  have h2 : p.heston.kappa ^ 2 ≤ (chfDisc p u).re := by
    rw [chfDisc_re]
    have : 0 ≤ p.heston.gamma ^ 2 * u ^ 2 * (1 - p.correlations.xiSigma ^ 2) :=
      mul_nonneg (by positivity) (by linarith)
    linarith
  refine ⟨by rw [chfX_re]; exact hk, ?_, by rw [chfX_re, chfD_sq]; exact h2⟩
  intro h0
  have := chfD_sq p u
  rw [h0, mul_zero] at this
  rw [← this, Complex.zero_re] at h2
  have : 0 < p.heston.kappa ^ 2 := by positivity
  linarith

theorem riccatiRate_eq (p : HhwParams) (u c : ℂ) :
    riccatiRate p u c = chfQ u / 2 - chfX p u * c
      + ((p.heston.gamma ^ 2 : ℝ) : ℂ) / 2 * (c * c) := by
  unfold riccatiRate chfQ chfX; push_cast; ring

/-! ## The affine form of the pricing equation -/

theorem deriv_exp_affine (a b : ℂ) (x : ℝ) :
    deriv (fun x : ℝ => Complex.exp (a + b * x)) x = b * Complex.exp (a + b * x) := by
  have h : HasDerivAt (fun t : ℝ => a + b * (t : ℂ)) b x := by
    simpa using ((Complex.ofRealCLM.hasDerivAt (x := x)).const_mul b).const_add a
  rw [h.cexp.deriv, mul_comm]

theorem fwdGenerator_affine (p : HhwParams) (phi bd bf : ℝ) (a b c : ℂ) (x v : ℝ) :
    fwdGenerator p phi bd bf (fun x v => Complex.exp (a + b * x + c * v)) x v
      = Complex.exp (a + b * x + c * v) * (
        ((fwdVarX p phi bd bf v / 2 : ℝ) : ℂ) * (b ^ 2 - b)
        + ((fwdDriftV p phi bd v : ℝ) : ℂ) * c
        + ((fwdCovXV p phi bd bf v : ℝ) : ℂ) * b * c
        + ((p.heston.gamma * p.heston.gamma * v / 2 : ℝ) : ℂ) * c ^ 2) := by
  have hx : ∀ x v : ℝ, deriv (fun y : ℝ => Complex.exp (a + b * y + c * v)) x
      = b * Complex.exp (a + b * x + c * v) := by
    intro x v
    have e : ∀ y : ℝ, a + b * y + c * v = (a + c * v) + b * y := fun y => by ring
    simp_rw [e]; exact deriv_exp_affine _ _ _
  have hv : ∀ x v : ℝ, deriv (fun w : ℝ => Complex.exp (a + b * x + c * w)) v
      = c * Complex.exp (a + b * x + c * v) := fun x v => deriv_exp_affine _ _ _
  unfold fwdGenerator
  simp_rw [hx, hv]
  rw [deriv_const_mul_field, deriv_const_mul_field, deriv_const_mul_field, hx, hv]
  push_cast
  ring

/-- The pricing equation for the exponential form splits into the two ordinary equations. -/
theorem affine_pde_iff (p : HhwParams) (phi bd bf : ℝ) (u : ℂ) (A C : ℝ → ℂ) {tau : ℝ} {A' C' : ℂ}
    (hA : HasDerivAt A A' tau) (hC : HasDerivAt C C' tau) :
    (∀ x v : ℝ, HasDerivAt (fun t => Complex.exp (A t + Complex.I * u * x + C t * v))
      (fwdGenerator p phi bd bf
        (fun x v => Complex.exp (A tau + Complex.I * u * x + C tau * v)) x v) tau)
    ↔ C' = riccatiRate p u (C tau) ∧ A' = driftRate p phi bd bf u (C tau) := by
  have hd : ∀ x v : ℝ, HasDerivAt (fun t => Complex.exp (A t + Complex.I * u * x + C t * v))
      (Complex.exp (A tau + Complex.I * u * x + C tau * v) * (A' + C' * v)) tau := by
    intro x v
    exact ((hA.add_const (Complex.I * u * x)).add (hC.mul_const (v : ℂ))).cexp
  have hgen : ∀ x v : ℝ, fwdGenerator p phi bd bf
        (fun x v => Complex.exp (A tau + Complex.I * u * x + C tau * v)) x v
      = Complex.exp (A tau + Complex.I * u * x + C tau * v)
        * (driftRate p phi bd bf u (C tau) + riccatiRate p u (C tau) * v) := by
    intro x v
    rw [fwdGenerator_affine]
    congr 1
    simp only [driftRate, riccatiRate, fwdVarX, fwdCovXV, fwdDriftV]
    push_cast
    ring
  have hiff : ∀ x v : ℝ, (HasDerivAt (fun t => Complex.exp (A t + Complex.I * u * x + C t * v))
      (fwdGenerator p phi bd bf
        (fun x v => Complex.exp (A tau + Complex.I * u * x + C tau * v)) x v) tau)
      ↔ A' + C' * v = driftRate p phi bd bf u (C tau) + riccatiRate p u (C tau) * v := by
    intro x v
    rw [hgen]
    constructor
    · intro h
      exact mul_left_cancel₀ (Complex.exp_ne_zero _) ((hd x v).unique h)
    · intro h
      rw [← h]; exact hd x v
  constructor
  · intro h
    have h0 := (hiff 0 0).1 (h 0 0)
    have h1 := (hiff 0 1).1 (h 0 1)
    simp only [Complex.ofReal_zero, mul_zero, add_zero] at h0
    simp only [Complex.ofReal_one, mul_one] at h1
    exact ⟨by linear_combination h1 - h0, h0⟩
  · rintro ⟨h1, h2⟩ x v
    exact (hiff x v).2 (by rw [h1, h2])

/-! ## Reflection of the Simpson sum -/

theorem simpsonPanels_reflect (m : ℕ) (hm : 0 < m) (T : ℝ) (f : ℝ → ℂ) :
    simpsonPanels m T (fun s => f (T - s)) = simpsonPanels m T f := by
  have hm' : (m : ℝ) ≠ 0 := by exact_mod_cast hm.ne'
  unfold simpsonPanels
  rw [← Finset.sum_range_reflect]
  apply Finset.sum_congr rfl
  intro j hj
  have hj := Finset.mem_range.1 hj
  have e : ((m - 1 - j : ℕ) : ℝ) = m - 1 - j := by
    rw [Nat.cast_sub (by omega), Nat.cast_sub (by omega)]; simp
  have e0 : T - ((2 * (m - 1 - j) : ℕ) : ℝ) * (T / (2 * m)) = ((2 * j + 2 : ℕ) : ℝ) * (T / (2 * m)) := by
    push_cast; rw [e]; field_simp; ring
  have e1 : T - ((2 * (m - 1 - j) + 1 : ℕ) : ℝ) * (T / (2 * m))
      = ((2 * j + 1 : ℕ) : ℝ) * (T / (2 * m)) := by
    push_cast; rw [e]; field_simp; ring
  have e2 : T - ((2 * (m - 1 - j) + 2 : ℕ) : ℝ) * (T / (2 * m)) = ((2 * j : ℕ) : ℝ) * (T / (2 * m)) := by
    push_cast; rw [e]; field_simp; ring
  dsimp only
  rw [e0, e1, e2]
  ring

theorem simpsonPanels_add (m : ℕ) (T : ℝ) (f g : ℝ → ℂ) :
    simpsonPanels m T (fun s => f s + g s) = simpsonPanels m T f + simpsonPanels m T g := by
  unfold simpsonPanels
  rw [← Finset.sum_add_distrib]
  exact Finset.sum_congr rfl fun j _ => by ring

theorem simpsonPanels_congr (m : ℕ) {T : ℝ} (hT : 0 ≤ T) {f g : ℝ → ℂ} (h : ∀ s, 0 ≤ s → f s = g s) :
    simpsonPanels m T f = simpsonPanels m T g := by
  unfold simpsonPanels
  apply Finset.sum_congr rfl
  intro j _
  rw [h _ (by positivity), h _ (by positivity), h _ (by positivity)]

/-! ## Conjugate frequencies -/

theorem cOfTau_conj (p : HhwParams) (hk : 0 < p.heston.kappa) (hr : |p.correlations.xiSigma| ≤ 1)
    (u t : ℝ) : p.cOfTau ((-u : ℝ) : ℂ) t = (starRingEnd ℂ) (p.cOfTau u t) := by
  by_cases ht : t ≤ 0
  · rw [HhwParams.cOfTau, HhwParams.cOfTau, if_pos ht, if_pos ht, map_zero]
  have ht : 0 ≤ t := (not_le.1 ht).le
  rw [cOfTau_eq p _ ht, cOfTau_eq p _ ht]
  have hI : Complex.I * ((-u : ℝ) : ℂ) = (starRingEnd ℂ) (Complex.I * (u : ℂ)) := by
    rw [map_mul, Complex.conj_I, Complex.conj_ofReal]; push_cast; ring
  have hq : chfQ ((-u : ℝ) : ℂ) = (starRingEnd ℂ) (chfQ u) := by
    simp only [chfQ, hI, map_sub, map_mul]
  have hx : chfX p ((-u : ℝ) : ℂ) = (starRingEnd ℂ) (chfX p u) := by
    simp only [chfX, hI, map_sub, map_mul, Complex.conj_ofReal]
  have hdisc : chfDisc p ((-u : ℝ) : ℂ) = (starRingEnd ℂ) (chfDisc p u) := by
    simp only [chfDisc, hx, hI, map_sub, map_mul, Complex.conj_ofReal, map_one]
  have hre : 0 < (chfDisc p u).re := by
    obtain ⟨h1, -, h3⟩ := chf_regular p hk hr u
    rw [chfD_sq] at h3
    have : 0 < (chfX p u).re ^ 2 := by positivity
    linarith
  have harg : (chfDisc p u).arg ≠ Real.pi := by
    intro h
    have := Complex.arg_eq_pi_iff.1 h
    linarith [this.1]
  have hd : chfD p ((-u : ℝ) : ℂ) = (starRingEnd ℂ) (chfD p u) := by
    have h2 : (starRingEnd ℂ) (1 / 2 : ℂ) = 1 / 2 := by
      have : (1 / 2 : ℂ) = ((1 / 2 : ℝ) : ℂ) := by norm_num
      rw [this, Complex.conj_ofReal]
    rw [chfD, hdisc, Complex.conj_cpow _ _ harg, h2, chfD]
  rw [hestonC, hestonC, hestonDen, hestonDen, hq, hx, hd]
  simp only [map_div₀, map_mul, map_sub, map_add, map_one, map_neg, ← Complex.exp_conj,
    Complex.conj_ofReal]

theorem integrandVal_conj (p : HhwParams) (hk : 0 < p.heston.kappa)
    (hr : |p.correlations.xiSigma| ≤ 1) (u s T : ℝ) :
    integrandVal p ((-u : ℝ) : ℂ) s T = (starRingEnd ℂ) (integrandVal p u s T) := by
  have hI : Complex.I * ((-u : ℝ) : ℂ) = (starRingEnd ℂ) (Complex.I * (u : ℂ)) := by
    rw [map_mul, Complex.conj_I, Complex.conj_ofReal]; push_cast; ring
  simp only [integrandVal, driftRate, cOfTau_conj p hk hr, hI, map_sub, map_mul, map_add, map_pow,
    Complex.conj_ofReal]

theorem simpsonPanels_conj (m : ℕ) (T : ℝ) (f : ℝ → ℂ) :
    simpsonPanels m T (fun s => (starRingEnd ℂ) (f s)) = (starRingEnd ℂ) (simpsonPanels m T f) := by
  have h4 : (starRingEnd ℂ) (4 : ℂ) = 4 := by
    have : (4 : ℂ) = ((4 : ℝ) : ℂ) := by norm_num
    rw [this, Complex.conj_ofReal]
  simp only [simpsonPanels, map_sum, map_mul, map_add, Complex.conj_ofReal, h4]

/-! ## Derivatives of `C` for the quadrature error -/

/-- Fourth-order error of the composite rule applied to a constant times `C`. -/
theorem hestonC_quadrature {q x d g : ℂ} (hd : d * d = x * x - g * q) {T : ℝ} (hT : 0 ≤ T)
    (hD : ∀ t, 0 ≤ t → hestonDen x d t ≠ 0) (k : ℂ) :
    ∃ M : ℝ, ∀ m : ℕ, 0 < m → ‖simpsonPanels m T (fun t => k * hestonC q x d t)
      - ∫ t in (0 : ℝ)..T, k * hestonC q x d t‖ ≤ M / (2 * m) ^ 4 := by
  set C := hestonC q x d with hC
  set R : ℂ → ℂ := fun c => q / 2 - x * c + g / 2 * (c * c) with hR
  set R1 : ℂ → ℂ := fun c => -x + g * c with hR1
  have hCd : ∀ t ∈ Set.Icc 0 T, HasDerivAt C (R (C t)) t := fun t ht => hasDerivAt_hestonC hd (hD t ht.1)
  set f1 : ℝ → ℂ := fun t => k * R (C t)
  set f2 : ℝ → ℂ := fun t => k * (R1 (C t) * R (C t))
  set f3 : ℝ → ℂ := fun t => k * (g * R (C t) * R (C t) + R1 (C t) * (R1 (C t) * R (C t)))
  set f4 : ℝ → ℂ := fun t => k * (g * (R1 (C t) * R (C t)) * R (C t) + g * R (C t) * (R1 (C t) * R (C t))
    + (g * R (C t) * (R1 (C t) * R (C t))
      + R1 (C t) * (g * R (C t) * R (C t) + R1 (C t) * (R1 (C t) * R (C t)))))
  have hRd : ∀ t ∈ Set.Icc 0 T, HasDerivAt (fun t => R (C t)) (R1 (C t) * R (C t)) t := by
    intro t ht
    have h := hCd t ht
    have := ((h.const_mul x).const_sub (q / 2)).add ((h.mul h).const_mul (g / 2))
    refine this.congr_deriv ?_
    simp only [hR1]; ring
  have hR1d : ∀ t ∈ Set.Icc 0 T, HasDerivAt (fun t => R1 (C t)) (g * R (C t)) t := by
    intro t ht
    exact ((hCd t ht).const_mul g).const_add (-x)
  have d1 : ∀ t ∈ Set.Icc 0 T, HasDerivAt (fun t => k * C t) (f1 t) t := fun t ht => (hCd t ht).const_mul k
  have d2 : ∀ t ∈ Set.Icc 0 T, HasDerivAt f1 (f2 t) t := fun t ht => (hRd t ht).const_mul k
  have hR2d : ∀ t ∈ Set.Icc 0 T, HasDerivAt (fun t => R1 (C t) * R (C t))
      (g * R (C t) * R (C t) + R1 (C t) * (R1 (C t) * R (C t))) t := fun t ht =>
    (hR1d t ht).mul (hRd t ht)
  have d3 : ∀ t ∈ Set.Icc 0 T, HasDerivAt f2 (f3 t) t := fun t ht => (hR2d t ht).const_mul k
  have d4 : ∀ t ∈ Set.Icc 0 T, HasDerivAt f3 (f4 t) t := by
    intro t ht
    exact ((((hRd t ht).const_mul g).mul (hRd t ht)).add ((hR1d t ht).mul (hR2d t ht))).const_mul k
  have hCc : ContinuousOn C (Set.Icc 0 T) := fun t ht => (hCd t ht).continuousAt.continuousWithinAt
  have hf4 : ContinuousOn f4 (Set.Icc 0 T) := by
    have hRc : ContinuousOn (fun t => R (C t)) (Set.Icc 0 T) := fun t ht =>
      (hRd t ht).continuousAt.continuousWithinAt
    have hR1c : ContinuousOn (fun t => R1 (C t)) (Set.Icc 0 T) := fun t ht =>
      (hR1d t ht).continuousAt.continuousWithinAt
    fun_prop
  obtain ⟨M, hM⟩ := isCompact_Icc.exists_bound_of_continuousOn hf4
  refine ⟨M * T ^ 5 / 180, fun m hm => ?_⟩
  refine (simpson_composite hT d1 d2 d3 d4 hM hm).trans (le_of_eq ?_)
  rw [div_div]

end Verif
