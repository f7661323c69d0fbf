import Verif.Lemmas.FmmMartingale
import Verif.Props.Cholesky
import Verif.Props.FxFmm
import Mathlib.Analysis.SpecialFunctions.Integrals.Basic

/-!
# C66: the forward market model
-/

namespace Verif

open Outcome Classical

/-! ## The model of the examples -/

/-- Two yearly rates with correlated noise. -/
noncomputable def exForward : Fmm :=
  ⟨exFmmTenor, [1 / 100, 1 / 50], [[1, 1 / 2], [1 / 2, 1]], none, none⟩

theorem exForward_valid : exForward.Valid where
  tenor := exFmmTenor_ordered
  sigmas := rfl
  correlation := rfl
  rows := by simp [exForward, exFmmTenor, FmmTenor.m]
  betas := by simp [exForward]
  knots := by simp [exForward]

theorem exForward_symm : ∀ i, 1 ≤ i → i ≤ 2 → ∀ j, 1 ≤ j → j ≤ 2 →
    matAt exForward.correlation i j = matAt exForward.correlation j i := by
  intro i i1 i2 j j1 j2
  interval_cases i <;> interval_cases j <;> simp [matAt, exForward]

/-- A state at half a year. -/
noncomputable def exPath : FmmPath :=
  ⟨[1 / 20, 3 / 50], [1 / 10000, 1 / 10000], [1 / 20, 0], [0, 0], 1 / 100, 1 / 2⟩

theorem exPath_fits : exPath.Fits exForward.tenor.m := ⟨rfl, rfl, rfl, rfl⟩

theorem exPath_off : OffTolerance exForward.tenor exPath.t := by
  intro j hj
  have hj : j ≤ 2 := hj
  right
  interval_cases j <;> norm_num [FmmTenor.T, exForward, exFmmTenor, exPath, abs_of_pos, abs_of_neg]

theorem exPath_pos : (∀ j, 1 ≤ j → j ≤ exForward.tenor.m →
      0 < 1 + exForward.tenor.len j * exPath.R j)
    ∧ ∀ j, 1 ≤ j → j ≤ exForward.tenor.m → 0 < 1 + exForward.tenor.len j * exPath.startR j := by
  constructor <;>
  · intro j h1 h2
    have h2 : j ≤ 2 := h2
    interval_cases j <;>
      norm_num [FmmTenor.T, FmmTenor.len, exForward, exFmmTenor, exPath, FmmPath.R, FmmPath.startR]

theorem flatCurve_pos (r : ℝ) (t : ℝ) : 0 < flatCurve r t := Real.exp_pos _

/-! ## Construction -/

/-- **C66.** A constructed model has matching dimensions, and keeps them when displacements or a
volatility schedule are added. -/
theorem C66_valid (q : FmmTenor) (hq : q.Ordered) (sigmas : List ℝ) (corr : List (List ℝ)) (f : Fmm)
    (h : Fmm.new q sigmas corr = .ok f) :
    f.Valid ∧ f.tenor = q ∧ (∀ s ∈ f.sigmas, 0 ≤ s)
      ∧ (∀ i, 1 ≤ i → i ≤ q.m → |matAt f.correlation i i - 1| < 1 / 10 ^ 12
        ∧ ∀ j, 1 ≤ j → j ≤ q.m → |matAt f.correlation i j - matAt f.correlation j i| < 1 / 10 ^ 12
          ∧ |matAt f.correlation i j| ≤ 1 + 1 / 10 ^ 12)
      ∧ (∀ b g, f.withBetas b = .ok g → g.Valid ∧ g.betas = some b ∧ ∀ x ∈ b, 0 ≤ x ∧ x ≤ 1)
      ∧ ∀ s g, f.withVolSchedule s = .ok g → g.Valid ∧ g.schedule = some s := by
  unfold Fmm.new at h
  dsimp only at h
  split at h
  · rename_i hc
    obtain ⟨h1, h2, h3, h4⟩ := hc
    injection h with h
    subst h
    have hv : Fmm.Valid ⟨q, sigmas, corr, none, none⟩ := by
      refine ⟨hq, h1, h2, fun row hrow => ?_, by simp, by simp⟩
      obtain ⟨i, hi, rfl⟩ := List.mem_iff_getElem.1 hrow
      have hi' : i < corr.length := hi
      obtain ⟨r, e, hr, -⟩ := h3 i (by omega)
      rw [List.getElem?_eq_getElem hi] at e
      injection e with e
      exact (congrArg List.length e).trans hr
    refine ⟨hv, rfl, h4, fun i i1 i2 => ?_, fun b g hg => ?_, fun s g hg => ?_⟩
    · obtain ⟨row, e, -, d, hrest⟩ := h3 (i - 1) (by omega)
      have hrow : corr.getD (i - 1) [] = row := by simp [List.getD_eq_getElem?_getD, e]
      refine ⟨?_, fun j j1 j2 => ?_⟩
      · rw [matAt, hrow]; exact d
      · rw [matAt, matAt, hrow]; exact hrest (j - 1) (by omega)
    · unfold Fmm.withBetas at hg
      split at hg
      · rename_i hb
        injection hg with hg
        subst hg
        exact ⟨⟨hq, h1, h2, hv.rows, fun b' e => by injection e with e; subst e; exact hb.1,
          by simp⟩, rfl, hb.2⟩
      · cases hg
    · unfold Fmm.withVolSchedule at hg
      split at hg
      · rename_i hs
        injection hg with hg
        subst hg
        refine ⟨⟨hq, h1, h2, hv.rows, by simp, fun l e => ?_⟩, rfl⟩
        injection e with e
        subst e
        exact ⟨hs.1, fun k hk => (hs.2 k hk).1⟩
      · cases hg
  · cases h

/-- The model of the examples is what the constructor returns. -/
example : Fmm.new exFmmTenor [1 / 100, 1 / 50] [[1, 1 / 2], [1 / 2, 1]] = .ok exForward := by
  rw [Fmm.new]
  rw [if_pos]
  · rfl
  · refine ⟨rfl, rfl, fun i hi => ?_, by norm_num⟩
    have hi : i < 2 := hi
    interval_cases i
    · refine ⟨[1, 1 / 2], rfl, rfl, by norm_num, fun j hj => ?_⟩
      have hj : j < 2 := hj
      interval_cases j <;> norm_num [abs_of_pos]
    · refine ⟨[1 / 2, 1], rfl, rfl, by norm_num, fun j hj => ?_⟩
      have hj : j < 2 := hj
      interval_cases j <;> norm_num [abs_of_pos]

/-- **C66.** A piecewise-constant schedule gives the volatility of the last knot not after `t`, and
that of the first knot before all knots. -/
theorem C66_knots (f : Fmm) (l : List (List (ℝ × ℝ))) (g : Fmm)
    (h : f.withVolSchedule (.piecewiseConstant l) = .ok g) (j : ℕ) (h1 : 1 ≤ j)
    (h2 : j ≤ f.tenor.m) (t : ℝ) :
    ∃ v, g.sigmaAt j t = .ok v ∧ StepValue (l.getD (j - 1) []) t v := by
  unfold Fmm.withVolSchedule at h
  split at h
  · rename_i hs
    injection h with h
    subst h
    obtain ⟨hl, hk⟩ := hs
    change ∃ v, VolSchedule.sigmaAt (.piecewiseConstant l) j t f.tenor = .ok v ∧ _
    rw [VolSchedule.sigmaAt, at1_ok l j h1 (by rw [hl]; exact h2) [], ok_bind]
    have hm : l.getD (j - 1) [] ∈ l := by
      rw [List.getD_eq_getElem?_getD, List.getElem?_eq_getElem (by omega : j - 1 < l.length)]
      exact List.getElem_mem _
    obtain ⟨hne, hinc⟩ := hk _ hm
    revert hne hinc
    cases l.getD (j - 1) [] with
    | nil => intro h; exact absurd rfl h
    | cons a rest =>
      obtain ⟨start, sigma⟩ := a
      intro _ hinc
      refine ⟨_, rfl, ?_⟩
      rcases knotLoop_value t sigma _ hinc with ⟨i, e1, e2, e3, e4⟩ | ⟨e1, e2⟩
      · exact .inl ⟨i, e1, e2, e3, e4⟩
      · exact .inr ⟨e1, e2⟩
  · cases h

/-- A schedule with two knots for each rate. -/
example : ∃ g, exForward.withVolSchedule
    (.piecewiseConstant [[(0, 1 / 100), (1, 1 / 50)], [(0, 1 / 50), (1 / 2, 1 / 40)]]) = .ok g := by
  rw [Fmm.withVolSchedule, if_pos]
  · exact ⟨_, rfl⟩
  · refine ⟨rfl, fun k hk => ?_⟩
    rcases List.mem_cons.1 hk with rfl | hk
    · exact ⟨by simp, fun i hi => by
        have : i = 0 := by simp at hi; omega
        subst this; norm_num⟩
    · rw [List.mem_singleton] at hk
      subst hk
      exact ⟨by simp, fun i hi => by
        have : i = 0 := by simp at hi; omega
        subst this; norm_num⟩

/-- **C66.** With displacements, the volatility of a rate is its scheduled volatility times the
current rate weighted by `β` and the initial rate weighted by `1 - β`; without, it is the scheduled
volatility. -/
theorem C66_displacement (f : Fmm) (hv : f.Valid) (j : ℕ) (h1 : 1 ≤ j) (h2 : j ≤ f.tenor.m)
    (t r : ℝ) : ∃ σ, f.sigmaAt j t = .ok σ
      ∧ (f.schedule = none → σ = f.sigmas.getD (j - 1) 0)
      ∧ (f.betas = none → f.adaptedVol j t r = .ok σ)
      ∧ ∀ b, f.betas = some b → f.adaptedVol j t r
        = .ok (σ * (b.getD (j - 1) 0 * r + (1 - b.getD (j - 1) 0) * f.tenor.R j)) := by
  obtain ⟨σ, hσ⟩ := sigmaAt_ok hv h1 h2 t
  refine ⟨σ, hσ, fun hn => ?_, fun hn => ?_, fun b hb => ?_⟩
  · rw [Fmm.sigmaAt, hn] at hσ
    have hl := hv.sigmas
    change at1 f.sigmas j = _ at hσ
    rw [at1_ok _ j h1 (by omega) 0] at hσ
    injection hσ with hσ
    exact hσ.symm
  · rw [Fmm.adaptedVol, hσ, ok_bind, Fmm.displacementLevel, hn]
    change Outcome.ok (σ * 1) = _
    rw [mul_one]
  · have hl := hv.betas b hb
    rw [Fmm.adaptedVol, hσ, ok_bind, Fmm.displacementLevel, hb]
    change ((at1 b j >>= _) >>= _) = _
    rw [at1_ok b j h1 (by omega) 0, ok_bind, at1_ok f.tenor.rates j h1 h2 0, ok_bind]
    rfl

/-- At the initial rate the displacement does not matter: the volatility is lognormal. -/
example (t : ℝ) : Fmm.adaptedVol { exForward with betas := some [1 / 2, 1 / 3] } 2 t (exFmmTenor.R 2)
    = .ok (1 / 50 * exFmmTenor.R 2) := by
  obtain ⟨σ, -, h1, -, h2⟩ := C66_displacement { exForward with betas := some [1 / 2, 1 / 3] }
    ⟨exForward_valid.tenor, exForward_valid.sigmas, exForward_valid.correlation,
      exForward_valid.rows, fun b e => by injection e with e; subst e; rfl,
      exForward_valid.knots⟩ 2 (by norm_num) le_rfl t (exFmmTenor.R 2)
  rw [h2 _ rfl, h1 rfl]
  change Outcome.ok (1 / 50 * (1 / 3 * exFmmTenor.R 2 + (1 - 1 / 3) * exFmmTenor.R 2)) = _
  refine congrArg Outcome.ok ?_
  ring

/-! ## The simulation -/

/-- **C66.** One step: every rate moves by its drift and its share of the noise, the accumulated
variance grows until the end of the application period, the snapshots change exactly when the start
of an application period is passed, and the state variable of the running period moves with the noise
of its rate. -/
theorem C66_step (s : FmmSimulator) (hv : s.model.Valid) (p : FmmPath)
    (hp : p.Fits s.model.tenor.m) (dt : ℝ) (hdt : 0 < dt) (z : List ℝ) :
    ∃ (p' : FmmPath) (v : ℕ → ℝ), s.step p dt z = .ok p' ∧ p'.Fits s.model.tenor.m
      ∧ p'.t = p.t + dt
      ∧ (∀ j, 1 ≤ j → j ≤ s.model.tenor.m →
        s.model.adaptedVol j (p.t + 1 / 2 * dt) (p.R j) = .ok (v j)
        ∧ p'.R j = p.R j
          + fmmDrift (matAt s.model.correlation) s.model.tenor.len p.R
            (fun i => v i * ahead s.model.tenor i (p.t + 1 / 2 * dt)) j * dt
          + v j * ahead s.model.tenor j (p.t + 1 / 2 * dt) * s.dw dt z (j - 1)
        ∧ p'.Y j = p.Y j + (v j / (p.R j + 1 / s.model.tenor.len j)) ^ 2
          * max 0 (min dt (s.model.tenor.T j - p.t))
        ∧ (2 ≤ j ∧ p.t ≤ s.model.tenor.T (j - 1) ∧ s.model.tenor.T (j - 1) < p.t + dt →
          p'.startR j = p'.R j ∧ p'.startY j = p'.Y j ∧ p'.xActive = 0)
        ∧ (¬ (2 ≤ j ∧ p.t ≤ s.model.tenor.T (j - 1) ∧ s.model.tenor.T (j - 1) < p.t + dt) →
          p'.startR j = p.startR j ∧ p'.startY j = p.startY j)
        ∧ (s.model.tenor.T (j - 1) < p.t → p.t < s.model.tenor.T j →
          (p.t + dt ≤ s.model.tenor.T j ∨ j = s.model.tenor.m) →
          ∃ w, s.model.adaptedVol j (p.t + 1 / 2 * dt) (1 / 2 * (p.R j + p'.R j)) = .ok w
            ∧ p'.xActive = p.xActive
              + (1 / s.model.tenor.len j * (p'.Y j - p.startY j) * dt
              + w / (1 / 2 * (p.R j + p'.R j) + 1 / s.model.tenor.len j) * s.dw dt z (j - 1))))
      ∧ (p.t ≤ s.model.tenor.T 0 → p.t + dt ≤ s.model.tenor.T 1 → p'.xActive = p.xActive) :=
  step_ok hv hp hdt z

/-- **C66.** A rate stays at its fixing once its application period has ended, whatever the noise. -/
theorem C66_frozen (s : FmmSimulator) (hv : s.model.Valid) (p : FmmPath)
    (hp : p.Fits s.model.tenor.m) (dt : ℝ) (hdt : 0 < dt) (z : List ℝ) (j : ℕ) (h1 : 1 ≤ j)
    (h2 : j ≤ s.model.tenor.m) (ht : s.model.tenor.T j ≤ p.t) (p' : FmmPath)
    (h : s.step p dt z = .ok p') : p'.R j = p.R j ∧ p'.Y j = p.Y j := by
  obtain ⟨q, v, e, -, -, hj, -⟩ := step_ok hv hp hdt z
  rw [e] at h
  injection h with h
  subst h
  obtain ⟨-, hR, hY, -⟩ := hj j h1 h2
  have ha : ahead s.model.tenor j (p.t + 1 / 2 * dt) = 0 :=
    ahead_after (FmmTenor.tau_pos hv.tenor h1 h2) (by linarith)
  rw [hR, hY, fmmDrift, ha, min_eq_right (by linarith), max_eq_left (by linarith)]
  constructor <;> ring

/-- **C66.** The increments of a step are linear in the independent draws, with the covariances of
the correlation matrix times the length of the step. -/
theorem C66_covariance (f : Fmm) (hv : f.Valid) (s : FmmSimulator) (h : FmmSimulator.new f = .ok s)
    (hs : ∀ i, 1 ≤ i → i ≤ f.tenor.m → ∀ j, 1 ≤ j → j ≤ f.tenor.m →
      matAt f.correlation i j = matAt f.correlation j i) (dt : ℝ) (hdt : 0 < dt) :
    s.model = f ∧ ∃ A : ℕ → ℕ → ℝ,
      (∀ z : List ℝ, z.length = f.tenor.m → ∀ i, 1 ≤ i → i ≤ f.tenor.m →
        s.dw dt z (i - 1) = ∑ k ∈ Finset.range f.tenor.m, A i k * z.getD k 0)
      ∧ ∀ i, 1 ≤ i → i ≤ f.tenor.m → ∀ j, 1 ≤ j → j ≤ f.tenor.m →
        ∑ k ∈ Finset.range f.tenor.m, A i k * A j k = matAt f.correlation i j * dt := by
  unfold FmmSimulator.new at h
  split at h
  · rename_i l hl
    injection h with h
    subst h
    rw [hv.correlation] at hl
    have hf := C52_factor _ _ l (fun a ha b hb => by
      have := hs (a + 1) (by omega) (by omega) (b + 1) (by omega) (by omega)
      simpa [matAt] using this) hl
    refine ⟨rfl, fun i k => √dt * l (i - 1) k, fun z hz i i1 i2 => ?_, fun i i1 i2 j j1 j2 => ?_⟩
    · rw [dw_eq (n := f.tenor.m) hv.correlation hz (by omega), Finset.mul_sum]
      have hsub : Finset.range (i - 1 + 1) ⊆ Finset.range f.tenor.m := by
        rw [Finset.range_subset_range]; omega
      refine Finset.sum_subset_zero_on_sdiff hsub (fun k hk => ?_) fun k _ => by ring
      rw [Finset.mem_sdiff, Finset.mem_range, Finset.mem_range] at hk
      change √dt * l (i - 1) k * _ = 0
      rw [hf.lower (i - 1) (by omega) k hk.1 (by omega)]
      ring
    · have hp := hf.product (i - 1) (by omega) (j - 1) (by omega)
      have e : ∀ k, √dt * l (i - 1) k * (√dt * l (j - 1) k) = dt * (l (i - 1) k * l (j - 1) k) := by
        intro k
        have := Real.mul_self_sqrt hdt.le
        linear_combination l (i - 1) k * l (j - 1) k * this
      simp_rw [e]
      rw [← Finset.mul_sum, hp, mul_comm]
      rfl
  · cases h

/-- The model of the examples can be simulated. -/
theorem exForward_simulator : ∃ s, FmmSimulator.new exForward = .ok s := by
  have hs : SymmetricN 2 fun i j => (exForward.correlation.getD i []).getD j 0 := by
    intro a ha b hb
    interval_cases a <;> interval_cases b <;> rfl
  have : (cholesky 2 fun i j => (exForward.correlation.getD i []).getD j 0).isSome := by
    rw [(C52_iff 2 _ hs).1]
    intro x ⟨a, ha, hx⟩
    simp only [quadForm, Finset.sum_range_succ, Finset.sum_range_zero]
    norm_num [exForward]
    interval_cases a
    · nlinarith [sq_nonneg (x 1 + x 0 / 2), mul_self_pos.2 hx]
    · nlinarith [sq_nonneg (x 0 + x 1 / 2), mul_self_pos.2 hx]
  obtain ⟨l, hl⟩ := Option.isSome_iff_exists.1 this
  refine ⟨⟨exForward, l⟩, ?_⟩
  rw [FmmSimulator.new]
  change (match cholesky 2 fun i j => (exForward.correlation.getD i []).getD j 0 with
    | some l => _ | none => _) = _
  rw [hl]

/-- **C66.** The simulation of a path runs through and ends at the requested time. -/
theorem C66_simulate (s : FmmSimulator) (hv : s.model.Valid) (tEnd : ℝ) (ht : 0 < tEnd)
    (draws : List (List ℝ)) (hd : 0 < draws.length) :
    ∃ p, s.simulatePath tEnd draws = .ok p ∧ p.Fits s.model.tenor.m ∧ p.t = tEnd := by
  obtain ⟨p, h1, h2, h3, -⟩ := initial_ok (s := s) hv.tenor
  have hn : (0 : ℝ) < draws.length := by exact_mod_cast hd
  obtain ⟨p', k1, k2, k3⟩ := run_ok hv (div_pos ht hn) draws p h2
  refine ⟨p', ?_, k2, ?_⟩
  · rw [FmmSimulator.simulatePath, if_pos ⟨ht, hd⟩, h1, ok_bind, k1]
  · rw [k3, h3]; field_simp; ring

/-- **C66.** The drift that a step uses is the only one for which every bond maturing on a tenor date
is driftless in units of the bank account. -/
theorem C66_drift (q : FmmTenor) (hq : q.Ordered) (ρ : ℕ → ℕ → ℝ) (R s μ : ℕ → ℝ)
    (hR : ∀ i, 1 ≤ i → i ≤ q.m → 0 < 1 + q.len i * R i)
    (hρ : ∀ i, 1 ≤ i → i ≤ q.m → ∀ j, 1 ≤ j → j ≤ q.m → ρ i j = ρ j i) :
    (∀ k, 1 ≤ k → k ≤ q.m → fmmGen q.m μ (fun i j => ρ i j * s i * s j) (discBond q.len k) R = 0)
      ↔ ∀ j, 1 ≤ j → j ≤ q.m → μ j = fmmDrift ρ q.len R s j :=
  drift_iff (fun _ h1 h2 => FmmTenor.tau_pos hq h1 h2) hR hρ

/-- The second rate of the example has a positive drift. -/
example : 0 < fmmDrift (matAt exForward.correlation) exForward.tenor.len exPath.R
    (fun i => exForward.sigmas.getD (i - 1) 0) 2 := by
  rw [fmmDrift, show Finset.Icc 1 2 = {1, 2} by decide]
  rw [Finset.sum_pair (by norm_num)]
  norm_num [matAt, exForward, exFmmTenor, FmmTenor.len, FmmTenor.T, exPath, FmmPath.R]

/-! ## Bonds -/

/-- **C66.** A bond maturing on a tenor date, in units of the bank account, is the product of the
one-period discount factors. -/
theorem C66_tenor_bonds (f : Fmm) (hq : f.tenor.Ordered) (p : FmmPath) (hp : p.Fits f.tenor.m)
    (p0 : ℝ → ℝ) (hc : ∀ t, 0 < p0 t) (ho : OffTolerance f.tenor p.t)
    (hr : ∀ j, 1 ≤ j → j ≤ f.tenor.m → 0 < 1 + f.tenor.len j * p.R j)
    (hs : ∀ j, 1 ≤ j → j ≤ f.tenor.m → 0 < 1 + f.tenor.len j * p.startR j) (n : ℕ) (h1 : 1 ≤ n)
    (h2 : n ≤ f.tenor.m) (ht : p.t ≤ f.tenor.T n) :
    ∃ P B, bondPrice f p (f.tenor.T n) p0 = .ok P ∧ bankAccount f p p0 = .ok B ∧ 0 < P ∧ 0 < B
      ∧ P / B = discBond f.tenor.len n p.R :=
  discounted_tenor hq hp h1 h2 ht ho hc hr
    (hs _ (FmmTenor.eta_spec hq p.t).2.1 (((etaN_le_iff hq p.t h1 h2).2 ht).trans h2))

/-- The state of the examples meets the hypotheses. -/
example : ∃ P B, bondPrice exForward exPath (exForward.tenor.T 2) (flatCurve (1 / 20)) = .ok P
    ∧ bankAccount exForward exPath (flatCurve (1 / 20)) = .ok B ∧ 0 < P ∧ 0 < B
    ∧ P / B = discBond exForward.tenor.len 2 exPath.R :=
  C66_tenor_bonds exForward exForward_valid.tenor exPath exPath_fits _ (flatCurve_pos _) exPath_off
    exPath_pos.1 exPath_pos.2 2 (by norm_num) le_rfl
    (by norm_num [exPath, exForward, exFmmTenor, FmmTenor.T])

/-- **C66.** A bond maturing in a later period is, in units of the bank account, a function of the
rates and of one accumulated variance, and this function has no drift. -/
theorem C66_back_stub (f : Fmm) (hq : f.tenor.Ordered) (p0 : ℝ → ℝ) (hc : ∀ t, 0 < p0 t) (k : ℕ)
    (h1 : 2 ≤ k) (h2 : k ≤ f.tenor.m) (T : ℝ) (hT1 : f.tenor.T (k - 1) < T) (hT2 : T ≤ f.tenor.T k)
    (ρ : ℕ → ℕ → ℝ) (hd : ρ k k = 1)
    (hρ : ∀ i, 1 ≤ i → i ≤ f.tenor.m → ∀ j, 1 ≤ j → j ≤ f.tenor.m → ρ i j = ρ j i) :
    ∃ F : (ℕ → ℝ) → ℝ → ℝ,
      (∀ p : FmmPath, p.Fits f.tenor.m → p.t ≤ f.tenor.T (k - 1) → p.t + 1 / 10 ^ 15 ≤ T →
        OffTolerance f.tenor p.t →
        (∀ j, 1 ≤ j → j ≤ f.tenor.m → 0 < 1 + f.tenor.len j * p.R j) →
        (∀ j, 1 ≤ j → j ≤ f.tenor.m → 0 < 1 + f.tenor.len j * p.startR j) →
        ∃ P B, bondPrice f p T p0 = .ok P ∧ bankAccount f p p0 = .ok B ∧ 0 < P ∧ 0 < B
          ∧ P / B = F p.R (p.Y k))
      ∧ ∀ (R s : ℕ → ℝ) (y : ℝ), (∀ j, 1 ≤ j → j ≤ f.tenor.m → 0 < 1 + f.tenor.len j * R j) →
        fmmGen f.tenor.m (fmmDrift ρ f.tenor.len R s) (fun i j => ρ i j * s i * s j)
            (fun R => F R y) R
          + (s k / (R k + 1 / f.tenor.len k)) ^ 2 * deriv (F R) y = 0 := by
  refine ⟨backPrice f.tenor p0 k T, fun p hp ht hfar ho hr hs => ?_, fun R s y hR => ?_⟩
  · have hle := (etaN_le_iff hq p.t (by omega : 1 ≤ k - 1) (by omega)).2 ht
    exact discounted_later hq hp (by omega) h2 hT1 hfar hT2 ho hc hr
      (hs _ (FmmTenor.eta_spec hq p.t).2.1 (by omega))
  · exact backPrice_driftless (by omega) h2 T hR (FmmTenor.tau_pos hq (by omega) h2) hρ hd y

/-- A bond of one and a half years seen from half a year. -/
example : ∃ P B, bondPrice exForward exPath (3 / 2) (flatCurve (1 / 20)) = .ok P
    ∧ bankAccount exForward exPath (flatCurve (1 / 20)) = .ok B ∧ 0 < P ∧ 0 < B := by
  obtain ⟨F, hF, -⟩ := C66_back_stub exForward exForward_valid.tenor (flatCurve (1 / 20))
    (flatCurve_pos _) 2 le_rfl le_rfl (3 / 2) (by norm_num [exForward, exFmmTenor, FmmTenor.T])
    (by norm_num [exForward, exFmmTenor, FmmTenor.T]) (matAt exForward.correlation)
    (by simp [matAt, exForward]) exForward_symm
  obtain ⟨P, B, a, b, c, d, -⟩ := hF exPath exPath_fits
    (by norm_num [exPath, exForward, exFmmTenor, FmmTenor.T]) (by norm_num [exPath]) exPath_off
    exPath_pos.1 exPath_pos.2
  exact ⟨P, B, a, b, c, d⟩

/-- **C66.** A bond maturing in the running period is, in units of the bank account, a function of
the time, the running rate and its two state variables, and this function has no drift. -/
theorem C66_front_stub (f : Fmm) (hq : f.tenor.Ordered) (p0 : ℝ → ℝ) (hc : ∀ t, 0 < p0 t) (k : ℕ)
    (h1 : 1 ≤ k) (h2 : k ≤ f.tenor.m) (T : ℝ) (hT2 : T ≤ f.tenor.T k) (p : FmmPath)
    (hp : p.Fits f.tenor.m) (hr : ∀ j, 1 ≤ j → j < k → 0 < 1 + f.tenor.len j * p.R j)
    (hs : 0 < 1 + f.tenor.len k * p.startR k) (ρ : ℕ → ℕ → ℝ) (hd : ρ k k = 1) :
    ∃ F : ℝ → ℝ → ℝ → ℝ → ℝ,
      (∀ t r x y, f.tenor.T (k - 1) < t → t + 1 / 10 ^ 15 ≤ T → OffTolerance f.tenor t →
        0 < 1 + f.tenor.len k * r →
        ∃ P B, bondPrice f (p.move k t r x y) T p0 = .ok P
          ∧ bankAccount f (p.move k t r x y) p0 = .ok B ∧ 0 < P ∧ 0 < B ∧ P / B = F t r x y)
      ∧ ∀ (t r x y : ℝ) (v : ℕ → ℝ), f.tenor.T (k - 1) < t → t < f.tenor.T k →
        0 < 1 + f.tenor.len k * r →
        stubGen (fmmDrift ρ f.tenor.len (p.move k t r x y).R (fun i => v i * ahead f.tenor i t) k)
          (v k * ahead f.tenor k t) (1 / f.tenor.len k * (y - p.startY k))
          (v k / (r + 1 / f.tenor.len k)) ((v k / (r + 1 / f.tenor.len k)) ^ 2) F t r x y = 0 := by
  have hpos := FmmTenor.tau_pos hq h1 h2
  refine ⟨frontPrice (discBond f.tenor.len (k - 1) p.R * (p0 T / p0 (f.tenor.T k))
      * p0Fwd p0 (f.tenor.T (k - 1)) (f.tenor.T k) ^ ahead f.tenor k T
      * (1 + f.tenor.len k * p.startR k) ^ ahead f.tenor k T
      * Real.exp (1 / 2 * p.startY k * (ahead f.tenor k T * (1 - ahead f.tenor k T))))
    (ahead f.tenor k T) (f.tenor.len k) (f.tenor.T k) (p.startY k), fun t r x y ht hfar ho hrk => ?_,
    fun t r x y v ht1 ht2 hrk => ?_⟩
  · have := discounted_front (p := p.move k t r x y) (f := f) (p0 := p0) hq
      (move_fits hp k t r x y) h1 h2 (T := T) ht hfar hT2 ho hc (fun j j1 j2 => by
        rcases j2.eq_or_lt with rfl | hlt
        · rw [move_R_self hp h1 h2]; exact hrk
        · rw [move_R_ne h1 j1 (by omega)]; exact hr j j1 hlt) hs
    rw [discBond_move h1, move_R_self hp h1 h2, move_Y_self hp h1 h2] at this
    exact this
  · have hdr : fmmDrift ρ f.tenor.len (p.move k t r x y).R (fun i => v i * ahead f.tenor i t) k
        = v k * ((f.tenor.T k - t) / f.tenor.len k)
          * (v k * ((f.tenor.T k - t) / f.tenor.len k) * f.tenor.len k / (1 + f.tenor.len k * r)) := by
      rw [fmmDrift, Finset.sum_eq_single_of_mem k (Finset.mem_Icc.2 ⟨h1, le_rfl⟩), hd, one_mul,
        move_R_self hp h1 h2, ahead_inside hpos ht1.le ht2.le]
      · rfl
      · intro i hi hik
        rw [Finset.mem_Icc] at hi
        have : ahead f.tenor i t = 0 := ahead_after (FmmTenor.tau_pos hq hi.1 (by omega))
          ((hq.mono (by omega : i ≤ k - 1) (by omega)).trans ht1.le)
        simp [this]
    have ha : ahead f.tenor k t = (f.tenor.T k - t) / f.tenor.len k :=
      ahead_inside hpos ht1.le ht2.le
    rw [hdr, ha]
    exact frontPrice_driftless _ _ _ _ _ x y hpos hrk

/-- A bond of nine months seen from half a year. -/
example : ∃ P B, bondPrice exForward (exPath.move 1 (1 / 2) (1 / 20) (1 / 100) (1 / 10000)) (3 / 4)
      (flatCurve (1 / 20)) = .ok P
    ∧ bankAccount exForward (exPath.move 1 (1 / 2) (1 / 20) (1 / 100) (1 / 10000))
      (flatCurve (1 / 20)) = .ok B ∧ 0 < P ∧ 0 < B := by
  obtain ⟨F, hF, -⟩ := C66_front_stub exForward exForward_valid.tenor (flatCurve (1 / 20))
    (flatCurve_pos _) 1 le_rfl (by decide) (3 / 4) (by norm_num [exForward, exFmmTenor, FmmTenor.T])
    exPath exPath_fits (fun j j1 j2 => by omega) (exPath_pos.2 1 le_rfl (by decide))
    (matAt exForward.correlation) (by simp [matAt, exForward])
  obtain ⟨P, B, a, b, c, d, -⟩ := hF (1 / 2) (1 / 20) (1 / 100) (1 / 10000)
    (by norm_num [exForward, exFmmTenor, FmmTenor.T]) (by norm_num) exPath_off
    (by norm_num [exForward, exFmmTenor, FmmTenor.T, FmmTenor.len])
  exact ⟨P, B, a, b, c, d⟩

/-- **C66.** A bond is worth one at its maturity. -/
theorem C66_maturity (f : Fmm) (p : FmmPath) (p0 : ℝ → ℝ) : bondPrice f p p.t p0 = .ok 1 :=
  bond_now rfl

/-- **C66.** On a tenor date the bank account is the product of the fixings, and it stays there
after the last one. -/
theorem C66_bank (f : Fmm) (hq : f.tenor.Ordered) (p : FmmPath) (hp : p.Fits f.tenor.m)
    (p0 : ℝ → ℝ) (hc : ∀ t, 0 < p0 t) (k : ℕ) (h1 : 1 ≤ k) (h2 : k ≤ f.tenor.m)
    (h : p.t = f.tenor.T k ∧ OffTolerance f.tenor p.t ∨ k = f.tenor.m ∧ f.tenor.T k < p.t) :
    bankAccount f p p0 = .ok (∏ j ∈ Finset.Icc 1 k, (1 + f.tenor.len j * p.R j)) := by
  rcases h with ⟨ht, ho⟩ | ⟨rfl, ht⟩
  · have he : f.tenor.etaN p.t = k := FmmTenor.etaN_unique hq h1 (by omega)
      (fun j j1 j2 => by rw [ht]; exact hq.strict j2 h2) fun _ => ht.le
    have h0 := (hc p.t).ne'
    rw [bank_ok hq hp (by omega) ho h0, he, ← ht,
      curVal_now hq (by omega) ho h0 (by rw [he, ht]), mul_one]
    rfl
  · have he : f.tenor.etaN p.t = f.tenor.m + 1 := FmmTenor.etaN_unique hq (by omega) (by omega)
      (fun j j1 j2 => (hq.mono (by omega) le_rfl).trans_lt ht) fun h => by omega
    rw [bank_past hq hp (by omega)]
    rfl

/-- The bank account after the first fixing. -/
example : bankAccount exForward { exPath with t := 1 } (flatCurve (1 / 20)) = .ok (21 / 20) := by
  rw [C66_bank exForward exForward_valid.tenor { exPath with t := 1 } ⟨rfl, rfl, rfl, rfl⟩ _
    (flatCurve_pos _) 1 le_rfl (by decide) (.inl ⟨by norm_num [exForward, exFmmTenor, FmmTenor.T],
      fun j hj => by
        have hj : j ≤ 2 := hj
        interval_cases j <;> norm_num [FmmTenor.T, exForward, exFmmTenor, abs_of_pos, abs_of_neg]⟩)]
  norm_num [exForward, exFmmTenor, FmmTenor.T, FmmTenor.len, exPath, FmmPath.R]

/-- **C66.** At the start the model reprices the initial curve, for every maturity, and the bank
account is one, if the tenor starts at time zero and its rates are those of the curve. -/
theorem C66_initial (s : FmmSimulator) (hq : s.model.tenor.Ordered) (h0 : s.model.tenor.T 0 = 0)
    (ho : OffTolerance s.model.tenor 0) (p0 : ℝ → ℝ) (hc : ∀ t, 0 < p0 t)
    (hr : ∀ j, 1 ≤ j → j ≤ s.model.tenor.m →
      p0 (s.model.tenor.T (j - 1)) / p0 (s.model.tenor.T j)
        = 1 + s.model.tenor.len j * s.model.tenor.R j) :
    ∃ p, s.initialPath = .ok p ∧ bankAccount s.model p p0 = .ok 1
      ∧ ∀ T, 1 / 10 ^ 15 ≤ T → T ≤ s.model.tenor.T s.model.tenor.m →
        bondPrice s.model p T p0 = .ok (p0 T / p0 0) := by
  obtain ⟨p, k1, k2, k3, -, k5, k6, -, -⟩ := initial_ok (s := s) hq
  have hm := hq.1
  have hb : ∀ T, 1 / 10 ^ 15 ≤ T → T ≤ s.model.tenor.T s.model.tenor.m →
      bondPrice s.model p T p0 = .ok (p0 T / p0 0) := fun T t1 t2 => by
    have := bond_initial (p := p) (f := s.model) (p0 := p0) hq k2 (by rw [k3, h0]) hc k6
      (fun j j1 j2 => by rw [k5]; exact hr j j1 j2) (T := T) (by rw [h0]; linarith) t2
    rwa [h0] at this
  refine ⟨p, k1, ?_, hb⟩
  have hlt : (0 : ℝ) < s.model.tenor.T 1 := by
    have := hq.strict (i := 0) (j := 1) (by omega) hm
    rwa [h0] at this
  have he : s.model.tenor.etaN p.t = 1 := FmmTenor.etaN_unique hq le_rfl (by omega)
    (fun j _ _ => by omega) fun _ => by rw [k3]; exact hlt.le
  have ho' : OffTolerance s.model.tenor p.t := by rw [k3]; exact ho
  have hfar : 1 / 10 ^ 15 < s.model.tenor.T 1 := by
    have := (ho 1 hm).resolve_left hlt.ne'
    rwa [sub_zero, abs_of_pos hlt] at this
  have hbe := bond_eta (p0 := p0) hq k2 (by omega) ho' (hc _).ne'
  rw [he, hb _ hfar.le (hq.mono (by omega) le_rfl)] at hbe
  injection hbe with hbe
  rw [bank_ok hq k2 (by omega) ho' (hc _).ne', he, ← hbe]
  have h1 := hr 1 le_rfl hm
  rw [show (1 : ℕ) - 1 = 0 from rfl, h0] at h1
  rw [growth, Finset.Icc_self, Finset.prod_singleton, k5, ← h1]
  have := (hc 0).ne'
  have := (hc (s.model.tenor.T 1)).ne'
  congr 1
  field_simp

/-- A curve that fits the rates of the example. -/
example : ∃ p0 : ℝ → ℝ, (∀ t, 0 < p0 t) ∧ ∀ j, 1 ≤ j → j ≤ exForward.tenor.m →
    p0 (exForward.tenor.T (j - 1)) / p0 (exForward.tenor.T j)
      = 1 + exForward.tenor.len j * exForward.tenor.R j := by
  refine ⟨fun t => (20 / 21 : ℝ) ^ t, fun t => Real.rpow_pos_of_pos (by norm_num) t, ?_⟩
  intro j h1 h2
  have h2 : j ≤ 2 := h2
  interval_cases j <;>
    norm_num [exForward, exFmmTenor, FmmTenor.T, FmmTenor.len, FmmTenor.R]

/-! ## Where the code deviates -/

/-- A model with one yearly rate at zero. -/
noncomputable def exOne : Fmm := ⟨⟨[0, 1], [0]⟩, [1 / 100], [[1]], none, none⟩

theorem exOne_valid : exOne.Valid where
  tenor := ⟨by decide, rfl, by simp [FmmTenor.T, exOne], fun i hi => by
    have hi : i < 1 := hi
    interval_cases i; norm_num [FmmTenor.T, exOne]⟩
  sigmas := rfl
  correlation := rfl
  rows := by simp [exOne, FmmTenor.m]
  betas := by simp [exOne]
  knots := by simp [exOne]

/-- **C66, refuted in the code.** In the first step the state variable of the running period does not
move, because the step begins on the tenor date.  The bond to the end of the period is then the same
for all draws, although the rate of the period moves with the draw. -/
theorem C66_first_step_false : ∃ (s : FmmSimulator) (p : FmmPath) (P : ℝ),
    FmmSimulator.new exOne = .ok s ∧ s.initialPath = .ok p ∧ 0 < P
      ∧ ∀ z : ℝ, ∃ p', s.step p (1 / 4) [z] = .ok p' ∧ p'.R 1 = 49 / 2560000 + 7 / 1600 * z
        ∧ p'.xActive = 0 ∧ bondPrice s.model p' 1 (flatCurve 0) = .ok P := by
  have hch : ∃ l, cholesky 1 (fun i j => (exOne.correlation.getD i []).getD j 0) = some l := by
    refine Option.isSome_iff_exists.1 ?_
    have hs : SymmetricN 1 fun i j => (exOne.correlation.getD i []).getD j 0 := by
      intro a ha b hb
      interval_cases a; interval_cases b; rfl
    rw [(C52_iff 1 _ hs).1]
    intro x ⟨a, ha, hx⟩
    simp only [quadForm, Finset.sum_range_succ, Finset.sum_range_zero]
    interval_cases a
    norm_num [exOne]
    exact hx
  obtain ⟨l, hl⟩ := hch
  have hf := C52_factor 1 _ l (fun a ha b hb => by interval_cases a; interval_cases b; rfl) hl
  have hl1 : l 0 0 = 1 := by
    have h1 := hf.product 0 one_pos 0 one_pos
    have h2 := hf.diagonal 0 one_pos
    norm_num [exOne] at h1
    nlinarith
  have hv : (⟨exOne, l⟩ : FmmSimulator).model.Valid := exOne_valid
  obtain ⟨p, k1, k2, k3, k4, k5, k6, k7, k8⟩ := initial_ok (s := ⟨exOne, l⟩) hv.tenor
  have hT0 : exOne.tenor.T 0 = 0 := by norm_num [exOne, FmmTenor.T]
  have hT1 : exOne.tenor.T 1 = 1 := by norm_num [exOne, FmmTenor.T]
  have hlen : exOne.tenor.len 1 = 1 := by norm_num [FmmTenor.len, exOne, FmmTenor.T]
  have hm : exOne.tenor.m = 1 := rfl
  have hR1 : exOne.tenor.R 1 = 0 := by norm_num [FmmTenor.R, exOne]
  refine ⟨⟨exOne, l⟩, p, frontVal exOne.tenor (flatCurve 0) 1 0 0 (1 / 4) 0 (1 / 40000) 1, ?_, k1,
    frontVal_pos (flatCurve_pos 0) (by rw [hlen]; norm_num) _ _ _ _ _,
    fun z => ?_⟩
  · rw [FmmSimulator.new]
    change (match cholesky 1 fun i j => (exOne.correlation.getD i []).getD j 0 with
      | some l => _ | none => _) = _
    rw [hl]
  obtain ⟨p', v, e1, e2, e3, e4, e5⟩ := step_ok hv k2 (by norm_num : (0 : ℝ) < 1 / 4) [z]
  obtain ⟨g1, g2, g3, -, g5, -⟩ := e4 1 le_rfl le_rfl
  change exOne.adaptedVol 1 _ _ = _ at g1
  change p'.R 1 = p.R 1 + fmmDrift (matAt exOne.correlation) exOne.tenor.len p.R
    (fun i => v i * ahead exOne.tenor i (p.t + 1 / 2 * (1 / 4))) 1 * (1 / 4)
    + v 1 * ahead exOne.tenor 1 (p.t + 1 / 2 * (1 / 4)) * _ at g2
  change p'.Y 1 = p.Y 1 + (v 1 / (p.R 1 + 1 / exOne.tenor.len 1)) ^ 2
    * max 0 (min (1 / 4) (exOne.tenor.T 1 - p.t)) at g3
  have k5' : p.R 1 = 0 := (k5 1).trans hR1
  have k8' : p.startR 1 = 0 := k8.trans hR1
  have hv1 : v 1 = 1 / 100 := by
    have : exOne.adaptedVol 1 (p.t + 1 / 2 * (1 / 4)) (p.R 1) = .ok (1 / 100 * 1) := rfl
    rw [this] at g1
    injection g1 with g1
    linarith
  have hah : ahead exOne.tenor 1 (0 + 1 / 2 * (1 / 4)) = 7 / 8 := by
    rw [ahead, hT1, show (1 : ℕ) - 1 = 0 from rfl, hT0]; norm_num
  have hsq : √(1 / 4 : ℝ) = 1 / 2 := by
    rw [show (1 / 4 : ℝ) = (1 / 2) ^ 2 by norm_num, Real.sqrt_sq (by norm_num)]
  have hdw : (⟨exOne, l⟩ : FmmSimulator).dw (1 / 4) [z] (1 - 1) = 1 / 2 * z := by
    rw [dw_eq (n := 1) rfl rfl (by norm_num), hsq]
    simp [hl1]
  have hR' : p'.R 1 = 49 / 2560000 + 7 / 1600 * z := by
    rw [g2, hdw, k3, k5', zero_add, hah, hv1, fmmDrift, Finset.Icc_self, Finset.sum_singleton,
      hah, hv1, k5', hlen, show matAt exOne.correlation 1 1 = 1 from rfl]
    ring
  have hY' : p'.Y 1 = 1 / 40000 := by
    rw [g3, hv1, k6, k5', hlen, k3, hT1]; norm_num
  obtain ⟨s1, s2⟩ := g5 (by omega)
  have hx : p'.xActive = 0 := by
    rw [e5 (by rw [k3]; exact hT0.ge) (by rw [k3]; change _ ≤ exOne.tenor.T 1; rw [hT1]; norm_num), k4]
  refine ⟨p', e1, hR', hx, ?_⟩
  have ht' : p'.t = 1 / 4 := by rw [e3, k3, zero_add]
  have he : exOne.tenor.etaN p'.t = 1 := FmmTenor.etaN_unique hv.tenor le_rfl (by omega)
    (fun j _ _ => by omega) fun _ => by rw [ht']; change _ ≤ exOne.tenor.T 1; rw [hT1]; norm_num
  have hb := bond_same (p := p') (f := exOne) (p0 := flatCurve 0) hv.tenor e2 (by omega) (T := 1)
    (by rw [he, show (1 : ℕ) - 1 = 0 from rfl, hT0]; norm_num) (by rw [ht']; norm_num)
    (by rw [he, hT1])
  change bondPrice exOne p' 1 _ = _
  rw [hb, curVal, if_neg (by rw [he, ht', show (1 : ℕ) - 1 = 0 from rfl, hT0]; norm_num), he, s1, s2,
    k7, k8', ht', hx, hY']

/-- **C66, refuted in the code.** The snapshot at the start of a period is the rate at the end of the
step that passes the start, not the rate at the start. -/
theorem C66_snapshot_false : ∃ (s : FmmSimulator) (p p' : FmmPath),
    s.model = exForward ∧ p.Fits 2 ∧ p.t = s.model.tenor.T 1 ∧ s.step p (1 / 4) [0, 0] = .ok p'
      ∧ p'.startR 2 ≠ p.R 2 := by
  have hv : (⟨exForward, fun _ _ => 0⟩ : FmmSimulator).model.Valid := exForward_valid
  have hp : ({ exPath with t := 1 } : FmmPath).Fits
    (⟨exForward, fun _ _ => 0⟩ : FmmSimulator).model.tenor.m := ⟨rfl, rfl, rfl, rfl⟩
  have hT1 : exForward.tenor.T 1 = 1 := by norm_num [exForward, exFmmTenor, FmmTenor.T]
  have hT2 : exForward.tenor.T 2 = 2 := by norm_num [exForward, exFmmTenor, FmmTenor.T]
  have hlen : exForward.tenor.len 2 = 1 := by
    rw [FmmTenor.len, hT2, show (2 : ℕ) - 1 = 1 from rfl, hT1]; norm_num
  obtain ⟨p', v, e1, e2, e3, e4, -⟩ := step_ok hv hp (by norm_num : (0 : ℝ) < 1 / 4) [0, 0]
  obtain ⟨g1, g2, -, g4, -⟩ := e4 2 (by norm_num) le_rfl
  have hs := (g4 ⟨le_rfl, hT1.ge, by change exForward.tenor.T 1 < 1 + 1 / 4; rw [hT1]; norm_num⟩).1
  refine ⟨_, _, p', rfl, hp, hT1.symm, e1, ?_⟩
  rw [hs, g2]
  change _ + fmmDrift (matAt exForward.correlation) exForward.tenor.len _
    (fun i => v i * ahead exForward.tenor i (1 + 1 / 2 * (1 / 4))) 2 * (1 / 4) + _ ≠ _
  have hv2 : v 2 = 1 / 50 := by
    have : exForward.adaptedVol 2 (1 + 1 / 2 * (1 / 4)) (exPath.R 2) = .ok (1 / 50 * 1) := rfl
    have g1 : exForward.adaptedVol 2 (1 + 1 / 2 * (1 / 4)) (exPath.R 2) = .ok (v 2) := g1
    rw [this] at g1
    injection g1 with g1
    linarith
  have h1 : ahead exForward.tenor 1 (1 + 1 / 2 * (1 / 4)) = 0 := by
    rw [ahead, hT1]; norm_num [exForward, exFmmTenor, FmmTenor.T]
  have h2 : ahead exForward.tenor 2 (1 + 1 / 2 * (1 / 4)) = 7 / 8 := by
    rw [ahead, hT2, show (2 : ℕ) - 1 = 1 from rfl, hT1]; norm_num
  rw [dw_eq (n := 2) rfl rfl (by norm_num), fmmDrift, show Finset.Icc 1 2 = {1, 2} by decide,
    Finset.sum_pair (by norm_num), h1, h2, hv2, hlen]
  norm_num [matAt, exForward, exPath, FmmPath.R]

/-- **C66, refuted in the code.** A tenor that starts after time zero does not reprice the initial
curve: the bond lacks the discount factor to the first tenor date. -/
theorem C66_start_false : ∃ (s : FmmSimulator) (p : FmmPath) (p0 : ℝ → ℝ),
    s.model.Valid ∧ (∀ t, 0 < p0 t) ∧ p0 0 = 1
      ∧ p0 (s.model.tenor.T 0) / p0 (s.model.tenor.T 1)
        = 1 + s.model.tenor.len 1 * s.model.tenor.R 1
      ∧ s.initialPath = .ok p ∧ ∃ P, bondPrice s.model p (s.model.tenor.T 1) p0 = .ok P
      ∧ P ≠ p0 (s.model.tenor.T 1) := by
  let f : Fmm := ⟨⟨[1, 2], [1]⟩, [1 / 100], [[1]], none, none⟩
  have hT0 : f.tenor.T 0 = 1 := by simp [f, FmmTenor.T]
  have hT1 : f.tenor.T 1 = 2 := by simp [f, FmmTenor.T]
  have hq : f.tenor.Ordered := ⟨by decide, rfl, by rw [hT0]; norm_num, fun i hi => by
    have hi : i < 1 := hi
    interval_cases i; rw [hT0, hT1]; norm_num⟩
  have hv : f.Valid := ⟨hq, rfl, rfl, by simp [f, FmmTenor.m], by simp [f], by simp [f]⟩
  have hc : ∀ t : ℝ, 0 < (1 / 2 : ℝ) ^ t := fun t => Real.rpow_pos_of_pos (by norm_num) t
  have h1 : ((1 / 2 : ℝ) ^ (1 : ℝ)) = 1 / 2 := Real.rpow_one _
  have h2 : ((1 / 2 : ℝ) ^ (2 : ℝ)) = 1 / 4 := by
    rw [show (2 : ℝ) = ((2 : ℕ) : ℝ) by norm_num, Real.rpow_natCast]; norm_num
  have hr : (1 / 2 : ℝ) ^ (f.tenor.T 0) / (1 / 2 : ℝ) ^ (f.tenor.T 1)
      = 1 + f.tenor.len 1 * f.tenor.R 1 := by
    rw [FmmTenor.len, show (1 : ℕ) - 1 = 0 from rfl, hT0, hT1, h1, h2]
    norm_num [FmmTenor.R, f]
  obtain ⟨p, k1, k2, k3, k4, k5, k6, k7, k8⟩ := initial_ok (s := ⟨f, fun _ _ => 1⟩) hq
  refine ⟨⟨f, fun _ _ => 1⟩, p, fun t => (1 / 2 : ℝ) ^ t, hv, hc, by simp, hr, k1, 1 / 2, ?_, ?_⟩
  · have he : f.tenor.etaN p.t = 1 := FmmTenor.etaN_unique hq le_rfl (by omega)
      (fun j _ _ => by omega) fun _ => by rw [k3, hT1]; norm_num
    have hb := bond_same (p := p) (f := f) (p0 := fun t => (1 / 2 : ℝ) ^ t) hq k2
      (by rw [he]; exact le_rfl) (T := f.tenor.T 1)
      (by rw [he, show (1 : ℕ) - 1 = 0 from rfl, hT0, hT1]; norm_num)
      (by rw [k3, hT1]; norm_num) (by rw [he])
    change bondPrice f p (f.tenor.T 1) _ = _
    rw [hb, curVal, if_pos (by
      rw [he, k3, show (1 : ℕ) - 1 = 0 from rfl, hT0]; norm_num), he, k6,
      backVal_end hq hc le_rfl le_rfl, k5]
    change Outcome.ok (1 + f.tenor.len 1 * f.tenor.R 1)⁻¹ = _
    rw [← hr, hT0, hT1, h1, h2]
    norm_num
  · change _ ≠ (1 / 2 : ℝ) ^ (f.tenor.T 1)
    rw [hT1, h2]; norm_num

/-- **C66 (partial).** The Ho-Lee schedule before the start of a period: the log-volatility of the
one-period accumulation factor is that of the Hull-White bond times `τ / (1 + τ R)`.  The equality
itself, which the documentation claims, is false. -/
theorem C66_ho_lee_partial (f : Fmm) (hq : f.tenor.Ordered) (vol a : ℝ) (ha : 1 / 10 ^ 12 ≤ |a|)
    (hs : f.schedule = some (.hoLeeEquivalent vol a)) (hb : f.betas = none) (k : ℕ) (h1 : 1 ≤ k)
    (h2 : k ≤ f.tenor.m) (t r : ℝ) (ht : t ≤ f.tenor.T (k - 1)) (hr : 0 < 1 + f.tenor.len k * r) :
    ∃ v, f.adaptedVol k t r = .ok v
      ∧ v * deriv (fun x => Real.log (1 + f.tenor.len k * x)) r
        = vol * (∫ u in f.tenor.T (k - 1)..f.tenor.T k, Real.exp (-a * (u - t)))
          * (f.tenor.len k / (1 + f.tenor.len k * r)) := by
  have hpos := FmmTenor.tau_pos hq h1 h2
  have hl := hq.2.1
  have ha0 : a ≠ 0 := fun h => by
    rw [h, abs_zero] at ha
    exact absurd ha (by norm_num)
  refine ⟨vol * (Real.exp (-a * (f.tenor.T (k - 1) - t)) - Real.exp (-a * (f.tenor.T k - t))) / a,
    ?_, ?_⟩
  · rw [Fmm.adaptedVol, Fmm.sigmaAt, hs]
    change (VolSchedule.sigmaAt (.hoLeeEquivalent vol a) k t f.tenor >>= _) = _
    rw [VolSchedule.sigmaAt, at1_ok _ _ h1 (by omega) 0, ok_bind, unwrap_getD _ _ (by omega) 0,
      ok_bind]
    change ((if f.tenor.T k ≤ t then Outcome.ok 0 else if |a| < 1 / 10 ^ 12 then _ else
      Outcome.ok (vol * (Real.exp (-a * (f.tenor.T (k - 1) - t))
        - Real.exp (-a * (f.tenor.T k - t))) / a)) >>= _) = _
    rw [if_neg (by linarith), if_neg (by linarith), ok_bind, Fmm.displacementLevel, hb]
    change Outcome.ok (_ * 1) = _
    rw [mul_one]
  · have hd : HasDerivAt (fun x => Real.log (1 + f.tenor.len k * x))
        (f.tenor.len k / (1 + f.tenor.len k * r)) r := by
      have h := ((hasDerivAt_id r).const_mul (f.tenor.len k)).const_add 1
      exact (h.log (by exact hr.ne')).congr_deriv (by simp)
    have hi : ∫ u in f.tenor.T (k - 1)..f.tenor.T k, Real.exp (-a * (u - t))
        = (Real.exp (-a * (f.tenor.T (k - 1) - t)) - Real.exp (-a * (f.tenor.T k - t))) / a := by
      have hder : ∀ u ∈ Set.uIcc (f.tenor.T (k - 1)) (f.tenor.T k),
          HasDerivAt (fun u => -(Real.exp (-a * (u - t)) / a)) (Real.exp (-a * (u - t))) u := by
        intro u _
        have h := ((((hasDerivAt_id u).sub_const t).const_mul (-a)).exp.div_const a).neg
        refine h.congr_deriv ?_
        simp only [id]
        field_simp
      rw [intervalIntegral.integral_eq_sub_of_hasDerivAt hder
        (Continuous.intervalIntegrable (by fun_prop) _ _)]
      ring
    rw [hd.deriv, hi]
    ring

/-- **C66, refuted in the code.** A quarterly period at a rate of zero. -/
theorem C66_ho_lee_false : ∃ f : Fmm, f.Valid ∧ f.betas = none
    ∧ f.schedule = some (.hoLeeEquivalent (1 / 100) 0)
    ∧ ∃ v, f.adaptedVol 1 0 0 = .ok v
      ∧ v * deriv (fun x => Real.log (1 + f.tenor.len 1 * x)) 0
        ≠ 1 / 100 * ∫ u in f.tenor.T 0..f.tenor.T 1, Real.exp (-0 * (u - 0)) := by
  let f : Fmm := ⟨⟨[0, 1 / 4], [0]⟩, [1 / 100], [[1]], none, some (.hoLeeEquivalent (1 / 100) 0)⟩
  have hT0 : f.tenor.T 0 = 0 := by simp [f, FmmTenor.T]
  have hT1 : f.tenor.T 1 = 1 / 4 := by simp [f, FmmTenor.T]
  have hlen : f.tenor.len 1 = 1 / 4 := by
    rw [FmmTenor.len, hT1, show (1 : ℕ) - 1 = 0 from rfl, hT0]; norm_num
  have hq : f.tenor.Ordered := ⟨by decide, rfl, by rw [hT0], fun i hi => by
    have hi : i < 1 := hi
    interval_cases i; rw [hT0, hT1]; norm_num⟩
  refine ⟨f, ⟨hq, rfl, rfl, by simp [f, FmmTenor.m], by simp [f], by simp [f]⟩, rfl, rfl,
    1 / 400, ?_, ?_⟩
  · rw [Fmm.adaptedVol]
    change (VolSchedule.sigmaAt (.hoLeeEquivalent (1 / 100) 0) 1 0 f.tenor >>= _) = _
    rw [VolSchedule.sigmaAt]
    change ((if (1 / 4 : ℝ) ≤ 0 then Outcome.ok 0 else if |(0 : ℝ)| < 1 / 10 ^ 12 then
      Outcome.ok (1 / 100 * ((1 / 4 : ℝ) - 0)) else _) >>= _) = _
    rw [if_neg (by norm_num), if_pos (by norm_num), ok_bind]
    change Outcome.ok (_ * 1) = _
    norm_num
  · have hd : HasDerivAt (fun x => Real.log (1 + f.tenor.len 1 * x)) (1 / 4) 0 := by
      have h := ((hasDerivAt_id (0 : ℝ)).const_mul (f.tenor.len 1)).const_add 1
      exact (h.log (by simp)).congr_deriv (by rw [hlen]; simp)
    rw [hd.deriv, hT0, hT1]
    norm_num

end Verif
