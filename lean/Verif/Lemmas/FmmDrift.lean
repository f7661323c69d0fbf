import Verif.Spec.Fmm
import Verif.Lemmas.FxFmm
import Mathlib.Analysis.SpecialFunctions.Pow.Deriv

/-! # The generator on products of powers of discount factors -/

namespace Verif

open Outcome Classical

/-- Product of powers of one-period discount factors. -/
noncomputable def powBond (τ w : ℕ → ℝ) (k : ℕ) (R : ℕ → ℝ) : ℝ :=
  ∏ i ∈ Finset.Icc 1 k, (1 + τ i * R i) ^ (-w i)

theorem powBond_pos {τ w R : ℕ → ℝ} {k : ℕ} (h : ∀ i ∈ Finset.Icc 1 k, 0 < 1 + τ i * R i) :
    0 < powBond τ w k R := Finset.prod_pos fun i hi => Real.rpow_pos_of_pos (h i hi) _

theorem powBond_update_out {τ w R : ℕ → ℝ} {k j : ℕ} (hj : j ∉ Finset.Icc 1 k) (x : ℝ) :
    powBond τ w k (Function.update R j x) = powBond τ w k R := by
  refine Finset.prod_congr rfl fun i hi => ?_
  have hne : i ≠ j := by rintro rfl; exact hj hi
  rw [Function.update_of_ne hne]

theorem powBond_update_in {τ w R : ℕ → ℝ} {k j : ℕ} (hj : j ∈ Finset.Icc 1 k) (x : ℝ) :
    powBond τ w k (Function.update R j x)
      = (1 + τ j * x) ^ (-w j) * ∏ i ∈ (Finset.Icc 1 k).erase j, (1 + τ i * R i) ^ (-w i) := by
  rw [powBond, ← Finset.mul_prod_erase _ _ hj, Function.update_self]
  congr 1
  refine Finset.prod_congr rfl fun i hi => ?_
  rw [Function.update_of_ne (Finset.ne_of_mem_erase hi)]

theorem hasDerivAt_pow {τ w x : ℝ} (h : 0 < 1 + τ * x) :
    HasDerivAt (fun x => (1 + τ * x) ^ (-w)) (-w * (τ / (1 + τ * x)) * (1 + τ * x) ^ (-w)) x := by
  have h1 : HasDerivAt (fun x => 1 + τ * x) τ x := by
    simpa using ((hasDerivAt_id x).const_mul τ).const_add 1
  refine (h1.rpow_const (p := -w) (.inl h.ne')).congr_deriv ?_
  rw [Real.rpow_sub_one h.ne']
  ring

/-- The loading of the logarithm of a discount factor. -/
noncomputable def bLoad (τ w : ℕ → ℝ) (k : ℕ) (R : ℕ → ℝ) (j : ℕ) : ℝ :=
  if j ∈ Finset.Icc 1 k then -w j * (τ j / (1 + τ j * R j)) else 0

theorem partialR_powBond {τ w R : ℕ → ℝ} {k : ℕ} (j : ℕ)
    (h : ∀ i ∈ Finset.Icc 1 k, 0 < 1 + τ i * R i) :
    partialR j (powBond τ w k) R = bLoad τ w k R j * powBond τ w k R := by
  rw [partialR, bLoad]
  by_cases hj : j ∈ Finset.Icc 1 k
  · rw [if_pos hj]
    simp_rw [powBond_update_in hj]
    rw [((hasDerivAt_pow (h j hj)).mul_const _).deriv, powBond, ← Finset.mul_prod_erase _ _ hj]
    ring
  · rw [if_neg hj, zero_mul]
    simp_rw [powBond_update_out hj]
    exact deriv_const _ _

theorem eventually_pos {τ R : ℕ → ℝ} {k : ℕ} (i : ℕ)
    (h : ∀ i ∈ Finset.Icc 1 k, 0 < 1 + τ i * R i) :
    ∀ᶠ x in nhds (R i), ∀ l ∈ Finset.Icc 1 k, 0 < 1 + τ l * Function.update R i x l := by
  rw [Filter.eventually_all_finset]
  intro l hl
  by_cases hli : l = i
  · subst hli
    simp only [Function.update_self]
    have hc : Continuous fun x => 1 + τ l * x := by fun_prop
    exact hc.continuousAt.eventually (lt_mem_nhds (h l hl))
  · simp only [Function.update_of_ne hli]
    exact Filter.Eventually.of_forall fun _ => h l hl

theorem hasDerivAt_bLoad {τ w R : ℕ → ℝ} {k : ℕ} (i j : ℕ)
    (h : ∀ i ∈ Finset.Icc 1 k, 0 < 1 + τ i * R i) :
    HasDerivAt (fun x => bLoad τ w k (Function.update R i x) j)
      (if i = j ∧ j ∈ Finset.Icc 1 k then w j * (τ j / (1 + τ j * R j)) ^ 2 else 0) (R i) := by
  by_cases hj : j ∈ Finset.Icc 1 k
  · simp only [bLoad, hj, and_true, if_true]
    by_cases hij : i = j
    · subst hij
      simp only [Function.update_self, if_true]
      have h1 : HasDerivAt (fun x => 1 + τ i * x) (τ i) (R i) := by
        simpa using ((hasDerivAt_id (R i)).const_mul (τ i)).const_add 1
      have h2 := ((hasDerivAt_const (R i) (τ i)).div h1 (h i hj).ne').const_mul (-w i)
      refine h2.congr_deriv ?_
      have := (h i hj).ne'
      field_simp
      ring
    · rw [if_neg hij]
      simp only [Function.update_of_ne (Ne.symm hij)]
      exact hasDerivAt_const _ _
  · simp only [bLoad, hj, and_false, if_false]
    exact hasDerivAt_const _ _

theorem hasDerivAt_powBond {τ w R : ℕ → ℝ} {k : ℕ} (j : ℕ)
    (h : ∀ i ∈ Finset.Icc 1 k, 0 < 1 + τ i * R i) :
    HasDerivAt (fun x => powBond τ w k (Function.update R j x))
      (bLoad τ w k R j * powBond τ w k R) (R j) := by
  have hp := partialR_powBond (w := w) j h
  rw [partialR] at hp
  rw [← hp]
  apply DifferentiableAt.hasDerivAt
  by_cases hj : j ∈ Finset.Icc 1 k
  · simp_rw [powBond_update_in hj]
    exact ((hasDerivAt_pow (h j hj)).mul_const _).differentiableAt
  · simp_rw [powBond_update_out hj]
    exact differentiableAt_const _

theorem partialR_partialR_powBond {τ w R : ℕ → ℝ} {k : ℕ} (i j : ℕ)
    (h : ∀ i ∈ Finset.Icc 1 k, 0 < 1 + τ i * R i) :
    partialR i (partialR j (powBond τ w k)) R
      = ((if i = j ∧ j ∈ Finset.Icc 1 k then w j * (τ j / (1 + τ j * R j)) ^ 2 else 0)
        + bLoad τ w k R i * bLoad τ w k R j) * powBond τ w k R := by
  rw [partialR]
  have he : (fun x => partialR j (powBond τ w k) (Function.update R i x))
      =ᶠ[nhds (R i)] fun x => bLoad τ w k (Function.update R i x) j
        * powBond τ w k (Function.update R i x) := by
    filter_upwards [eventually_pos i h] with x hx
    exact partialR_powBond j hx
  have hd : HasDerivAt (fun x => bLoad τ w k (Function.update R i x) j
      * powBond τ w k (Function.update R i x)) _ (R i) :=
    (hasDerivAt_bLoad i j h).mul (hasDerivAt_powBond i h)
  rw [he.deriv_eq, hd.deriv]
  rw [Function.update_eq_self]
  ring

/-- The generator on a product of powers. -/
theorem fmmGen_powBond {n k : ℕ} (hk : k ≤ n) {μ τ w R : ℕ → ℝ} {c : ℕ → ℕ → ℝ}
    (h : ∀ i ∈ Finset.Icc 1 k, 0 < 1 + τ i * R i) :
    fmmGen n μ c (powBond τ w k) R
      = powBond τ w k R * (-∑ j ∈ Finset.Icc 1 k, μ j * (w j * (τ j / (1 + τ j * R j)))
        + 1 / 2 * (∑ j ∈ Finset.Icc 1 k, c j j * (w j * (τ j / (1 + τ j * R j)) ^ 2)
          + ∑ i ∈ Finset.Icc 1 k, ∑ j ∈ Finset.Icc 1 k, c i j
            * (w i * (τ i / (1 + τ i * R i))) * (w j * (τ j / (1 + τ j * R j))))) := by
  have hsub : Finset.Icc 1 k ⊆ Finset.Icc 1 n := Finset.Icc_subset_Icc_right hk
  rw [fmmGen]
  have e1 : ∑ j ∈ Finset.Icc 1 n, μ j * partialR j (powBond τ w k) R
      = powBond τ w k R * -∑ j ∈ Finset.Icc 1 k, μ j * (w j * (τ j / (1 + τ j * R j))) := by
    rw [← Finset.sum_neg_distrib, Finset.mul_sum]
    symm
    refine Finset.sum_subset_zero_on_sdiff hsub (fun j hj => ?_) fun j hj => ?_
    · rw [partialR_powBond j h, bLoad, if_neg (Finset.mem_sdiff.1 hj).2]; ring
    · rw [partialR_powBond j h, bLoad, if_pos hj]; ring
  have e2 : ∑ i ∈ Finset.Icc 1 n, ∑ j ∈ Finset.Icc 1 n,
        c i j * partialR i (partialR j (powBond τ w k)) R
      = powBond τ w k R * (∑ j ∈ Finset.Icc 1 k, c j j * (w j * (τ j / (1 + τ j * R j)) ^ 2)
          + ∑ i ∈ Finset.Icc 1 k, ∑ j ∈ Finset.Icc 1 k, c i j
            * (w i * (τ i / (1 + τ i * R i))) * (w j * (τ j / (1 + τ j * R j)))) := by
    have split : ∀ i j, c i j * partialR i (partialR j (powBond τ w k)) R
        = powBond τ w k R * (c i j * (if i = j ∧ j ∈ Finset.Icc 1 k
            then w j * (τ j / (1 + τ j * R j)) ^ 2 else 0))
          + powBond τ w k R * (c i j * (bLoad τ w k R i * bLoad τ w k R j)) := by
      intro i j
      rw [partialR_partialR_powBond i j h]; ring
    simp_rw [split, Finset.sum_add_distrib, ← Finset.mul_sum, mul_add]
    congr 1
    · congr 1
      symm
      refine Finset.sum_subset_zero_on_sdiff hsub (fun i hi => ?_) fun i hi => ?_
      · refine Finset.sum_eq_zero fun j _ => ?_
        rw [if_neg, mul_zero]
        rintro ⟨rfl, hj⟩
        exact (Finset.mem_sdiff.1 hi).2 hj
      · rw [Finset.sum_eq_single_of_mem i (hsub hi)]
        · rw [if_pos ⟨rfl, hi⟩]
        · intro j _ hji
          rw [if_neg (fun hc => hji hc.1.symm), mul_zero]
    · congr 1
      symm
      refine Finset.sum_subset_zero_on_sdiff hsub (fun i hi => ?_) fun i hi => ?_
      · refine Finset.sum_eq_zero fun j _ => ?_
        rw [bLoad, if_neg (Finset.mem_sdiff.1 hi).2]; ring
      · refine Finset.sum_subset_zero_on_sdiff hsub (fun j hj => ?_) fun j hj => ?_
        · rw [bLoad, bLoad, if_neg (Finset.mem_sdiff.1 hj).2]; ring
        · rw [bLoad, bLoad, if_pos hi, if_pos hj]; ring
  rw [e1, e2]
  ring

/-- A symmetric double sum in terms of its lower triangle. -/
theorem double_sum_lower (k : ℕ) (g : ℕ → ℕ → ℝ) (hs : ∀ i ∈ Finset.Icc 1 k,
    ∀ j ∈ Finset.Icc 1 k, g i j = g j i) :
    ∑ j ∈ Finset.Icc 1 k, g j j + ∑ i ∈ Finset.Icc 1 k, ∑ j ∈ Finset.Icc 1 k, g i j
      = 2 * ∑ j ∈ Finset.Icc 1 k, ∑ i ∈ Finset.Icc 1 j, g i j := by
  induction k with
  | zero => simp
  | succ k ih =>
    have hs' : ∀ i ∈ Finset.Icc 1 k, ∀ j ∈ Finset.Icc 1 k, g i j = g j i := fun i hi j hj =>
      hs i (Finset.Icc_subset_Icc_right (by omega) hi) j
        (Finset.Icc_subset_Icc_right (by omega) hj)
    have h1 : 1 ≤ k + 1 := by omega
    have e1 : ∑ i ∈ Finset.Icc 1 k, g i (k + 1) = ∑ j ∈ Finset.Icc 1 k, g (k + 1) j :=
      Finset.sum_congr rfl fun i hi => hs i (Finset.Icc_subset_Icc_right (by omega) hi) _
        (Finset.mem_Icc.2 ⟨h1, le_rfl⟩)
    have e2 : ∑ i ∈ Finset.Icc 1 (k + 1), ∑ j ∈ Finset.Icc 1 (k + 1), g i j
        = ∑ i ∈ Finset.Icc 1 k, ∑ j ∈ Finset.Icc 1 k, g i j + ∑ i ∈ Finset.Icc 1 k, g i (k + 1)
          + (∑ j ∈ Finset.Icc 1 k, g (k + 1) j + g (k + 1) (k + 1)) := by
      rw [Finset.sum_Icc_succ_top h1]
      simp_rw [Finset.sum_Icc_succ_top h1]
      rw [Finset.sum_add_distrib]
    rw [e2, Finset.sum_Icc_succ_top h1, Finset.sum_Icc_succ_top h1, Finset.sum_Icc_succ_top h1]
    have := ih hs'
    rw [mul_add]
    linarith

theorem discBond_eq (τ : ℕ → ℝ) (k : ℕ) : ∀ R : ℕ → ℝ, discBond τ k R = powBond τ (fun _ => 1) k R :=
  fun _ => Finset.prod_congr rfl fun _ _ => (Real.rpow_neg_one _).symm

/-- The generator on a discounted bond. -/
theorem fmmGen_discBond {n k : ℕ} (hk : k ≤ n) {μ τ s R : ℕ → ℝ} {ρ : ℕ → ℕ → ℝ}
    (h : ∀ i ∈ Finset.Icc 1 k, 0 < 1 + τ i * R i)
    (hρ : ∀ i ∈ Finset.Icc 1 k, ∀ j ∈ Finset.Icc 1 k, ρ i j = ρ j i) :
    fmmGen n μ (fun i j => ρ i j * s i * s j) (discBond τ k) R
      = discBond τ k R * ∑ j ∈ Finset.Icc 1 k,
        (fmmDrift ρ τ R s j - μ j) * (τ j / (1 + τ j * R j)) := by
  have hf : discBond τ k = powBond τ (fun _ => 1) k := funext (discBond_eq τ k)
  rw [hf, fmmGen_powBond hk h]
  congr 1
  have := double_sum_lower k (fun i j => ρ i j * s i * s j * (τ i / (1 + τ i * R i))
    * (τ j / (1 + τ j * R j))) fun i hi j hj => by rw [hρ i hi j hj]; ring
  simp only [one_mul]
  have e1 : ∑ j ∈ Finset.Icc 1 k, ρ j j * s j * s j * (τ j / (1 + τ j * R j)) ^ 2
      = ∑ j ∈ Finset.Icc 1 k, ρ j j * s j * s j * (τ j / (1 + τ j * R j))
        * (τ j / (1 + τ j * R j)) := Finset.sum_congr rfl fun _ _ => by ring
  rw [e1, this, ← mul_assoc, show (1 : ℝ) / 2 * 2 = 1 by norm_num, one_mul, neg_add_eq_sub,
    ← Finset.sum_sub_distrib]
  refine Finset.sum_congr rfl fun j _ => ?_
  rw [fmmDrift, sub_mul, Finset.mul_sum, Finset.sum_mul]
  congr 1
  exact Finset.sum_congr rfl fun i _ => by ring

/-- Weights that vanish make a triangular sum of terms vanish only if every term does. -/
theorem terms_zero_of_partial_sums {n : ℕ} {g : ℕ → ℝ}
    (h : ∀ k, 1 ≤ k → k ≤ n → ∑ j ∈ Finset.Icc 1 k, g j = 0) : ∀ j, 1 ≤ j → j ≤ n → g j = 0 := by
  intro j h1 h2
  obtain ⟨i, rfl⟩ : ∃ i, j = i + 1 := ⟨j - 1, by omega⟩
  have e := h (i + 1) h1 h2
  rw [Finset.sum_Icc_succ_top h1] at e
  rcases Nat.eq_zero_or_pos i with rfl | hi
  · simpa using e
  · rw [h i hi (by omega), zero_add] at e
    exact e

/-- The exact drift condition. -/
theorem drift_iff {n : ℕ} {μ τ s R : ℕ → ℝ} {ρ : ℕ → ℕ → ℝ}
    (hτ : ∀ i, 1 ≤ i → i ≤ n → 0 < τ i) (h : ∀ i, 1 ≤ i → i ≤ n → 0 < 1 + τ i * R i)
    (hρ : ∀ i, 1 ≤ i → i ≤ n → ∀ j, 1 ≤ j → j ≤ n → ρ i j = ρ j i) :
    (∀ k, 1 ≤ k → k ≤ n → fmmGen n μ (fun i j => ρ i j * s i * s j) (discBond τ k) R = 0)
      ↔ ∀ j, 1 ≤ j → j ≤ n → μ j = fmmDrift ρ τ R s j := by
  have hpos : ∀ k, k ≤ n → ∀ i ∈ Finset.Icc 1 k, 0 < 1 + τ i * R i := fun k hk i hi => by
    rw [Finset.mem_Icc] at hi
    exact h i hi.1 (by omega)
  have hgen : ∀ k, k ≤ n → fmmGen n μ (fun i j => ρ i j * s i * s j) (discBond τ k) R
      = discBond τ k R * ∑ j ∈ Finset.Icc 1 k,
        (fmmDrift ρ τ R s j - μ j) * (τ j / (1 + τ j * R j)) := fun k hk =>
    fmmGen_discBond hk (hpos k hk) fun i hi j hj => by
      rw [Finset.mem_Icc] at hi hj
      exact hρ i hi.1 (by omega) j hj.1 (by omega)
  constructor
  · intro hz j h1 h2
    have hsum : ∀ k, 1 ≤ k → k ≤ n → ∑ j ∈ Finset.Icc 1 k,
        (fmmDrift ρ τ R s j - μ j) * (τ j / (1 + τ j * R j)) = 0 := fun k k1 k2 => by
      have := hz k k1 k2
      rw [hgen k k2] at this
      rcases mul_eq_zero.1 this with h0 | h0
      · rw [discBond_eq] at h0
        exact absurd h0 (powBond_pos (hpos k k2)).ne'
      · exact h0
    have := terms_zero_of_partial_sums hsum j h1 h2
    rcases mul_eq_zero.1 this with h0 | h0
    · linarith
    · exact absurd h0 (div_pos (hτ j h1 h2) (h j h1 h2)).ne'
  · intro hμ k k1 k2
    rw [hgen k k2, Finset.sum_eq_zero, mul_zero]
    intro j hj
    rw [Finset.mem_Icc] at hj
    rw [hμ j hj.1 (by omega), sub_self, zero_mul]

end Verif
