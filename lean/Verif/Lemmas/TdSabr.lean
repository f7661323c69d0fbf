import Verif.Spec.TdSabr
import Verif.Lemmas.Chain
import Verif.Lemmas.GaussVec
import Mathlib.MeasureTheory.Integral.IntegrableOn
import Mathlib.Analysis.SpecialFunctions.Pow.NNReal
import Mathlib.MeasureTheory.Constructions.BorelSpace.Order

/-!
# Moments of the discretised SABR model
-/

namespace Verif

open MeasureTheory ProbabilityTheory

theorem gauss_abs_pow_exp_integrable (j : ℕ) (b : ℝ) :
    Integrable (fun x => |x| ^ j * Real.exp (b * x)) (gaussianReal 0 1) :=
  integrable_pow_abs_mul_exp_of_mem_interior_integrableExpSet (X := fun z : ℝ => z)
    (μ := gaussianReal 0 1) (v := b)
    (by rw [integrableExpSet_fun_id_gaussianReal, interior_univ]; trivial) j

theorem std2_abs_pow_exp (j : ℕ) (b c : ℝ) :
    Integrable (fun z : Fin 2 → ℝ => |z 0| ^ j * Real.exp (b * z 0 + c * z 1)) (stdNormal 2) := by
  have h := (std_prod (n := 2) ![fun x => |x| ^ j * Real.exp (b * x), fun x => Real.exp (c * x)]
    (fun i => by
      fin_cases i
      · exact gauss_abs_pow_exp_integrable j b
      · exact gauss_exp_integrable c)).1
  refine h.congr (Filter.Eventually.of_forall fun z => ?_)
  simp only [Fin.prod_univ_two, Matrix.cons_val_zero, Matrix.cons_val_one]
  rw [Real.exp_add, mul_assoc]

theorem iid_integrable {Z : Type} [MeasurableSpace Z] (μ : Measure Z) [IsProbabilityMeasure μ]
    (n : ℕ) {F : (Fin (n + 1) → Z) → ℝ} (hF : Measurable F)
    (h : Integrable (fun q : Z × (Fin n → Z) => F (Fin.snoc (α := fun _ => Z) q.2 q.1))
      (μ.prod (iidLaw μ n))) : Integrable F (iidLaw μ (n + 1)) := by
  have hmp := iid_snoc μ n
  rw [← hmp.map_eq]
  exact (integrable_map_measure hF.aestronglyMeasurable hmp.measurable.aemeasurable).2 h

variable (a r v dt : ℕ → ℝ) (β : ℝ)

theorem measurable_sabrScheme (k : ℕ) :
    Measurable fun q : (ℝ × ℝ) × (Fin 2 → ℝ) => sabrScheme a r v dt β k q.1 q.2 := by
  unfold sabrScheme
  have h0 : Measurable fun q : (ℝ × ℝ) × (Fin 2 → ℝ) => q.2 0 :=
    (measurable_pi_apply 0).comp measurable_snd
  have h1 : Measurable fun q : (ℝ × ℝ) × (Fin 2 → ℝ) => q.2 1 :=
    (measurable_pi_apply 1).comp measurable_snd
  have hf : Measurable fun q : (ℝ × ℝ) × (Fin 2 → ℝ) => q.1.1 := measurable_fst.comp measurable_fst
  have hx : Measurable fun q : (ℝ × ℝ) × (Fin 2 → ℝ) => q.1.2 := measurable_snd.comp measurable_fst
  refine Measurable.prodMk (Measurable.max ?_ measurable_const) (hx.mul (Real.measurable_exp.comp ?_))
  · exact hf.add (((measurable_const.mul hx).mul (hf.pow_const β)).mul (measurable_const.mul h0))
  · exact measurable_const.add (measurable_const.mul (measurable_const.mul
      ((measurable_const.mul h0).add (measurable_const.mul h1))))

theorem measurable_sabrCut (k : ℕ) :
    Measurable fun q : (ℝ × ℝ) × (Fin 2 → ℝ) => sabrCut a dt β k q.1 q.2 := by
  unfold sabrCut
  have h0 : Measurable fun q : (ℝ × ℝ) × (Fin 2 → ℝ) => q.2 0 :=
    (measurable_pi_apply 0).comp measurable_snd
  have hf : Measurable fun q : (ℝ × ℝ) × (Fin 2 → ℝ) => q.1.1 := measurable_fst.comp measurable_fst
  have hx : Measurable fun q : (ℝ × ℝ) × (Fin 2 → ℝ) => q.1.2 := measurable_snd.comp measurable_fst
  exact (hf.add (((measurable_const.mul hx).mul (hf.pow_const β)).mul
    (measurable_const.mul h0))).neg.max measurable_const

/-- The states met: non-negative forward, positive factor. -/
def SabrGood (s : ℝ × ℝ) : Prop := 0 ≤ s.1 ∧ 0 < s.2

theorem sabrScheme_good (k : ℕ) (s : ℝ × ℝ) (z : Fin 2 → ℝ) (h : SabrGood s) :
    SabrGood (sabrScheme a r v dt β k s z) :=
  ⟨le_max_right _ _, mul_pos h.2 (Real.exp_pos _)⟩

/-- Forward, diffusion and truncation. -/
theorem sabrScheme_split (k : ℕ) (s : ℝ × ℝ) (z : Fin 2 → ℝ) :
    (sabrScheme a r v dt β k s z).1
      = s.1 + a k * s.2 * s.1 ^ β * (√(dt k) * z 0) + sabrCut a dt β k s z := by
  unfold sabrScheme sabrCut
  dsimp only
  generalize s.1 + a k * s.2 * s.1 ^ β * (√(dt k) * z 0) = x
  rcases le_total 0 x with h | h
  · rw [max_eq_left h, max_eq_right (by linarith)]; ring
  · rw [max_eq_right h, max_eq_left (by linarith)]; ring

theorem rpow_le_one_add {β x : ℝ} (h0 : 0 ≤ β) (h1 : β ≤ 1) (hx : 0 ≤ x) : x ^ β ≤ 1 + x := by
  rcases le_total x 1 with h | h
  · exact (Real.rpow_le_one hx h h0).trans (by linarith)
  · calc x ^ β ≤ x ^ (1 : ℝ) := Real.rpow_le_rpow_of_exponent_le h h1
      _ = x := Real.rpow_one x
      _ ≤ 1 + x := by linarith

/-- All mixed moments of forward and factor are finite. -/
theorem sabr_moments (hβ0 : 0 ≤ β) (hβ1 : β ≤ 1) {s : ℝ × ℝ} (hs : SabrGood s) (n : ℕ) :
    ∀ p q : ℕ, Integrable (fun zs => (1 + (chain (sabrScheme a r v dt β) n s (firstDraws zs)).1) ^ p
      * (chain (sabrScheme a r v dt β) n s (firstDraws zs)).2 ^ q) (iidLaw (stdNormal 2) n) := by
  have hmeas : ∀ n p q, Measurable fun zs : Fin n → Fin 2 → ℝ =>
      (1 + (chain (sabrScheme a r v dt β) n s (firstDraws zs)).1) ^ p
      * (chain (sabrScheme a r v dt β) n s (firstDraws zs)).2 ^ q := fun n p q => by
    have h := (measurable_chain (sabrScheme a r v dt β) (measurable_sabrScheme a r v dt β) s n).comp
      (measurable_firstDraws n)
    exact ((measurable_const.add (measurable_fst.comp h)).pow_const p).mul
      ((measurable_snd.comp h).pow_const q)
  induction n with
  | zero => intro p q; exact Integrable.of_finite
  | succ n ih =>
    intro p q
    refine iid_integrable _ n (hmeas (n + 1) p q) ?_
    -- the dominating sum of products
    have hdom : Integrable (fun w : (Fin 2 → ℝ) × (Fin n → Fin 2 → ℝ) =>
        ∑ j ∈ Finset.range (p + 1),
          (|w.1 0| ^ j * Real.exp ((q * v n * √(dt n) * r n) * w.1 0
            + (q * v n * √(dt n) * √(1 - r n ^ 2)) * w.1 1))
          * (Real.exp (-(q * (v n ^ 2 / 2 * dt n))) * (p.choose j * (|a n| * √(dt n)) ^ j)
          * ((1 + (chain (sabrScheme a r v dt β) n s (firstDraws w.2)).1) ^ p
            * (chain (sabrScheme a r v dt β) n s (firstDraws w.2)).2 ^ (q + j))))
        ((stdNormal 2).prod (iidLaw (stdNormal 2) n)) :=
      integrable_finset_sum _ fun j _ => (std2_abs_pow_exp j _ _).mul_prod ((ih p (q + j)).const_mul _)
    refine hdom.mono' ((hmeas (n + 1) p q).comp (iid_snoc (stdNormal 2) n).measurable).aestronglyMeasurable
      (Filter.Eventually.of_forall fun w => ?_)
    rw [chain_snoc_succ]
    obtain ⟨hf, hx⟩ := chain_inv (sabrScheme a r v dt β) SabrGood
      (fun k s z h => sabrScheme_good a r v dt β k s z h) hs (firstDraws w.2) n
    set f := (chain (sabrScheme a r v dt β) n s (firstDraws w.2)).1
    set x := (chain (sabrScheme a r v dt β) n s (firstDraws w.2)).2
    have hg := sabrScheme_good a r v dt β n _ w.1 ⟨hf, hx⟩
    rw [Real.norm_of_nonneg (mul_nonneg (pow_nonneg (by linarith [hg.1]) _) (pow_nonneg hg.2.le _))]
    have h1 : 1 + (sabrScheme a r v dt β n (f, x) w.1).1
        ≤ (1 + f) * (1 + |a n| * √(dt n) * x * |w.1 0|) := by
      have hb := rpow_le_one_add hβ0 hβ1 hf
      have hd : a n * x * f ^ β * (√(dt n) * w.1 0) ≤ (1 + f) * (|a n| * √(dt n) * x * |w.1 0|) := by
        calc a n * x * f ^ β * (√(dt n) * w.1 0) = f ^ β * (x * √(dt n) * (a n * w.1 0)) := by ring
          _ ≤ f ^ β * (x * √(dt n) * (|a n| * |w.1 0|)) := by
            refine mul_le_mul_of_nonneg_left (mul_le_mul_of_nonneg_left ?_ (by positivity))
              (Real.rpow_nonneg hf β)
            rw [← abs_mul]; exact le_abs_self _
          _ ≤ (1 + f) * (x * √(dt n) * (|a n| * |w.1 0|)) :=
            mul_le_mul_of_nonneg_right hb (by positivity)
          _ = _ := by ring
      have hn : 0 ≤ (1 + f) * (|a n| * √(dt n) * x * |w.1 0|) := by positivity
      have : (sabrScheme a r v dt β n (f, x) w.1).1 ≤ f + (1 + f) * (|a n| * √(dt n) * x * |w.1 0|) :=
        max_le (by linarith) (by linarith)
      linarith
    have h2 : (sabrScheme a r v dt β n (f, x) w.1).2 ^ q
        = x ^ q * (Real.exp (-(q * (v n ^ 2 / 2 * dt n)))
          * Real.exp ((q * v n * √(dt n) * r n) * w.1 0
            + (q * v n * √(dt n) * √(1 - r n ^ 2)) * w.1 1)) := by
      change (x * Real.exp _) ^ q = _
      rw [mul_pow, ← Real.exp_nat_mul, ← Real.exp_add]
      congr 2
      ring
    change (1 + (sabrScheme a r v dt β n (f, x) w.1).1) ^ p
      * (sabrScheme a r v dt β n (f, x) w.1).2 ^ q ≤ _
    rw [h2]
    refine (mul_le_mul_of_nonneg_right (pow_le_pow_left₀ (by linarith [hg.1]) h1 p)
      (by positivity)).trans (le_of_eq ?_)
    rw [mul_pow, add_comm 1 (|a n| * √(dt n) * x * |w.1 0|), add_pow (|a n| * √(dt n) * x * |w.1 0|) 1,
      Finset.mul_sum, Finset.sum_mul]
    refine Finset.sum_congr rfl fun j _ => ?_
    rw [one_pow, mul_pow, mul_pow, pow_add]
    ring

/-- Powers of the factor over one step. -/
theorem sabr_factor_step (hr : ∀ k, -1 ≤ r k ∧ r k ≤ 1) (hdt : ∀ k, 0 ≤ dt k) (q : ℝ) (k : ℕ)
    {s : ℝ × ℝ} (hs : SabrGood s) :
    Integrable (fun z => (sabrScheme a r v dt β k s z).2 ^ q) (stdNormal 2)
    ∧ ∫ z, (sabrScheme a r v dt β k s z).2 ^ q ∂stdNormal 2
      = s.2 ^ q * Real.exp ((q ^ 2 - q) / 2 * (v k ^ 2 * dt k)) := by
  have e : ∀ z, (sabrScheme a r v dt β k s z).2 ^ q = s.2 ^ q * Real.exp (-(q * (v k ^ 2 / 2 * dt k)))
      * Real.exp (∑ i, ![q * v k * √(dt k) * r k, q * v k * √(dt k) * √(1 - r k ^ 2)] i * z i) := by
    intro z
    change (s.2 * Real.exp _) ^ q = _
    rw [Real.mul_rpow hs.2.le (Real.exp_pos _).le, ← Real.exp_mul, mul_assoc, ← Real.exp_add]
    congr 2
    simp only [Fin.sum_univ_two, Matrix.cons_val_zero, Matrix.cons_val_one]
    ring
  have h := std_exp ![q * v k * √(dt k) * r k, q * v k * √(dt k) * √(1 - r k ^ 2)]
  simp_rw [e]
  refine ⟨h.1.const_mul _, ?_⟩
  rw [integral_const_mul, h.2, mul_assoc, ← Real.exp_add]
  congr 2
  simp only [Fin.sum_univ_two, Matrix.cons_val_zero, Matrix.cons_val_one]
  have h1 : √(dt k) ^ 2 = dt k := Real.sq_sqrt (hdt k)
  have h2 : √(1 - r k ^ 2) ^ 2 = 1 - r k ^ 2 := Real.sq_sqrt (by nlinarith [hr k])
  rw [mul_pow (q * v k * √(dt k)) (r k), mul_pow (q * v k * √(dt k)) √(1 - r k ^ 2),
    mul_pow (q * v k) √(dt k), h1, h2]
  ring

/-- Powers of the factor along the scheme. -/
theorem sabr_factor (hr : ∀ k, -1 ≤ r k ∧ r k ≤ 1) (hdt : ∀ k, 0 ≤ dt k) (q : ℝ) {s : ℝ × ℝ}
    (hs : SabrGood s) (n : ℕ) :
    Integrable (fun zs => (chain (sabrScheme a r v dt β) n s (firstDraws zs)).2 ^ q)
      (iidLaw (stdNormal 2) n)
    ∧ ∫ zs, (chain (sabrScheme a r v dt β) n s (firstDraws zs)).2 ^ q ∂iidLaw (stdNormal 2) n
      = s.2 ^ q * Real.exp ((q ^ 2 - q) / 2 * ∑ k ∈ Finset.range n, v k ^ 2 * dt k) := by
  have h := chain_martingale (stdNormal 2) (sabrScheme a r v dt β) (measurable_sabrScheme a r v dt β)
    SabrGood (sabrScheme_good a r v dt β) (fun s => s.2 ^ q) (measurable_snd.pow_const q)
    (fun s hs => Real.rpow_nonneg hs.2.le q) (fun k _ => (q ^ 2 - q) / 2 * (v k ^ 2 * dt k))
    (fun k => measurable_const) (fun k s hs => (sabr_factor_step a r v dt β hr hdt q k hs).1)
    (fun k s hs => (sabr_factor_step a r v dt β hr hdt q k hs).2) hs n
  rw [← Finset.mul_sum] at h
  set c := (q ^ 2 - q) / 2 * ∑ k ∈ Finset.range n, v k ^ 2 * dt k with hc
  have hne : Real.exp (-c) ≠ 0 := (Real.exp_pos _).ne'
  have hi := h.1.mul_const (Real.exp c)
  have e : ∀ x : ℝ, x * Real.exp (-c) * Real.exp c = x := fun x => by
    rw [mul_assoc, ← Real.exp_add]; simp
  simp_rw [e] at hi
  refine ⟨hi, ?_⟩
  rw [← h.2, ← integral_mul_const]
  simp_rw [e]

/-- The forward without what the truncations added is a martingale. -/
theorem sabr_forward (hβ0 : 0 ≤ β) (hβ1 : β ≤ 1) {s : ℝ × ℝ} (hs : SabrGood s) (n : ℕ) :
    Integrable (fun zs => (chain (sabrScheme a r v dt β) n s (firstDraws zs)).1
      - ∑ k ∈ Finset.range n, sabrCut a dt β k (chain (sabrScheme a r v dt β) k s (firstDraws zs))
          (firstDraws zs k)) (iidLaw (stdNormal 2) n)
    ∧ ∫ zs, (chain (sabrScheme a r v dt β) n s (firstDraws zs)).1
      - ∑ k ∈ Finset.range n, sabrCut a dt β k (chain (sabrScheme a r v dt β) k s (firstDraws zs))
          (firstDraws zs k) ∂iidLaw (stdNormal 2) n = s.1 := by
  have hch : ∀ n k, Measurable fun zs : Fin n → Fin 2 → ℝ =>
      chain (sabrScheme a r v dt β) k s (firstDraws zs) := fun n k =>
    (measurable_chain _ (measurable_sabrScheme a r v dt β) s k).comp (measurable_firstDraws n)
  have hmeas : ∀ n, Measurable fun zs : Fin n → Fin 2 → ℝ =>
      (chain (sabrScheme a r v dt β) n s (firstDraws zs)).1
      - ∑ k ∈ Finset.range n, sabrCut a dt β k (chain (sabrScheme a r v dt β) k s (firstDraws zs))
          (firstDraws zs k) := fun n => by
    refine (measurable_fst.comp (hch n n)).sub (Finset.measurable_fun_sum _ fun k _ => ?_)
    exact (measurable_sabrCut a dt β k).comp ((hch n k).prodMk
      ((measurable_pi_apply k).comp (measurable_firstDraws n)))
  induction n with
  | zero => exact ⟨Integrable.of_finite, by simp [chain]⟩
  | succ n ih =>
    set G := fun zs : Fin n → Fin 2 → ℝ => (chain (sabrScheme a r v dt β) n s (firstDraws zs)).1
      - ∑ k ∈ Finset.range n, sabrCut a dt β k (chain (sabrScheme a r v dt β) k s (firstDraws zs))
          (firstDraws zs k) with hG
    set C := fun zs : Fin n → Fin 2 → ℝ => a n * √(dt n)
      * ((chain (sabrScheme a r v dt β) n s (firstDraws zs)).2
        * (chain (sabrScheme a r v dt β) n s (firstDraws zs)).1 ^ β) with hC
    have hCi : Integrable C (iidLaw (stdNormal 2) n) := by
      refine Integrable.const_mul ?_ _
      refine (sabr_moments a r v dt β hβ0 hβ1 hs n 1 1).mono' ((measurable_snd.comp (hch n n)).mul
        ((measurable_fst.comp (hch n n)).pow_const β)).aestronglyMeasurable
        (Filter.Eventually.of_forall fun zs => ?_)
      obtain ⟨hf, hx⟩ := chain_inv (sabrScheme a r v dt β) SabrGood
        (fun k s z h => sabrScheme_good a r v dt β k s z h) hs (firstDraws zs) n
      rw [Real.norm_of_nonneg (mul_nonneg hx.le (Real.rpow_nonneg hf _)), pow_one, pow_one, mul_comm]
      exact mul_le_mul_of_nonneg_right (rpow_le_one_add hβ0 hβ1 hf) hx.le
    have e : ∀ (zs : Fin n → Fin 2 → ℝ) (x : Fin 2 → ℝ),
        (chain (sabrScheme a r v dt β) (n + 1) s
          (firstDraws (Fin.snoc (α := fun _ => Fin 2 → ℝ) zs x))).1
        - ∑ k ∈ Finset.range (n + 1), sabrCut a dt β k (chain (sabrScheme a r v dt β) k s
            (firstDraws (Fin.snoc (α := fun _ => Fin 2 → ℝ) zs x)))
            (firstDraws (Fin.snoc (α := fun _ => Fin 2 → ℝ) zs x) k) = G zs + x 0 * C zs := by
      intro zs x
      rw [chain_snoc_succ, Finset.sum_range_succ, firstDraws_snoc_last, chain_snoc _ _ _ _ le_rfl,
        sabrScheme_split, Finset.sum_congr rfl fun k hk => by
          rw [chain_snoc _ s zs x (Finset.mem_range.1 hk).le,
            firstDraws_snoc_lt zs x (Finset.mem_range.1 hk)]]
      simp only [hG, hC]
      ring
    have hI : Integrable (fun zs => (chain (sabrScheme a r v dt β) (n + 1) s (firstDraws zs)).1
        - ∑ k ∈ Finset.range (n + 1), sabrCut a dt β k
          (chain (sabrScheme a r v dt β) k s (firstDraws zs)) (firstDraws zs k))
        (iidLaw (stdNormal 2) (n + 1)) := by
      refine iid_integrable _ n (hmeas (n + 1)) ?_
      simp_rw [e]
      exact (ih.1.comp_snd _).add ((std_coord 0).1.mul_prod hCi)
    refine ⟨hI, ?_⟩
    rw [iid_integral _ n hI]
    simp_rw [e]
    rw [← ih.2]
    refine integral_congr_ae (Filter.Eventually.of_forall fun zs => ?_)
    dsimp only
    rw [integral_add (integrable_const _) ((std_coord 0).1.mul_const _), integral_mul_const,
      (std_coord 0).2]
    simp [hG]

/-- The forward itself is integrable. -/
theorem sabr_forward_integrable (hβ0 : 0 ≤ β) (hβ1 : β ≤ 1) {s : ℝ × ℝ} (hs : SabrGood s) (n : ℕ) :
    Integrable (fun zs => (chain (sabrScheme a r v dt β) n s (firstDraws zs)).1)
      (iidLaw (stdNormal 2) n) := by
  have h := (sabr_moments a r v dt β hβ0 hβ1 hs n 1 0).sub (integrable_const (1 : ℝ))
  refine h.congr (Filter.Eventually.of_forall fun zs => ?_)
  simp

end Verif
