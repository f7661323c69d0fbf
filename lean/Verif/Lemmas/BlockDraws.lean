import Verif.Spec.SimLaw
import Mathlib.Probability.Independence.InfinitePi
import Mathlib.Probability.StrongLaw
import Mathlib.Probability.CentralLimitTheorem
import Mathlib.Probability.Moments.Variance

/-!
# Blocks of independent draws

Path `j` of a simulation with `L` steps per path uses the draws `m + j L, …, m + j L + L - 1`.
-/

namespace Verif

open MeasureTheory ProbabilityTheory Filter Topology Measure

variable {Ω E : Type} [MeasurableSpace Ω] [MeasurableSpace E] {P : Measure Ω} [IsProbabilityMeasure P]
  {ν : Measure E} {ξ : ℕ → Ω → E}

/-- The draws of path `j`. -/
def drawBlock (ξ : ℕ → Ω → E) (m L j : ℕ) (ω : Ω) : Fin L → E := fun i => ξ (m + j * L + i) ω

theorem IidDraws.prob (h : IidDraws P ν ξ) : IsProbabilityMeasure ν := by
  rw [← h.law 0]
  exact Measure.isProbabilityMeasure_map (h.measurable 0).aemeasurable

theorem drawBlock_measurable (h : IidDraws P ν ξ) (m L j : ℕ) : Measurable (drawBlock ξ m L j) :=
  measurable_pi_lambda _ fun i => h.measurable _

theorem drawBlock_law (h : IidDraws P ν ξ) (m L j : ℕ) :
    P.map (drawBlock ξ m L j) = Measure.pi fun _ : Fin L => ν := by
  have hp : iIndepFun (fun (i : Fin L) => ξ (m + j * L + i)) P :=
    h.independent.precomp (g := fun i : Fin L => m + j * L + i) fun a b hab => by
      apply Fin.ext; simpa using hab
  have := (iIndepFun_iff_map_fun_eq_pi_map fun i => (h.measurable _).aemeasurable).1 hp
  simp only [h.law] at this
  exact this

theorem drawBlock_indep (h : IidDraws P ν ξ) (m L : ℕ) : iIndepFun (drawBlock ξ m L) P := by
  have := h.prob
  have hinj : Function.Injective fun p : (_ : ℕ) × Fin L => m + p.1 * L + p.2 := by
    rintro ⟨a, i⟩ ⟨b, j⟩ hab
    have hab : m + a * L + i = m + b * L + j := hab
    have h1 := i.2
    have h2 := j.2
    have e : a = b := by
      rcases lt_trichotomy a b with hlt | he | hlt
      · have : (a + 1) * L ≤ b * L := Nat.mul_le_mul_right L hlt
        rw [add_mul, one_mul] at this; omega
      · exact he
      · have : (b + 1) * L ≤ a * L := Nat.mul_le_mul_right L hlt
        rw [add_mul, one_mul] at this; omega
    subst e
    have : i = j := Fin.ext (by omega)
    rw [this]
  have hp := h.independent.precomp hinj
  have h1 := (iIndepFun_iff_map_fun_eq_infinitePi_map fun p => h.measurable _).1 hp
  simp only [h.law] at h1
  rw [iIndepFun_iff_map_fun_eq_infinitePi_map fun j => drawBlock_measurable h m L j]
  have e : (fun ω j => drawBlock ξ m L j ω)
      = (MeasurableEquiv.piCurry fun (_ : ℕ) (_ : Fin L) => E)
        ∘ fun ω (p : (_ : ℕ) × Fin L) => ξ (m + p.1 * L + p.2) ω := by
    ext; simp [Sigma.curry, drawBlock]
  rw [e, ← map_map (by fun_prop) (measurable_pi_lambda _ fun p => h.measurable _), h1,
    infinitePi_map_piCurry fun _ _ => ν]
  congr 1
  funext j
  rw [drawBlock_law h, infinitePi_eq_pi]

theorem drawBlock_integral (h : IidDraws P ν ξ) (m L j : ℕ) {φ : (Fin L → E) → ℝ} (hφ : Measurable φ) :
    ∫ ω, φ (drawBlock ξ m L j ω) ∂P = ∫ b, φ b ∂Measure.pi fun _ : Fin L => ν := by
  rw [← drawBlock_law h m L j, integral_map (drawBlock_measurable h m L j).aemeasurable
    hφ.aestronglyMeasurable]

theorem drawBlock_ident (h : IidDraws P ν ξ) (m L j : ℕ) {φ : (Fin L → E) → ℝ} (hφ : Measurable φ) :
    IdentDistrib (fun ω => φ (drawBlock ξ m L j ω)) (fun ω => φ (drawBlock ξ m L 0 ω)) P P := by
  have : IdentDistrib (drawBlock ξ m L j) (drawBlock ξ m L 0) P P :=
    ⟨(drawBlock_measurable h m L j).aemeasurable, (drawBlock_measurable h m L 0).aemeasurable,
      by rw [drawBlock_law h, drawBlock_law h]⟩
  exact this.comp hφ

theorem block_strong_law (h : IidDraws P ν ξ) (m L : ℕ) {φ : (Fin L → E) → ℝ} (hφ : Measurable φ)
    (hint : Integrable (fun ω => φ (drawBlock ξ m L 0 ω)) P) :
    ∀ᵐ ω ∂P, Tendsto (fun n : ℕ => (∑ j ∈ Finset.range n, φ (drawBlock ξ m L j ω)) / n) atTop
      (𝓝 (∫ ω, φ (drawBlock ξ m L 0 ω) ∂P)) := by
  refine strong_law_ae_real (fun j ω => φ (drawBlock ξ m L j ω)) hint (fun i j hij => ?_)
    (fun i => drawBlock_ident h m L i hφ)
  exact ((drawBlock_indep h m L).indepFun hij).comp hφ hφ

theorem block_clt (h : IidDraws P ν ξ) (m L : ℕ) {φ : (Fin L → E) → ℝ} (hφ : Measurable φ)
    (hint : MemLp (fun ω => φ (drawBlock ξ m L 0 ω)) 2 P) :
    TendstoInDistribution (fun (n : ℕ) ω => (√n)⁻¹ * (∑ j ∈ Finset.range n, φ (drawBlock ξ m L j ω)
      - n * ∫ ω, φ (drawBlock ξ m L 0 ω) ∂P)) atTop id (fun _ => P)
      (gaussianReal 0 Var[fun ω => φ (drawBlock ξ m L 0 ω); P].toNNReal) := by
  refine tendstoInDistribution_inv_sqrt_mul_sum_sub (X := fun j ω => φ (drawBlock ξ m L j ω))
    ⟨aemeasurable_id, Measure.map_id⟩ hint ((drawBlock_indep h m L).comp (fun _ => φ) fun _ => hφ)
    (fun i => drawBlock_ident h m L i hφ)

theorem block_variance (h : IidDraws P ν ξ) (m L n : ℕ) {φ : (Fin L → E) → ℝ} (hφ : Measurable φ)
    (hint : MemLp (fun ω => φ (drawBlock ξ m L 0 ω)) 2 P) (hn : 0 < n) :
    ∫ ω, (∑ j ∈ Finset.range n, φ (drawBlock ξ m L j ω)) / n ∂P = ∫ ω, φ (drawBlock ξ m L 0 ω) ∂P ∧
      Var[fun ω => (∑ j ∈ Finset.range n, φ (drawBlock ξ m L j ω)) / n; P]
        = Var[fun ω => φ (drawBlock ξ m L 0 ω); P] / n := by
  have hn' : (n : ℝ) ≠ 0 := by exact_mod_cast hn.ne'
  have hm : ∀ j, MemLp (fun ω => φ (drawBlock ξ m L j ω)) 2 P := fun j =>
    (drawBlock_ident h m L j hφ).memLp_iff.2 hint
  constructor
  · rw [integral_div, integral_finset_sum _ fun j _ => (hm j).integrable (by norm_num)]
    simp only [fun j => (drawBlock_ident h m L j hφ).integral_eq]
    rw [Finset.sum_const, Finset.card_range, nsmul_eq_mul, mul_div_cancel_left₀ _ hn']
  · have e : (fun ω => (∑ j ∈ Finset.range n, φ (drawBlock ξ m L j ω)) / n)
        = fun ω => (n : ℝ)⁻¹ * (∑ j ∈ Finset.range n, fun ω => φ (drawBlock ξ m L j ω)) ω := by
      funext ω; rw [Finset.sum_apply, div_eq_inv_mul]
    rw [e, variance_const_mul, IndepFun.variance_sum (fun j _ => hm j)
      (fun i _ j _ hij => ((drawBlock_indep h m L).indepFun hij).comp hφ hφ)]
    simp only [fun j => (drawBlock_ident h m L j hφ).variance_eq]
    rw [Finset.sum_const, Finset.card_range, nsmul_eq_mul]
    field_simp

end Verif
