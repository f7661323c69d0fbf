import Verif.Spec.ModelMc
import Verif.Lemmas.BlockDraws
import Verif.Lemmas.Chain

/-!
# Runs of chains of independent draws
-/

namespace Verif

open MeasureTheory ProbabilityTheory Filter Topology

variable {Ω E S V : Type} [MeasurableSpace Ω] [MeasurableSpace E] [MeasurableSpace V]
  {P : Measure Ω} [IsProbabilityMeasure P] {ν : Measure E} {ξ : ℕ → Ω → E}

/-- A run whose paths are one function of successive blocks of draws is a sample, and the common law is
that of the function of `N` independent draws. -/
theorem block_sample [Zero E] (h : IidDraws P ν ξ) {N : ℕ} {Ψ : (ℕ → E) → V} (hΨ : Measurable Ψ)
    (hloc : ∀ z z', (∀ k < N, z k = z' k) → Ψ z = Ψ z') {obs : S → V} {r : ℕ → Ω → List S}
    (hr : ∀ n ω, 0 < n → (r n ω).map obs = (List.range n).map fun j => Ψ fun i => ξ (j * N + i) ω) :
    IidSample P obs r ∧ ∀ G : V → ℝ, Measurable G →
      (Integrable (fun ω => average (fun s => G (obs s)) (r 1 ω)) P
          ↔ Integrable (fun zs => G (Ψ (firstDraws zs))) (iidLaw ν N))
      ∧ ∫ ω, average (fun s => G (obs s)) (r 1 ω) ∂P = ∫ zs, G (Ψ (firstDraws zs)) ∂iidLaw ν N := by
  set Φ : (Fin N → E) → V := fun b => Ψ (firstDraws b) with hΦd
  have hΦ : Measurable Φ := hΨ.comp (measurable_firstDraws N)
  have hX : ∀ j ω, (Ψ fun i => ξ (j * N + i) ω) = Φ (drawBlock ξ 0 N j ω) := by
    intro j ω
    refine hloc _ _ fun k hk => ?_
    rw [firstDraws, dif_pos hk, drawBlock, zero_add]
  have hm : ∀ j, Measurable fun ω => Φ (drawBlock ξ 0 N j ω) := fun j =>
    hΦ.comp (drawBlock_measurable h 0 N j)
  have hlaw : ∀ j, P.map (fun ω => Φ (drawBlock ξ 0 N j ω)) = (iidLaw ν N).map Φ := by
    intro j
    rw [iidLaw, ← drawBlock_law h 0 N j, Measure.map_map hΦ (drawBlock_measurable h 0 N j)]
    rfl
  refine ⟨⟨fun j ω => Φ (drawBlock ξ 0 N j ω), fun n ω hn => ?_, hm, ?_, fun j => ?_⟩, fun G hG => ?_⟩
  · rw [hr n ω hn]
    exact List.map_congr_left fun j _ => hX j ω
  · exact (drawBlock_indep h 0 N).comp (fun _ => Φ) fun _ => hΦ
  · rw [hlaw, hlaw]
  · have e : (fun ω => average (fun s => G (obs s)) (r 1 ω)) = fun ω => G (Φ (drawBlock ξ 0 N 0 ω)) := by
      funext ω
      have h1 := hr 1 ω one_pos
      have h2 : (r 1 ω).length = 1 := by
        rw [← List.length_map (f := obs), h1, List.length_map, List.length_range]
      rw [average, h2, show (r 1 ω).map (fun s => G (obs s)) = ((r 1 ω).map obs).map G by
        rw [List.map_map]; rfl, h1]
      simp only [List.range_one, List.map_cons, List.map_nil, List.sum_cons, List.sum_nil, add_zero,
        Nat.cast_one, div_one]
      exact congrArg G (hX 0 ω)
    have hl := drawBlock_law h 0 N 0
    rw [e, iidLaw, ← hl]
    exact ⟨(integrable_map_measure (hG.comp hΦ).aestronglyMeasurable
        (drawBlock_measurable h 0 N 0).aemeasurable).symm,
      (integral_map (drawBlock_measurable h 0 N 0).aemeasurable
        (hG.comp hΦ).aestronglyMeasurable).symm⟩

/-- The paths of a chain. -/
theorem chain_sample [Zero E] (h : IidDraws P ν ξ) {N : ℕ} {step : ℕ → S → E → S} {s0 : S}
    {obs : S → V} (hm : Measurable fun z : ℕ → E => obs (chain step N s0 z)) {r : ℕ → Ω → List S}
    (hr : ∀ n ω, 0 < n → (r n ω).length = n
      ∧ ∀ i < n, (r n ω)[i]? = some (chain step N s0 fun j => ξ (i * N + j) ω)) :
    IidSample P obs r ∧ ∀ G : V → ℝ, Measurable G →
      (Integrable (fun ω => average (fun s => G (obs s)) (r 1 ω)) P
          ↔ Integrable (fun zs => G (obs (chain step N s0 (firstDraws zs)))) (iidLaw ν N))
      ∧ ∫ ω, average (fun s => G (obs s)) (r 1 ω) ∂P
        = ∫ zs, G (obs (chain step N s0 (firstDraws zs))) ∂iidLaw ν N := by
  refine block_sample h hm (fun z z' hz => by rw [chain_congr step s0 N hz]) fun n ω hn => ?_
  obtain ⟨h1, h2⟩ := hr n ω hn
  refine List.ext_getElem? fun i => ?_
  rw [List.getElem?_map, List.getElem?_map]
  by_cases hi : i < n
  · rw [h2 i hi, List.getElem?_range hi]
    rfl
  · rw [List.getElem?_eq_none (by omega), List.getElem?_eq_none (by rw [List.length_range]; omega)]
    rfl

end Verif
