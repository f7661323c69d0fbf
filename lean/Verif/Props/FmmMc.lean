import Verif.Lemmas.FmmMc
import Verif.Props.ModelMc
import Verif.Props.Fmm

/-!
# C90: Monte Carlo averages of the forward market model
-/

namespace Verif

open Outcome MeasureTheory ProbabilityTheory Filter Topology

variable {Ω : Type} [MeasurableSpace Ω] {P : Measure Ω} [IsProbabilityMeasure P]

/-- **C90**: for samples, the average of a payoff converges almost surely if the payoff of a single path
has a mean, and almost surely has no limit otherwise. -/
theorem C90_average_iff {S V : Type} [MeasurableSpace V] {obs : S → V} {r : ℕ → Ω → List S}
    (h : IidSample P obs r) {G : V → ℝ} (hG : Measurable G) :
    (Integrable (fun ω => average (fun s => G (obs s)) (r 1 ω)) P →
      ∀ᵐ ω ∂P, Tendsto (fun n => average (fun s => G (obs s)) (r n ω)) atTop
        (𝓝 (∫ ω, average (fun s => G (obs s)) (r 1 ω) ∂P)))
    ∧ (¬ Integrable (fun ω => average (fun s => G (obs s)) (r 1 ω)) P →
      ∀ᵐ ω ∂P, ¬ ∃ L, Tendsto (fun n => average (fun s => G (obs s)) (r n ω)) atTop (𝓝 L)) := by
  refine ⟨C88_average h hG, fun hn => ?_⟩
  obtain ⟨X, hX, hm, hi, hl⟩ := h
  have e1 : (fun ω => average (fun s => G (obs s)) (r 1 ω)) = fun ω => G (X 0 ω) := by
    funext ω; rw [sample_average hX G one_pos]; simp
  rw [e1] at hn
  have hl' : ∀ j, P.map (fun ω => G (X j ω)) = P.map (fun ω => G (X 0 ω)) := fun j => by
    have a : ∀ j, P.map (fun ω => G (X j ω)) = (P.map (X j)).map G := fun j => by
      rw [Measure.map_map hG (hm j)]; rfl
    rw [a, a, hl]
  filter_upwards [no_mean_diverges (fun j => hG.comp (hm j)) (hi.comp (fun _ => G) fun _ => hG) hl' hn]
    with ω hω ⟨L, hL⟩
  refine hω ⟨L, hL.congr' ?_⟩
  filter_upwards [eventually_gt_atTop 0] with n hn
  rw [sample_average hX G hn]
  rfl

/-! ## The paths -/

/-- **C66.** `simulate_terminal` returns one state per path; path `i` is the simulation of its own block
of draws, and it ends at the requested time.  Empty requests panic. -/
theorem C66_simulate_all {s : FmmSimulator} (hv : s.model.Valid) (z : ℕ → Fin s.model.tenor.m → ℝ)
    (T : ℝ) (N n : ℕ) :
    (0 < T → 0 < N → 0 < n → ∃ l, s.simulateTerminal (fun k => List.ofFn (z k)) T N n = .ok l
      ∧ l.length = n ∧ ∀ i < n, ∃ p, l[i]? = some p ∧ p.Fits s.model.tenor.m ∧ p.t = T
        ∧ s.simulatePath T ((List.range N).map fun j => List.ofFn (z (i * N + j))) = .ok p)
    ∧ (T ≤ 0 ∨ N = 0 ∨ n = 0 → s.simulateTerminal (fun k => List.ofFn (z k)) T N n = .panic) := by
  unfold FmmSimulator.simulateTerminal
  constructor
  · intro h1 h2 h3
    obtain ⟨p, i1, i2, i3, -⟩ := initial_ok (s := s) hv.tenor
    have hn : (0 : ℝ) < N := by exact_mod_cast h2
    have hdt : 0 < T / N := div_pos h1 hn
    rw [if_pos ⟨h1, h2, h3⟩, fmm_pathsLoop hv hdt i1 i2]
    refine ⟨_, rfl, by simp, fun i hi => ?_⟩
    obtain ⟨f1, f2⟩ := fmmChain_fits hv hdt i2 (fun j => z (0 + i * N + j)) N
    refine ⟨_, by simp [hi], f1, ?_, ?_⟩
    · rw [f2, i3]; field_simp; ring
    · rw [FmmSimulator.simulatePath, if_pos ⟨h1, by simpa using h2⟩, i1, ok_bind, List.length_map,
        List.length_range, ← fmmRun_chain hv hdt i2 (fun j => z (0 + i * N + j)) N]
      simp only [zero_add]
  · intro h
    rw [if_neg]
    rintro ⟨h1, h2, h3⟩
    rcases h with h | h | h
    · linarith
    · omega
    · omega

/-- **C90**: the rates at the end of the paths are samples, with the law of the chain of steps. -/
theorem C90_sample {s : FmmSimulator} (hv : s.model.Valid) {ξ : ℕ → Ω → Fin s.model.tenor.m → ℝ}
    (hξ : IidDraws P (stdNormal s.model.tenor.m) ξ) {T : ℝ} {N : ℕ} {r : ℕ → Ω → List FmmPath}
    (hr : ∀ n ω, 0 < n → s.simulateTerminal (drawLists ξ ω) T N n = .ok (r n ω)) :
    (0 < T ∧ 0 < N) ∧ IidSample P (FmmPath.rateVector s.model.tenor.m) r
    ∧ ∃ p0, s.initialPath = .ok p0 ∧ p0.Fits s.model.tenor.m ∧ p0.t = 0
      ∧ (∀ j, p0.R j = s.model.tenor.R j)
      ∧ (∀ n ω, 0 < n → ∀ p ∈ r n ω, p.Fits s.model.tenor.m ∧ p.t = T)
      ∧ ∀ G : (Fin s.model.tenor.m → ℝ) → ℝ, Measurable G →
      (Integrable (fun ω => average (fun p => G (p.rateVector s.model.tenor.m)) (r 1 ω)) P
        ↔ Integrable (fun zs => G ((chain (fmmChainStep s (T / N)) N p0
          (firstDraws zs)).rateVector s.model.tenor.m)) (iidLaw (stdNormal s.model.tenor.m) N))
      ∧ ∫ ω, average (fun p => G (p.rateVector s.model.tenor.m)) (r 1 ω) ∂P
        = ∫ zs, G ((chain (fmmChainStep s (T / N)) N p0 (firstDraws zs)).rateVector s.model.tenor.m)
          ∂iidLaw (stdNormal s.model.tenor.m) N := by
  obtain ⟨ω0⟩ : Nonempty Ω := P.nonempty_of_neZero
  have hc : 0 < T ∧ 0 < N := by
    by_contra hc
    have := (C66_simulate_all hv (fun k => ξ k ω0) T N 1).2 (by
      by_contra h'
      push Not at h'
      exact hc ⟨h'.1, Nat.pos_of_ne_zero h'.2.1⟩)
    have h1 := hr 1 ω0 one_pos
    unfold drawLists at h1
    rw [h1] at this
    cases this
  have hNr : (0 : ℝ) < N := by exact_mod_cast hc.2
  have hdt := div_pos hc.1 hNr
  obtain ⟨p0, i1, i2, i3, -, i5, -⟩ := initial_ok (s := s) hv.tenor
  have hrun : ∀ n ω, 0 < n → r n ω = (List.range n).map fun i =>
      chain (fmmChainStep s (T / N)) N p0 fun j => ξ (i * N + j) ω := by
    intro n ω hn
    have h1 := hr n ω hn
    unfold drawLists FmmSimulator.simulateTerminal at h1
    rw [if_pos ⟨hc.1, hc.2, hn⟩, fmm_pathsLoop hv hdt i1 i2 (fun k => ξ k ω)] at h1
    injection h1 with h1
    rw [← h1]
    simp only [zero_add]
  have hm : Measurable fun z : ℕ → Fin s.model.tenor.m → ℝ =>
      (chain (fmmChainStep s (T / N)) N p0 z).rateVector s.model.tenor.m :=
    measurable_pi_lambda _ fun j => measurable_fmmChain hv hdt i2 N _ (by omega) (by omega)
  obtain ⟨c1, c2⟩ := chain_sample hξ (step := fmmChainStep s (T / N)) (s0 := p0) (N := N) hm (r := r)
    fun n ω hn => ⟨by rw [hrun n ω hn]; simp, fun i hi => by rw [hrun n ω hn]; simp [hi]⟩
  refine ⟨hc, c1, p0, i1, i2, i3, i5, fun n ω hn p hp => ?_, c2⟩
  rw [hrun n ω hn] at hp
  obtain ⟨i, -, rfl⟩ := List.mem_map.1 hp
  obtain ⟨f1, f2⟩ := fmmChain_fits hv hdt i2 (fun j => ξ (i * N + j) ω) N
  refine ⟨f1, ?_⟩
  rw [f2, i3]
  field_simp
  ring

/-- **C90**: the average of every bounded payoff of the rates converges to its expectation. -/
theorem C90_bounded {s : FmmSimulator} (hv : s.model.Valid) {ξ : ℕ → Ω → Fin s.model.tenor.m → ℝ}
    (hξ : IidDraws P (stdNormal s.model.tenor.m) ξ) {T : ℝ} {N : ℕ} {r : ℕ → Ω → List FmmPath}
    (hr : ∀ n ω, 0 < n → s.simulateTerminal (drawLists ξ ω) T N n = .ok (r n ω))
    {G : (Fin s.model.tenor.m → ℝ) → ℝ} (hG : Measurable G) {C : ℝ} (hC : ∀ x, |G x| ≤ C) :
    ∃ p0, s.initialPath = .ok p0 ∧ ∀ᵐ ω ∂P,
      Tendsto (fun n => average (fun p : FmmPath => G (p.rateVector s.model.tenor.m)) (r n ω)) atTop
        (𝓝 (∫ zs, G ((chain (fmmChainStep s (T / N)) N p0 (firstDraws zs)).rateVector s.model.tenor.m)
          ∂iidLaw (stdNormal s.model.tenor.m) N)) := by
  obtain ⟨⟨hT, hN⟩, hs, p0, i1, i2, -, -, -, hg⟩ := C90_sample hv hξ hr
  have hdt : 0 < T / N := div_pos hT (by exact_mod_cast hN)
  obtain ⟨g1, g2⟩ := hg G hG
  refine ⟨p0, i1, ?_⟩
  rw [← g2]
  refine C88_average hs hG (g1.2 ?_)
  have hm : Measurable fun zs : Fin N → Fin s.model.tenor.m → ℝ => G ((chain (fmmChainStep s (T / N)) N p0
      (firstDraws zs)).rateVector s.model.tenor.m) :=
    hG.comp ((measurable_pi_lambda _ fun j => measurable_fmmChain hv hdt i2 N _ (by omega) (by omega)).comp
      (measurable_firstDraws N))
  have : IsProbabilityMeasure (iidLaw (stdNormal s.model.tenor.m) N) := by
    unfold iidLaw stdNormal; infer_instance
  exact Integrable.of_bound hm.aestronglyMeasurable C (Eventually.of_forall fun zs => hC _)

/-! ## One draw at a time -/

theorem dw_update_lt {s : FmmSimulator} (hv : s.model.Valid) (dt : ℝ) (w : Fin s.model.tenor.m → ℝ)
    {i j : ℕ} (i1 : 1 ≤ i) (hij : i < j) (j2 : j ≤ s.model.tenor.m) (x : ℝ) :
    s.dw dt (List.ofFn (Function.update w ⟨j - 1, by omega⟩ x)) (i - 1) = s.dw dt (List.ofFn w) (i - 1) := by
  rw [dw_fin hv dt _ i1 (by omega), dw_fin hv dt _ i1 (by omega)]
  congr 1
  refine Finset.sum_congr rfl fun k _ => ?_
  by_cases hk : (k : ℕ) < i
  · rw [Function.update_of_ne (fun e => by subst e; simp only at hk; omega)]
  · rw [if_neg hk, zero_mul, zero_mul]

theorem dw_update_eq {s : FmmSimulator} (hv : s.model.Valid) (dt : ℝ) (w : Fin s.model.tenor.m → ℝ)
    {j : ℕ} (j1 : 1 ≤ j) (j2 : j ≤ s.model.tenor.m) (x : ℝ) :
    s.dw dt (List.ofFn (Function.update w ⟨j - 1, by omega⟩ x)) (j - 1)
      = s.dw dt (List.ofFn (Function.update w ⟨j - 1, by omega⟩ 0)) (j - 1)
        + √dt * s.chol (j - 1) (j - 1) * x := by
  rw [dw_fin hv dt _ j1 j2, dw_fin hv dt _ j1 j2, mul_assoc, ← mul_add]
  congr 1
  have e : ∀ k : Fin s.model.tenor.m,
      (if (k : ℕ) < j then s.chol (j - 1) k else 0) * Function.update w ⟨j - 1, by omega⟩ x k
      = (if (k : ℕ) < j then s.chol (j - 1) k else 0) * Function.update w ⟨j - 1, by omega⟩ 0 k
        + if k = ⟨j - 1, by omega⟩ then s.chol (j - 1) (j - 1) * x else 0 := by
    intro k
    by_cases hk : k = ⟨j - 1, by omega⟩
    · subst hk
      rw [Function.update_self, Function.update_self, if_pos rfl, if_pos (by simp only; omega), mul_zero,
        zero_add]
    · rw [Function.update_of_ne hk, Function.update_of_ne hk, if_neg hk, add_zero]
  rw [Finset.sum_congr rfl fun k _ => e k, Finset.sum_add_distrib, Finset.sum_ite_eq']
  simp

/-- The sensitivity of the `j`-th rate to the last draw that moves it. -/
noncomputable def slope (s : FmmSimulator) (p : FmmPath) (dt : ℝ) (j : ℕ) : ℝ :=
  volAt s.model (p.t + 1 / 2 * dt) (p.R j) j * ahead s.model.tenor j (p.t + 1 / 2 * dt)
    * (√dt * s.chol (j - 1) (j - 1))

theorem next_update {s : FmmSimulator} (hv : s.model.Valid) {p : FmmPath} (hp : p.Fits s.model.tenor.m)
    {dt : ℝ} (hdt : 0 < dt) (w : Fin s.model.tenor.m → ℝ) {j : ℕ} (j1 : 1 ≤ j)
    (j2 : j ≤ s.model.tenor.m) (x : ℝ) :
    (∀ i, 1 ≤ i → i < j → (s.next p dt (List.ofFn (Function.update w ⟨j - 1, by omega⟩ x))).R i
      = (s.next p dt (List.ofFn w)).R i)
    ∧ (s.next p dt (List.ofFn (Function.update w ⟨j - 1, by omega⟩ x))).R j
      = (s.next p dt (List.ofFn (Function.update w ⟨j - 1, by omega⟩ 0))).R j + slope s p dt j * x := by
  constructor
  · intro i i1 i2
    rw [(next_ok hv hp hdt _).2.2.2 i i1 (by omega), (next_ok hv hp hdt _).2.2.2 i i1 (by omega),
      dw_update_lt hv dt w i1 i2 j2 x]
  · rw [(next_ok hv hp hdt _).2.2.2 j j1 j2, (next_ok hv hp hdt _).2.2.2 j j1 j2,
      dw_update_eq hv dt w j1 j2 x, slope]
    ring

/-- Without displacement the volatility does not depend on the rate. -/
theorem volAt_flat {f : Fmm} (hb : f.betas = none) (t r r' : ℝ) (j : ℕ) : volAt f t r j = volAt f t r' j := by
  unfold volAt Fmm.adaptedVol Fmm.displacementLevel
  rw [hb]

theorem volAt_ne {f : Fmm} (hv : f.Valid) (hb : f.betas = none) {j : ℕ} (j1 : 1 ≤ j) (j2 : j ≤ f.tenor.m)
    (hσ : ∀ t, f.sigmaAt j t ≠ .ok 0) (t r : ℝ) : volAt f t r j ≠ 0 := by
  obtain ⟨σ, h1, -, h2, -⟩ := C66_displacement f hv j j1 j2 t r
  rw [volAt, h2 hb]
  intro h
  exact hσ t (by rw [h1]; exact congrArg _ h)

theorem ahead_pos {q : FmmTenor} (hq : q.Ordered) {j : ℕ} (j1 : 1 ≤ j) (j2 : j ≤ q.m) {t : ℝ}
    (ht : t < q.T j) : 0 < ahead q j t := by
  have := FmmTenor.tau_pos hq j1 j2
  rw [ahead, lt_max_iff]
  right
  exact lt_min one_pos (div_pos (by linarith) this)

/-- The factor of a constructed simulator has a positive diagonal, and so has the matrix. -/
theorem fmm_diagonal {f : Fmm} (hv : f.Valid) {s : FmmSimulator} (h : FmmSimulator.new f = .ok s)
    (hs : ∀ i, 1 ≤ i → i ≤ f.tenor.m → ∀ j, 1 ≤ j → j ≤ f.tenor.m →
      matAt f.correlation i j = matAt f.correlation j i) : s.model = f
    ∧ ∀ j, 1 ≤ j → j ≤ f.tenor.m → 0 < s.chol (j - 1) (j - 1) ∧ 0 < matAt f.correlation j j := by
  unfold FmmSimulator.new at h
  split at h
  · rename_i l hl
    injection h with h
    subst h
    rw [hv.correlation] at hl
    have hf := C52_factor _ _ l (fun a ha b hb => by
      have := hs (a + 1) (by omega) (by omega) (b + 1) (by omega) (by omega)
      simpa [matAt] using this) hl
    refine ⟨rfl, fun j j1 j2 => ⟨hf.diagonal _ (by omega), ?_⟩⟩
    have hp := hf.product (j - 1) (by omega) (j - 1) (by omega)
    change 0 < (f.correlation.getD (j - 1) []).getD (j - 1) 0
    rw [← hp]
    have hd := hf.diagonal (j - 1) (by omega)
    exact lt_of_lt_of_le (mul_pos hd hd) (Finset.single_le_sum (f := fun k => l (j - 1) k * l (j - 1) k)
      (fun k _ => mul_self_nonneg _) (Finset.mem_range.2 (by omega)))
  · cases h

theorem slope_ne {s : FmmSimulator} (hv : s.model.Valid) (hb : s.model.betas = none) {p : FmmPath} {dt : ℝ}
    (hdt : 0 < dt) {j : ℕ} (j1 : 1 ≤ j) (j2 : j ≤ s.model.tenor.m)
    (hσ : ∀ t, s.model.sigmaAt j t ≠ .ok 0) (hc : 0 < s.chol (j - 1) (j - 1))
    (ht : p.t + 1 / 2 * dt < s.model.tenor.T j) : slope s p dt j ≠ 0 :=
  mul_ne_zero (mul_ne_zero (volAt_ne hv hb j1 j2 hσ _ _) (ahead_pos hv.tenor j1 j2 ht).ne')
    (mul_ne_zero (Real.sqrt_pos.2 hdt).ne' hc.ne')

theorem firstDraws_update {E : Type} [Zero E] {N n : ℕ} (hn : n < N) (zs : Fin N → E) (w : E) :
    (∀ k < n, firstDraws (Function.update zs ⟨n, hn⟩ w) k = firstDraws zs k)
    ∧ firstDraws (Function.update zs ⟨n, hn⟩ w) n = w
    ∧ ∀ k, n < k → firstDraws (Function.update zs ⟨n, hn⟩ w) k = firstDraws zs k := by
  refine ⟨fun k hk => ?_, ?_, fun k hk => ?_⟩
  · rw [firstDraws, firstDraws, dif_pos (by omega), dif_pos (by omega),
      Function.update_of_ne (fun e => by rw [Fin.mk.injEq] at e; omega)]
  · rw [firstDraws, dif_pos hn, Function.update_self]
  · by_cases h : k < N
    · rw [firstDraws, firstDraws, dif_pos h, dif_pos h,
        Function.update_of_ne (fun e => by rw [Fin.mk.injEq] at e; omega)]
    · rw [firstDraws, firstDraws, dif_neg h, dif_neg h]

/-- The drift splits off the term of the rate itself. -/
theorem fmmDrift_last (ρ : ℕ → ℕ → ℝ) (τ R S : ℕ → ℝ) {j : ℕ} (j1 : 1 ≤ j) : fmmDrift ρ τ R S j
    = S j * (∑ i ∈ Finset.Icc 1 (j - 1), ρ i j * (S i * τ i / (1 + τ i * R i)))
      + S j * (ρ j j * (S j * τ j)) / (1 + τ j * R j) := by
  obtain ⟨j', rfl⟩ : ∃ j', j = j' + 1 := ⟨j - 1, by omega⟩
  rw [fmmDrift, Finset.sum_Icc_succ_top (by omega), Nat.add_sub_cancel]
  ring

/-- Two steps: as a function of one draw of the first step, the rate after the second has a pole. -/
theorem two_steps {s : FmmSimulator} (hv : s.model.Valid) (hb : s.model.betas = none) {q : FmmPath}
    (hq : q.Fits s.model.tenor.m) {dt : ℝ} (hdt : 0 < dt) (w y : Fin s.model.tenor.m → ℝ) {j : ℕ}
    (j1 : 1 ≤ j) (j2 : j ≤ s.model.tenor.m) (hσ : ∀ t, s.model.sigmaAt j t ≠ .ok 0)
    (hc : 0 < s.chol (j - 1) (j - 1)) (hρ : 0 < matAt s.model.correlation j j)
    (ht : q.t + dt + 1 / 2 * dt < s.model.tenor.T j) :
    ∃ α β c a b : ℝ, c ≠ 0 ∧ b ≠ 0 ∧ ∀ x, (s.next (s.next q dt (List.ofFn
        (Function.update w ⟨j - 1, by omega⟩ x))) dt (List.ofFn y)).R j = α + β * x + c / (a + b * x) := by
  have hup := fun x => next_update hv hq hdt w j1 j2 x
  have hfit := fun x => next_ok hv hq hdt (List.ofFn (Function.update w ⟨j - 1, by omega⟩ x))
  have hR : ∀ x i, 1 ≤ i → i < j →
      (s.next q dt (List.ofFn (Function.update w ⟨j - 1, by omega⟩ x))).R i
        = (s.next q dt (List.ofFn w)).R i := fun x => (hup x).1
  have hτ0 : 0 < s.model.tenor.len j := FmmTenor.tau_pos hv.tenor j1 j2
  have hslope : slope s q dt j ≠ 0 := slope_ne hv hb hdt j1 j2 hσ hc (by linarith)
  have hSj : volAt s.model (q.t + dt + 1 / 2 * dt) 0 j
      * ahead s.model.tenor j (q.t + dt + 1 / 2 * dt) ≠ 0 :=
    mul_ne_zero (volAt_ne hv hb j1 j2 hσ _ _) (ahead_pos hv.tenor j1 j2 ht).ne'
  generalize hA : (s.next q dt (List.ofFn (Function.update w ⟨j - 1, by omega⟩ 0))).R j = A at hup
  generalize hB : slope s q dt j = B at hup hslope
  generalize hS : (fun i => volAt s.model (q.t + dt + 1 / 2 * dt) 0 i
    * ahead s.model.tenor i (q.t + dt + 1 / 2 * dt)) = S
  have hSi : ∀ i, volAt s.model (q.t + dt + 1 / 2 * dt) 0 i
    * ahead s.model.tenor i (q.t + dt + 1 / 2 * dt) = S i := fun i => by rw [← hS]
  rw [hSi] at hSj
  generalize hτ : s.model.tenor.len j = τ at hτ0
  generalize hD : (∑ i ∈ Finset.Icc 1 (j - 1), matAt s.model.correlation i j
    * (S i * s.model.tenor.len i / (1 + s.model.tenor.len i * (s.next q dt (List.ofFn w)).R i))) = D
  generalize hr : matAt s.model.correlation j j = ρ at hρ
  refine ⟨A + S j * D * dt + S j * s.dw dt (List.ofFn y) (j - 1), B, S j * (ρ * (S j * τ)) * dt,
    1 + τ * A, τ * B, mul_ne_zero (mul_ne_zero hSj (mul_ne_zero hρ.ne' (mul_ne_zero hSj hτ0.ne'))) hdt.ne',
    mul_ne_zero hτ0.ne' hslope, fun x => ?_⟩
  rw [(next_ok hv (hfit x).2.1 hdt _).2.2.2 j j1 j2, (hfit x).2.2.1, fmmDrift_last _ _ _ _ j1]
  have hvol : ∀ i r, volAt s.model (q.t + dt + 1 / 2 * dt) r i
      * ahead s.model.tenor i (q.t + dt + 1 / 2 * dt) = S i := fun i r => by
    rw [volAt_flat hb _ _ 0, hSi]
  simp only [hvol]
  rw [(hup x).2, Finset.sum_congr rfl fun i hi => by
    rw [hR x i (Finset.mem_Icc.1 hi).1 (by have := (Finset.mem_Icc.1 hi).2; omega)], hD, hτ, hr,
    show 1 + τ * A + τ * B * x = 1 + τ * (A + B * x) by ring]
  ring

/-- **C90, refuted in the code.** When a path has at least two steps and a rate without displacement is
still moving in the last one, the average of that rate over the paths almost surely has no limit: the
drift of the next step has a pole where `1 + τ R` vanishes, and the simulated rate is normal. -/
theorem C90_rate_false {f : Fmm} (hv : f.Valid) {s : FmmSimulator} (h : FmmSimulator.new f = .ok s)
    (hs : ∀ i, 1 ≤ i → i ≤ f.tenor.m → ∀ j, 1 ≤ j → j ≤ f.tenor.m →
      matAt f.correlation i j = matAt f.correlation j i) (hb : f.betas = none)
    {ξ : ℕ → Ω → Fin s.model.tenor.m → ℝ}
    (hξ : IidDraws P (stdNormal s.model.tenor.m) ξ) {T : ℝ} {N : ℕ} {r : ℕ → Ω → List FmmPath}
    (hr : ∀ n ω, 0 < n → s.simulateTerminal (drawLists ξ ω) T N n = .ok (r n ω)) (hN : 2 ≤ N)
    {j : ℕ} (j1 : 1 ≤ j) (j2 : j ≤ f.tenor.m) (hσ : ∀ t, f.sigmaAt j t ≠ .ok 0)
    (ht : T - 1 / 2 * (T / N) < f.tenor.T j) :
    ∀ᵐ ω ∂P, ¬ ∃ L, Tendsto (fun n => average (fun p : FmmPath => p.R j) (r n ω)) atTop (𝓝 L) := by
  obtain ⟨rfl, hdiag⟩ := fmm_diagonal hv h hs
  obtain ⟨hc, hρ⟩ := hdiag j j1 j2
  obtain ⟨⟨hT, hN0⟩, hsam, p0, i1, i2, i3, -, -, hg⟩ := C90_sample hv hξ hr
  have hNr : (0 : ℝ) < N := by exact_mod_cast hN0
  set dt := T / (N : ℝ) with hdtd
  have hdt : 0 < dt := div_pos hT hNr
  have hlt : j - 1 < s.model.tenor.m := by omega
  have hG : Measurable fun v : Fin s.model.tenor.m → ℝ => v ⟨j - 1, hlt⟩ := measurable_pi_apply _
  have hread : ∀ p : FmmPath, p.rateVector s.model.tenor.m ⟨j - 1, hlt⟩ = p.R j := fun p => by
    rw [FmmPath.rateVector]
    congr 1
    simp only
    omega
  have key := (C90_average_iff hsam hG).2 fun hint => by
    have h1 := ((hg _ hG).1).1 hint
    simp only [hread] at h1
    obtain ⟨n, rfl⟩ : ∃ n, N = n + 2 := ⟨N - 2, by omega⟩
    have : IsProbabilityMeasure (stdNormal s.model.tenor.m) := by unfold stdNormal; infer_instance
    obtain ⟨zs, h2⟩ := (fiber_integrable h1 ⟨n, by omega⟩).exists
    obtain ⟨w, h3⟩ := (fiber_integrable h2 ⟨j - 1, hlt⟩).exists
    set q := chain (fmmChainStep s dt) n p0 (firstDraws zs) with hq
    obtain ⟨f1, f2⟩ := fmmChain_fits hv hdt i2 (firstDraws zs) n
    rw [← hq] at f1 f2
    have hmid : q.t + dt + 1 / 2 * dt = T - 1 / 2 * dt := by
      rw [f2, i3, hdtd]
      push_cast
      field_simp
      ring
    obtain ⟨α, β, c, a, b, hc0, hb0, hval⟩ := two_steps hv hb f1 hdt w (firstDraws zs (n + 1)) j1 j2 hσ hc hρ
      (by rw [hmid]; exact ht)
    have hchain : ∀ x, (chain (fmmChainStep s dt) (n + 2) p0 (firstDraws
        (Function.update zs ⟨n, by omega⟩ (Function.update w ⟨j - 1, hlt⟩ x)))).R j
        = α + β * x + c / (a + b * x) := by
      intro x
      obtain ⟨u1, u2, u3⟩ := firstDraws_update (N := n + 2) (n := n) (by omega) zs
        (Function.update w ⟨j - 1, hlt⟩ x)
      rw [chain, chain, u2, u3 (n + 1) (by omega), chain_congr _ _ n u1, ← hval x]
      rfl
    simp only [hchain] at h3
    exact not_integrable_pole hc0 hb0 h3
  filter_upwards [key] with ω hω
  simpa only [hread] using hω

/-- After a single step the mean exists: the average of a rate converges to the rate plus its drift. -/
theorem C90_one_step {s : FmmSimulator} (hv : s.model.Valid) {ξ : ℕ → Ω → Fin s.model.tenor.m → ℝ}
    (hξ : IidDraws P (stdNormal s.model.tenor.m) ξ) {T : ℝ} {r : ℕ → Ω → List FmmPath}
    (hr : ∀ n ω, 0 < n → s.simulateTerminal (drawLists ξ ω) T 1 n = .ok (r n ω))
    {j : ℕ} (j1 : 1 ≤ j) (j2 : j ≤ s.model.tenor.m) {v : ℕ → ℝ}
    (hvol : ∀ i, 1 ≤ i → i ≤ s.model.tenor.m →
      s.model.adaptedVol i (T / 2) (s.model.tenor.R i) = .ok (v i)) :
    ∀ᵐ ω ∂P, Tendsto (fun n => average (fun p : FmmPath => p.R j) (r n ω)) atTop
      (𝓝 (s.model.tenor.R j + fmmDrift (matAt s.model.correlation) s.model.tenor.len s.model.tenor.R
        (fun i => v i * ahead s.model.tenor i (T / 2)) j * T)) := by
  obtain ⟨⟨hT, -⟩, hsam, p0, i1, i2, i3, i4, -, hg⟩ := C90_sample hv hξ hr
  have hlt : j - 1 < s.model.tenor.m := by omega
  have hG : Measurable fun v : Fin s.model.tenor.m → ℝ => v ⟨j - 1, hlt⟩ := measurable_pi_apply _
  have hread : ∀ p : FmmPath, p.rateVector s.model.tenor.m ⟨j - 1, hlt⟩ = p.R j := fun p => by
    rw [FmmPath.rateVector]
    congr 1
    simp only
    omega
  obtain ⟨g1, g2⟩ := hg _ hG
  have hT1 : T / ((1 : ℕ) : ℝ) = T := by simp
  simp only [hread, hT1] at g1 g2
  have hmid : p0.t + 1 / 2 * T = T / 2 := by rw [i3]; ring
  have hR : p0.R = s.model.tenor.R := funext i4
  have hv' : ∀ i, 1 ≤ i → i ≤ s.model.tenor.m →
      volAt s.model (T / 2) (s.model.tenor.R i) i = v i := fun i a b => by rw [volAt, hvol i a b]
  have hval : ∀ zs : Fin 1 → Fin s.model.tenor.m → ℝ, (chain (fmmChainStep s T) 1 p0 (firstDraws zs)).R j
      = s.model.tenor.R j + fmmDrift (matAt s.model.correlation) s.model.tenor.len s.model.tenor.R
        (fun i => v i * ahead s.model.tenor i (T / 2)) j * T
        + v j * ahead s.model.tenor j (T / 2) * (√T * ∑ k : Fin s.model.tenor.m,
          (if (k : ℕ) < j then s.chol (j - 1) k else 0) * zs 0 k) := by
    intro zs
    rw [chain]
    change (s.next p0 T (List.ofFn (firstDraws zs 0))).R j = _
    rw [(next_ok hv i2 hT _).2.2.2 j j1 j2, hmid, hR, dw_fin hv T _ j1 j2, hv' j j1 j2]
    congr 3
    unfold fmmDrift
    beta_reduce
    rw [hv' j j1 j2]
    congr 1
    refine Finset.sum_congr rfl fun i hi => ?_
    rw [Finset.mem_Icc] at hi
    rw [hv' i hi.1 (by omega)]
  have hp : IsProbabilityMeasure (stdNormal s.model.tenor.m) := by unfold stdNormal; infer_instance
  have hp2 : IsProbabilityMeasure (iidLaw (stdNormal s.model.tenor.m) 1) := by unfold iidLaw; infer_instance
  have hx : Integrable (fun x : ℝ => x) (gaussianReal 0 1) :=
    (memLp_id_gaussianReal 1).integrable (by norm_num)
  have hcoord : ∀ k : Fin s.model.tenor.m, Integrable (fun zs : Fin 1 → Fin s.model.tenor.m → ℝ => zs 0 k)
      (iidLaw (stdNormal s.model.tenor.m) 1)
      ∧ ∫ zs, zs 0 k ∂iidLaw (stdNormal s.model.tenor.m) 1 = 0 := by
    intro k
    have m1 : MeasurePreserving (Function.eval (0 : Fin 1))
        (iidLaw (stdNormal s.model.tenor.m) 1) (stdNormal s.model.tenor.m) :=
      measurePreserving_eval (fun _ : Fin 1 => stdNormal s.model.tenor.m) 0
    have m2 : MeasurePreserving (Function.eval k) (stdNormal s.model.tenor.m) (gaussianReal 0 1) :=
      measurePreserving_eval (fun _ : Fin s.model.tenor.m => gaussianReal 0 1) k
    have m3 := m2.comp m1
    refine ⟨m3.integrable_comp_of_integrable hx, ?_⟩
    have := integral_map (μ := iidLaw (stdNormal s.model.tenor.m) 1) m3.measurable.aemeasurable
      (f := fun x : ℝ => x) measurable_id.aestronglyMeasurable
    rw [m3.map_eq, integral_id_gaussianReal] at this
    exact this.symm
  have hsum : Integrable (fun zs : Fin 1 → Fin s.model.tenor.m → ℝ => √T * ∑ k : Fin s.model.tenor.m,
      (if (k : ℕ) < j then s.chol (j - 1) k else 0) * zs 0 k) (iidLaw (stdNormal s.model.tenor.m) 1) :=
    (integrable_finsetSum _ fun k _ => (hcoord k).1.const_mul _).const_mul _
  simp only [hval] at g1 g2
  have hi := g1.2 ((integrable_const _).add (hsum.const_mul _))
  have key := C88_average hsam hG (by simpa only [hread] using hi)
  simp only [hread] at key
  rw [g2, integral_add (integrable_const _) (hsum.const_mul _), integral_const_mul, integral_const_mul,
    integral_finsetSum _ fun k _ => (hcoord k).1.const_mul _] at key
  simp only [integral_const_mul, (hcoord _).2, mul_zero, Finset.sum_const_zero, add_zero, integral_const,
    probReal_univ, one_smul] at key
  exact key

/-! ## The bank account -/

/-- All one-period factors differ from zero. -/
def FmmPath.Regular (p : FmmPath) (q : FmmTenor) : Prop :=
  ∀ i, 1 ≤ i → i ≤ q.m → 1 + q.len i * p.R i ≠ 0

theorem regular_next {s : FmmSimulator} (hv : s.model.Valid) (hb : s.model.betas = none)
    (hc : ∀ j, 1 ≤ j → j ≤ s.model.tenor.m → 0 < s.chol (j - 1) (j - 1))
    (hσ : ∀ j, 1 ≤ j → j ≤ s.model.tenor.m → ∀ t, s.model.sigmaAt j t ≠ .ok 0) {p : FmmPath}
    (hp : p.Fits s.model.tenor.m) {dt : ℝ} (hdt : 0 < dt) (hreg : p.Regular s.model.tenor) :
    ∀ᵐ w ∂stdNormal s.model.tenor.m, (s.next p dt (List.ofFn w)).Regular s.model.tenor := by
  have hall : ∀ j : ℕ, ∀ᵐ w ∂stdNormal s.model.tenor.m, 1 ≤ j → j ≤ s.model.tenor.m →
      1 + s.model.tenor.len j * (s.next p dt (List.ofFn w)).R j ≠ 0 := by
    intro j
    by_cases hj : 1 ≤ j ∧ j ≤ s.model.tenor.m
    · obtain ⟨j1, j2⟩ := hj
      have hτ : 0 < s.model.tenor.len j := FmmTenor.tau_pos hv.tenor j1 j2
      by_cases ht : p.t + 1 / 2 * dt < s.model.tenor.T j
      · have hm : Measurable fun w : Fin s.model.tenor.m → ℝ => (s.next p dt (List.ofFn w)).R j := by
          have := (measurable_fmmChain hv hdt hp 1 j j1 j2).comp
            (g := fun z => (chain (fmmChainStep s dt) 1 p z).R j)
            (f := fun w : Fin s.model.tenor.m → ℝ => fun _ : ℕ => w)
            (measurable_pi_lambda _ fun _ => measurable_id)
          exact this
        have hset : MeasurableSet {w : Fin s.model.tenor.m → ℝ |
            1 + s.model.tenor.len j * (s.next p dt (List.ofFn w)).R j ≠ 0} :=
          (measurableSet_eq_fun ((hm.const_mul _).const_add _) measurable_const).compl
        refine (ae_of_fiber hset ⟨j - 1, by omega⟩ fun w => ?_).mono fun w hw _ _ => hw
        have hsl := slope_ne hv hb hdt j1 j2 (hσ j j1 j2) (hc j j1 j2) ht
        have : NullSingletonClass (gaussianReal 0 1) := nullSingletonClass_gaussianReal one_ne_zero
        generalize hA : (s.next p dt (List.ofFn (Function.update w ⟨j - 1, by omega⟩ 0))).R j = A
        have hne : ∀ᵐ x ∂gaussianReal 0 1, x ≠ -(1 + s.model.tenor.len j * A)
            / (s.model.tenor.len j * slope s p dt j) := by
          rw [ae_iff]
          generalize -(1 + s.model.tenor.len j * A) / (s.model.tenor.len j * slope s p dt j) = c
          simp
        filter_upwards [hne] with x hx h0
        rw [(next_update hv hp hdt w j1 j2 x).2, hA] at h0
        refine hx ?_
        rw [eq_div_iff (mul_ne_zero hτ.ne' hsl)]
        linarith
      · refine Eventually.of_forall fun w _ _ => ?_
        have h0 : ahead s.model.tenor j (p.t + 1 / 2 * dt) = 0 := ahead_after hτ (by linarith)
        rw [(next_ok hv hp hdt _).2.2.2 j j1 j2, fmmDrift, h0, mul_zero, zero_mul, zero_mul, zero_mul,
          add_zero, add_zero]
        exact hreg j j1 j2
    · exact Eventually.of_forall fun w a b => absurd ⟨a, b⟩ hj
  filter_upwards [ae_all_iff.2 hall] with w hw i i1 i2 using hw i i1 i2

theorem measurableSet_regular {s : FmmSimulator} (hv : s.model.Valid) {p : FmmPath}
    (hp : p.Fits s.model.tenor.m) {dt : ℝ} (hdt : 0 < dt) (n N : ℕ) :
    MeasurableSet {zs : Fin N → Fin s.model.tenor.m → ℝ |
      (chain (fmmChainStep s dt) n p (firstDraws zs)).Regular s.model.tenor} := by
  have e : {zs : Fin N → Fin s.model.tenor.m → ℝ |
      (chain (fmmChainStep s dt) n p (firstDraws zs)).Regular s.model.tenor}
      = ⋂ i : ℕ, {zs | 1 ≤ i → i ≤ s.model.tenor.m → 1 + s.model.tenor.len i
        * (chain (fmmChainStep s dt) n p (firstDraws zs)).R i ≠ 0} := by
    ext zs; simp [FmmPath.Regular]
  rw [e]
  refine MeasurableSet.iInter fun i => ?_
  by_cases hi : 1 ≤ i ∧ i ≤ s.model.tenor.m
  · have hm := (measurable_fmmChain hv hdt hp n i hi.1 hi.2).comp (measurable_firstDraws N)
    have := (measurableSet_eq_fun ((hm.const_mul (s.model.tenor.len i)).const_add 1)
      (measurable_const (a := (0 : ℝ)))).compl
    convert this using 1
    ext zs
    simp [hi.1, hi.2]
  · convert MeasurableSet.univ using 1
    ext zs
    simp only [Set.mem_ofPred_eq, Set.mem_univ, iff_true]
    exact fun a b => absurd ⟨a, b⟩ hi

theorem regular_chain {s : FmmSimulator} (hv : s.model.Valid) (hb : s.model.betas = none)
    (hc : ∀ j, 1 ≤ j → j ≤ s.model.tenor.m → 0 < s.chol (j - 1) (j - 1))
    (hσ : ∀ j, 1 ≤ j → j ≤ s.model.tenor.m → ∀ t, s.model.sigmaAt j t ≠ .ok 0) {p : FmmPath}
    (hp : p.Fits s.model.tenor.m) {dt : ℝ} (hdt : 0 < dt) (hreg : p.Regular s.model.tenor) (N : ℕ) :
    ∀ n ≤ N, ∀ᵐ zs ∂iidLaw (stdNormal s.model.tenor.m) N,
      (chain (fmmChainStep s dt) n p (firstDraws zs)).Regular s.model.tenor := by
  have hpr : IsProbabilityMeasure (stdNormal s.model.tenor.m) := by unfold stdNormal; infer_instance
  intro n
  induction n with
  | zero => intro _; exact Eventually.of_forall fun _ => hreg
  | succ n ih =>
    intro hn
    have himp : ∀ᵐ zs ∂iidLaw (stdNormal s.model.tenor.m) N,
        (chain (fmmChainStep s dt) n p (firstDraws zs)).Regular s.model.tenor →
        (chain (fmmChainStep s dt) (n + 1) p (firstDraws zs)).Regular s.model.tenor := by
      refine ae_of_fiber (Q := fun zs => (chain (fmmChainStep s dt) n p (firstDraws zs)).Regular s.model.tenor →
        (chain (fmmChainStep s dt) (n + 1) p (firstDraws zs)).Regular s.model.tenor) ?_ ⟨n, by omega⟩
        fun zs => ?_
      · have := (measurableSet_regular hv hp hdt n N).compl.union (measurableSet_regular hv hp hdt (n + 1) N)
        convert this using 1
        ext zs
        simp only [Set.mem_ofPred_eq, Set.mem_union, Set.mem_compl_iff]
        tauto
      · by_cases hz : (chain (fmmChainStep s dt) n p (firstDraws zs)).Regular s.model.tenor
        · filter_upwards [regular_next hv hb hc hσ (fmmChain_fits hv hdt hp (firstDraws zs) n).1 hdt hz]
            with w hw _
          obtain ⟨u1, u2, -⟩ := firstDraws_update (N := N) (n := n) (by omega) zs w
          rw [chain, u2, chain_congr _ _ n u1]
          exact hw
        · refine Eventually.of_forall fun w h => absurd ?_ hz
          obtain ⟨u1, -, -⟩ := firstDraws_update (N := N) (n := n) (by omega) zs w
          rwa [chain_congr _ _ n u1] at h
    filter_upwards [himp, ih (by omega)] with zs a b using a b

/-- **C90, refuted in the code.** The average over the paths of the discounted unit payment, one over
the bank account on a tenor date, almost surely has no limit, although its value is today's discount
factor: the one-period factor `1 + τ R` of a simulated normal rate is not bounded away from zero. -/
theorem C90_bank_false {f : Fmm} (hv : f.Valid) {s : FmmSimulator} (h : FmmSimulator.new f = .ok s)
    (hs : ∀ i, 1 ≤ i → i ≤ f.tenor.m → ∀ j, 1 ≤ j → j ≤ f.tenor.m →
      matAt f.correlation i j = matAt f.correlation j i) (hb : f.betas = none)
    (hσ : ∀ j, 1 ≤ j → j ≤ f.tenor.m → ∀ t, f.sigmaAt j t ≠ .ok 0)
    (hreg : ∀ j, 1 ≤ j → j ≤ f.tenor.m → 1 + f.tenor.len j * f.tenor.R j ≠ 0)
    {ξ : ℕ → Ω → Fin s.model.tenor.m → ℝ}
    (hξ : IidDraws P (stdNormal s.model.tenor.m) ξ) {N : ℕ} {r : ℕ → Ω → List FmmPath} {k : ℕ}
    (k1 : 1 ≤ k) (k2 : k ≤ f.tenor.m) (ho : OffTolerance f.tenor (f.tenor.T k))
    (hr : ∀ n ω, 0 < n → s.simulateTerminal (drawLists ξ ω) (f.tenor.T k) N n = .ok (r n ω))
    (p0 : ℝ → ℝ) (hp0 : ∀ t, 0 < p0 t) :
    (∀ n ω, 0 < n → ∀ p ∈ r n ω, bankAccount f p p0
      = .ok (∏ j ∈ Finset.Icc 1 k, (1 + f.tenor.len j * p.R j)))
    ∧ ∀ᵐ ω ∂P, ¬ ∃ L, Tendsto (fun n => average (fun p => 1 / bankValue f p0 p) (r n ω)) atTop (𝓝 L) := by
  obtain ⟨rfl, hdiag⟩ := fmm_diagonal hv h hs
  obtain ⟨⟨hT, hN⟩, hsam, q0, i1, i2, i3, i4, hfin, hg⟩ := C90_sample hv hξ hr
  have hbank : ∀ n ω, 0 < n → ∀ p ∈ r n ω, bankAccount s.model p p0
      = .ok (∏ j ∈ Finset.Icc 1 k, (1 + s.model.tenor.len j * p.R j)) := by
    intro n ω hn p hp
    obtain ⟨a, b⟩ := hfin n ω hn p hp
    exact C66_bank s.model hv.tenor p a p0 hp0 k k1 k2 (.inl ⟨b, by rw [b]; exact ho⟩)
  refine ⟨hbank, ?_⟩
  set dt := s.model.tenor.T k / (N : ℝ) with hdtd
  have hNr : (0 : ℝ) < N := by exact_mod_cast hN
  have hdt : 0 < dt := div_pos hT hNr
  let rd : (Fin s.model.tenor.m → ℝ) → ℕ → ℝ := fun v j =>
    if h : j - 1 < s.model.tenor.m then v ⟨j - 1, h⟩ else 0
  have hrd : ∀ (p : FmmPath) j, 1 ≤ j → j ≤ s.model.tenor.m → rd (p.rateVector s.model.tenor.m) j = p.R j := by
    intro p j a b
    simp only [rd, dif_pos (show j - 1 < s.model.tenor.m by omega), FmmPath.rateVector]
    congr 1
    omega
  have hrdm : ∀ j, Measurable fun v => rd v j := fun j => by
    by_cases hj : j - 1 < s.model.tenor.m
    · simp only [rd, dif_pos hj]; exact measurable_pi_apply _
    · simp only [rd, dif_neg hj]; exact measurable_const
  let G : (Fin s.model.tenor.m → ℝ) → ℝ := fun v =>
    1 / ∏ j ∈ Finset.Icc 1 k, (1 + s.model.tenor.len j * rd v j)
  have hG : Measurable G := measurable_const.div
    (Finset.measurable_fun_prod _ fun j _ => ((hrdm j).const_mul _).const_add _)
  have hGp : ∀ p : FmmPath, G (p.rateVector s.model.tenor.m)
      = 1 / ∏ j ∈ Finset.Icc 1 k, (1 + s.model.tenor.len j * p.R j) := fun p => by
    simp only [G]
    rw [Finset.prod_congr rfl fun j hj => by
      rw [hrd p j (Finset.mem_Icc.1 hj).1 (by have := (Finset.mem_Icc.1 hj).2; omega)]]
  have key := (C90_average_iff hsam hG).2 fun hint => by
    have h1 := ((hg _ hG).1).1 hint
    simp only [hGp] at h1
    obtain ⟨n, rfl⟩ : ∃ n, N = n + 1 := ⟨N - 1, by omega⟩
    have hpr : IsProbabilityMeasure (stdNormal s.model.tenor.m) := by unfold stdNormal; infer_instance
    have hreg0 : q0.Regular s.model.tenor := fun j a b => by rw [i4]; exact hreg j a b
    have hch : ∀ j, 1 ≤ j → j ≤ s.model.tenor.m → 0 < s.chol (j - 1) (j - 1) := fun j a b => (hdiag j a b).1
    have hpi : IsProbabilityMeasure (iidLaw (stdNormal s.model.tenor.m) (n + 1)) := by
      unfold iidLaw; infer_instance
    obtain ⟨zs, h2, h3⟩ := ((fiber_integrable h1 ⟨n, by omega⟩).and
      (regular_chain hv hb hch hσ i2 hdt hreg0 (n + 1) n (by omega))).exists
    generalize hq : chain (fmmChainStep s dt) n q0 (firstDraws zs) = q at h3
    obtain ⟨f1, f2⟩ := fmmChain_fits hv hdt i2 (firstDraws zs) n
    rw [hq] at f1 f2
    have hchain : ∀ w, chain (fmmChainStep s dt) (n + 1) q0 (firstDraws
        (Function.update zs ⟨n, by omega⟩ w)) = s.next q dt (List.ofFn w) := by
      intro w
      obtain ⟨u1, u2, -⟩ := firstDraws_update (N := n + 1) (n := n) (by omega) zs w
      rw [chain, u2, chain_congr _ _ n u1, hq]
      rfl
    simp only [hchain] at h2
    obtain ⟨w, h4, h5⟩ := ((fiber_integrable h2 ⟨k - 1, by omega⟩).and
      (regular_next hv hb hch hσ f1 hdt h3)).exists
    have ht : q.t + 1 / 2 * dt < s.model.tenor.T k := by
      have : q.t + dt = s.model.tenor.T k := by
        rw [f2, i3, hdtd]
        push_cast
        field_simp
        ring
      linarith
    have hsl := slope_ne hv hb hdt k1 k2 (hσ k k1 k2) (hch k k1 k2) ht
    have hτ : 0 < s.model.tenor.len k := FmmTenor.tau_pos hv.tenor k1 k2
    generalize hA : (s.next q dt (List.ofFn (Function.update w ⟨k - 1, by omega⟩ 0))).R k = A
    have hC : ∏ j ∈ Finset.Icc 1 (k - 1), (1 + s.model.tenor.len j * (s.next q dt (List.ofFn w)).R j) ≠ 0 := by
      refine Finset.prod_ne_zero_iff.2 fun j hj => ?_
      rw [Finset.mem_Icc] at hj
      exact h5 j hj.1 (by omega)
    generalize hCC : ∏ j ∈ Finset.Icc 1 (k - 1),
      (1 + s.model.tenor.len j * (s.next q dt (List.ofFn w)).R j) = C at hC
    have hval : ∀ x, 1 / ∏ j ∈ Finset.Icc 1 k, (1 + s.model.tenor.len j
        * (s.next q dt (List.ofFn (Function.update w ⟨k - 1, by omega⟩ x))).R j)
        = 0 + 0 * x + C⁻¹ / ((1 + s.model.tenor.len k * A) + s.model.tenor.len k * slope s q dt k * x) := by
      intro x
      obtain ⟨u1, u2⟩ := next_update hv f1 hdt w k1 k2 x
      obtain ⟨k', rfl⟩ : ∃ k', k = k' + 1 := ⟨k - 1, by omega⟩
      rw [Finset.prod_Icc_succ_top (by omega), u2, hA, Finset.prod_congr rfl fun j hj => by
        rw [u1 j (Finset.mem_Icc.1 hj).1 (by have := (Finset.mem_Icc.1 hj).2; omega)]]
      rw [Nat.add_sub_cancel] at hCC
      rw [hCC, show (1 + s.model.tenor.len (k' + 1) * A) + s.model.tenor.len (k' + 1)
        * slope s q dt (k' + 1) * x = 1 + s.model.tenor.len (k' + 1) * (A + slope s q dt (k' + 1) * x) by ring,
        one_div, mul_inv, zero_mul, zero_add, zero_add, div_eq_mul_inv]
    simp only [hval] at h4
    exact not_integrable_pole (inv_ne_zero hC) (mul_ne_zero hτ.ne' hsl) h4
  filter_upwards [key] with ω hω ⟨L, hL⟩
  refine hω ⟨L, hL.congr' ?_⟩
  filter_upwards [eventually_gt_atTop 0] with n hn
  unfold average
  congr 2
  refine List.map_congr_left fun p hp => ?_
  rw [hGp, bankValue, hbank n ω hn p hp]

/-- The model of the examples, simulated to its last date in `N` steps with draws from an infinite
stream of independent normal vectors. -/
theorem exForward_runs (N : ℕ) (hN : 0 < N) :
    ∃ (s : FmmSimulator) (r : ℕ → (ℕ → Fin s.model.tenor.m → ℝ) → List FmmPath),
      FmmSimulator.new exForward = .ok s ∧ s.model = exForward
      ∧ ∀ n ω, 0 < n → s.simulateTerminal (drawLists (fun k ω => ω k) ω) 2 N n = .ok (r n ω) := by
  obtain ⟨s, h⟩ := exForward_simulator
  obtain ⟨e, -⟩ := fmm_diagonal exForward_valid h exForward_symm
  have hv : s.model.Valid := e ▸ exForward_valid
  have hex : ∀ n (ω : ℕ → Fin s.model.tenor.m → ℝ), ∃ l, 0 < n →
      s.simulateTerminal (drawLists (fun k ω => ω k) ω) 2 N n = .ok l := by
    intro n ω
    by_cases hn : 0 < n
    · obtain ⟨l, h1, -⟩ := (C66_simulate_all hv ω 2 N n).1 (by norm_num) hN hn
      exact ⟨l, fun _ => h1⟩
    · exact ⟨[], fun h => absurd h hn⟩
  choose r hr using hex
  exact ⟨s, r, h, e, hr⟩

theorem exForward_vol (j : ℕ) (j1 : 1 ≤ j) (j2 : j ≤ 2) (t : ℝ) : exForward.sigmaAt j t ≠ .ok 0 := by
  intro h
  interval_cases j <;> norm_num [Fmm.sigmaAt, exForward, at1, unwrap] at h

/-- Eight steps of a quarter: the average of the second rate almost surely has no limit. -/
example : ∃ (s : FmmSimulator) (r : ℕ → (ℕ → Fin s.model.tenor.m → ℝ) → List FmmPath),
    FmmSimulator.new exForward = .ok s
    ∧ (∀ n ω, 0 < n → s.simulateTerminal (drawLists (fun k ω => ω k) ω) 2 8 n = .ok (r n ω))
    ∧ ∀ᵐ ω ∂(Measure.infinitePi fun _ : ℕ => stdNormal s.model.tenor.m),
      ¬ ∃ L, Tendsto (fun n => average (fun p : FmmPath => p.R 2) (r n ω)) atTop (𝓝 L) := by
  obtain ⟨s, r, h, -, hr⟩ := exForward_runs 8 (by norm_num)
  exact ⟨s, r, h, hr, C90_rate_false exForward_valid h exForward_symm rfl (exists_vectorDraws _) hr
    (by norm_num) (by norm_num) le_rfl (exForward_vol 2 (by norm_num) le_rfl)
    (by norm_num [exForward, exFmmTenor, FmmTenor.T])⟩

/-- Nor has the average of one over the bank account at the last date, even for a single step. -/
example : ∃ (s : FmmSimulator) (r : ℕ → (ℕ → Fin s.model.tenor.m → ℝ) → List FmmPath),
    FmmSimulator.new exForward = .ok s
    ∧ (∀ n ω, 0 < n → s.simulateTerminal (drawLists (fun k ω => ω k) ω) 2 1 n = .ok (r n ω))
    ∧ ∀ᵐ ω ∂(Measure.infinitePi fun _ : ℕ => stdNormal s.model.tenor.m),
      ¬ ∃ L, Tendsto (fun n => average (fun p => 1 / bankValue exForward (flatCurve (1 / 20)) p) (r n ω))
        atTop (𝓝 L) := by
  obtain ⟨s, r, h, -, hr⟩ := exForward_runs 1 (by norm_num)
  have hT : exForward.tenor.T 2 = 2 := by norm_num [exForward, exFmmTenor, FmmTenor.T]
  refine ⟨s, r, h, hr, (C90_bank_false exForward_valid h exForward_symm rfl
    (fun j a b => exForward_vol j a b) ?_ (exists_vectorDraws _) (k := 2) (by norm_num) le_rfl ?_
    (by rw [hT]; exact hr) (flatCurve (1 / 20)) (fun t => Real.exp_pos _)).2⟩
  · intro j a b
    have b : j ≤ 2 := b
    interval_cases j <;> norm_num [FmmTenor.T, FmmTenor.len, exForward, exFmmTenor, FmmTenor.R]
  · intro j hj
    have hj : j ≤ 2 := hj
    rw [hT]
    interval_cases j <;> norm_num [FmmTenor.T, exForward, exFmmTenor]

/-- A single step: the average of the second rate converges, to the rate plus the drift. -/
example : ∃ (s : FmmSimulator) (r : ℕ → (ℕ → Fin s.model.tenor.m → ℝ) → List FmmPath),
    FmmSimulator.new exForward = .ok s
    ∧ (∀ n ω, 0 < n → s.simulateTerminal (drawLists (fun k ω => ω k) ω) 2 1 n = .ok (r n ω))
    ∧ ∀ᵐ ω ∂(Measure.infinitePi fun _ : ℕ => stdNormal s.model.tenor.m),
      Tendsto (fun n => average (fun p : FmmPath => p.R 2) (r n ω)) atTop
        (𝓝 (exForward.tenor.R 2 + fmmDrift (matAt exForward.correlation) exForward.tenor.len
          exForward.tenor.R (fun i => (if i = 1 then 1 / 100 else 1 / 50)
            * ahead exForward.tenor i (2 / 2)) 2 * 2)) := by
  obtain ⟨s, r, h, e, hr⟩ := exForward_runs 1 (by norm_num)
  refine ⟨s, r, h, hr, ?_⟩
  have := C90_one_step (e ▸ exForward_valid) (exists_vectorDraws _) hr (j := 2) (by norm_num)
    (by rw [e]; exact le_rfl) (v := fun i => if i = 1 then 1 / 100 else 1 / 50) (fun i a b => by
      rw [e] at b ⊢
      have b : i ≤ 2 := b
      interval_cases i <;> simp [Fmm.adaptedVol, Fmm.sigmaAt, Fmm.displacementLevel, exForward, at1, unwrap, ok_bind])
  have hL : ∀ f : Fmm, f = exForward → f.tenor.R 2 + fmmDrift (matAt f.correlation) f.tenor.len
      f.tenor.R (fun i => (if i = 1 then 1 / 100 else 1 / 50) * ahead f.tenor i (2 / 2)) 2 * 2
      = exForward.tenor.R 2 + fmmDrift (matAt exForward.correlation) exForward.tenor.len
          exForward.tenor.R (fun i => (if i = 1 then 1 / 100 else 1 / 50)
            * ahead exForward.tenor i (2 / 2)) 2 * 2 := fun f hf => by rw [hf]
  rwa [hL _ e] at this

/-- The average of a bounded function of the rates converges: how often the second rate exceeds 6 %. -/
example : ∃ (s : FmmSimulator) (r : ℕ → (ℕ → Fin s.model.tenor.m → ℝ) → List FmmPath) (L : ℝ),
    FmmSimulator.new exForward = .ok s
    ∧ (∀ n ω, 0 < n → s.simulateTerminal (drawLists (fun k ω => ω k) ω) 2 8 n = .ok (r n ω))
    ∧ ∀ᵐ ω ∂(Measure.infinitePi fun _ : ℕ => stdNormal s.model.tenor.m),
      Tendsto (fun n => average (fun p : FmmPath => (Set.Ioi (6 / 100 : ℝ)).indicator 1 (p.R 2)) (r n ω))
        atTop (𝓝 L) := by
  obtain ⟨s, r, h, e, hr⟩ := exForward_runs 8 (by norm_num)
  have hm : 1 < s.model.tenor.m := by rw [e]; exact Nat.one_lt_two
  obtain ⟨p0, -, h2⟩ := C90_bounded (e ▸ exForward_valid) (exists_vectorDraws _) hr
    (G := fun v => (Set.Ioi (6 / 100 : ℝ)).indicator 1 (v ⟨1, hm⟩)) (C := 1)
    ((measurable_one.indicator measurableSet_Ioi).comp (measurable_pi_apply _)) (fun x => by
      rw [Set.indicator_apply]
      split_ifs <;> simp)
  exact ⟨s, r, _, h, hr, h2⟩

end Verif
