import Verif.Lemmas.SimLaw
import Verif.Props.ExpectedPayoff

/-!
# C86: simulated paths are independent samples and averages over them converge
-/

namespace Verif

open MeasureTheory ProbabilityTheory Filter Topology Measure Outcome

variable {Ω E S : Type} [MeasurableSpace Ω] [MeasurableSpace E] {P : Measure Ω} [IsProbabilityMeasure P]
  {ν : Measure E} {ξ : ℕ → Ω → E}

theorem sum_range_list (F : ℕ → ℝ) (n : ℕ) : ((List.range n).map F).sum = ∑ j ∈ Finset.range n, F j :=
  rfl

/-- The sum of a functional over the paths is a sum over blocks of draws. -/
theorem paths_sum [MeasurableSpace S] [Inhabited E] (ks : KeySearch) (s0 : S)
    {g : E → S → ℝ → ℝ → S} (hg : ∀ t dt, Measurable fun p : E × S => g p.1 p.2 t dt) (m : ℕ)
    (val : Int) (dates : List Int) (step : ℕ) (dc : Int → Int → Outcome ℝ) (f : Int → ℝ)
    (hf : ∀ d, val ≤ d → yfOrZero dc val d = .ok (f d)) (hinc : ∀ a b, val ≤ a → a < b → f a < f b)
    (r : ℕ → Ω → DatedPaths S) (hr : ∀ n ω, 0 < n →
      simulateAtDates ks (drawSim s0 g fun k => ξ k ω) m val dates n step dc = .ok (r n ω))
    (G : List S → ℝ) (hG : Measurable fun v : Fin dates.length → S => G (List.ofFn v)) :
    ∃ (L : ℕ) (φ : (Fin L → E) → ℝ), Measurable φ ∧ ∀ n ω, 0 < n →
      ((r n ω).paths.map G).sum = ∑ j ∈ Finset.range n, φ (drawBlock ξ m L j ω) := by
  obtain ⟨later, hl⟩ := captured_uniform (S := S) (M := ℕ) ks val dates step dc f hf hinc
  refine ⟨later.length, fun b => G ((dates.mergeSort fun a b => decide (a ≤ b)).map
    (stateAt (drawSim s0 g (extendBlock b)) f val later 0)), ?_, fun n ω hn => ?_⟩
  · have hlen : (dates.mergeSort fun a b => decide (a ≤ b)).length = dates.length :=
      (List.mergeSort_perm _ _).length_eq
    generalize (dates.mergeSort fun a b => decide (a ≤ b)) = obs at hlen
    rw [← hlen] at hG
    have e : ∀ b : Fin later.length → E, obs.map (stateAt (drawSim s0 g (extendBlock b)) f val later 0)
        = List.ofFn fun i : Fin obs.length =>
          stateAt (drawSim s0 g (extendBlock b)) f val later 0 obs[i] := by
      intro b
      apply List.ext_getElem
      · simp
      · intro i h1 h2; simp
    simp only [e]
    exact hG.comp (measurable_pi_lambda _ fun i =>
      (stateAt_measurable s0 hg f val later 0 _).comp extendBlock_measurable)
  · obtain ⟨-, hobs, hp⟩ := hl _ m n _ (hr n ω hn)
    rw [hp, hobs, expectedPaths_drawSim, List.map_map, sum_range_list]
    refine Finset.sum_congr rfl fun j _ => ?_
    rw [Function.comp_apply]
    congr 1
    exact List.map_congr_left fun d _ => stateAt_block s0 g f val later m j d ω

/-- **C86**: for every simulator that consumes one draw per step and every functional of a path, the
average of the functional over `n` paths converges, almost surely as `n` grows, to its expected value
over a single path. -/
theorem C86_converges [MeasurableSpace S] [Inhabited E] (h : IidDraws P ν ξ) (ks : KeySearch) (s0 : S)
    {g : E → S → ℝ → ℝ → S} (hg : ∀ t dt, Measurable fun p : E × S => g p.1 p.2 t dt) (m : ℕ)
    (val : Int) (dates : List Int) (step : ℕ) (dc : Int → Int → Outcome ℝ) (f : Int → ℝ)
    (hf : ∀ d, val ≤ d → yfOrZero dc val d = .ok (f d)) (hinc : ∀ a b, val ≤ a → a < b → f a < f b)
    (r : ℕ → Ω → DatedPaths S) (hr : ∀ n ω, 0 < n →
      simulateAtDates ks (drawSim s0 g fun k => ξ k ω) m val dates n step dc = .ok (r n ω))
    (G : List S → ℝ) (hG : Measurable fun v : Fin dates.length → S => G (List.ofFn v))
    (hint : Integrable (fun ω => ((r 1 ω).paths.map G).sum) P) :
    ∀ᵐ ω ∂P, Tendsto (fun n : ℕ => ((r n ω).paths.map G).sum / n) atTop
      (𝓝 (∫ ω, ((r 1 ω).paths.map G).sum ∂P)) := by
  obtain ⟨L, φ, hφ, hs⟩ := paths_sum ks s0 hg m val dates step dc f hf hinc r hr G hG
  have e1 : (fun ω => ((r 1 ω).paths.map G).sum) = fun ω => φ (drawBlock ξ m L 0 ω) := by
    funext ω; rw [hs 1 ω one_pos, Finset.sum_range_one]
  rw [e1] at hint ⊢
  filter_upwards [block_strong_law h m L hφ hint] with ω hω
  refine hω.congr' ?_
  filter_upwards [eventually_gt_atTop 0] with n hn
  rw [hs n ω hn]

/-- **C86**: the average over `n` paths is unbiased, its variance is that of a single path divided by
`n`, and its error times `√n` tends in distribution to the normal law with the variance of a single
path. -/
theorem C86_error [MeasurableSpace S] [Inhabited E] (h : IidDraws P ν ξ) (ks : KeySearch) (s0 : S)
    {g : E → S → ℝ → ℝ → S} (hg : ∀ t dt, Measurable fun p : E × S => g p.1 p.2 t dt) (m : ℕ)
    (val : Int) (dates : List Int) (step : ℕ) (dc : Int → Int → Outcome ℝ) (f : Int → ℝ)
    (hf : ∀ d, val ≤ d → yfOrZero dc val d = .ok (f d)) (hinc : ∀ a b, val ≤ a → a < b → f a < f b)
    (r : ℕ → Ω → DatedPaths S) (hr : ∀ n ω, 0 < n →
      simulateAtDates ks (drawSim s0 g fun k => ξ k ω) m val dates n step dc = .ok (r n ω))
    (G : List S → ℝ) (hG : Measurable fun v : Fin dates.length → S => G (List.ofFn v))
    (hint : MemLp (fun ω => ((r 1 ω).paths.map G).sum) 2 P) :
    (∀ n, 0 < n →
      ∫ ω, ((r n ω).paths.map G).sum / n ∂P = ∫ ω, ((r 1 ω).paths.map G).sum ∂P ∧
      Var[fun ω => ((r n ω).paths.map G).sum / n; P]
        = Var[fun ω => ((r 1 ω).paths.map G).sum; P] / n) ∧
    TendstoInDistribution (fun (n : ℕ) ω => (√(n + 1 : ℕ))⁻¹ * (((r (n + 1) ω).paths.map G).sum
      - (n + 1 : ℕ) * ∫ ω, ((r 1 ω).paths.map G).sum ∂P)) atTop id (fun _ => P)
      (gaussianReal 0 Var[fun ω => ((r 1 ω).paths.map G).sum; P].toNNReal) := by
  obtain ⟨L, φ, hφ, hs⟩ := paths_sum ks s0 hg m val dates step dc f hf hinc r hr G hG
  have e1 : (fun ω => ((r 1 ω).paths.map G).sum) = fun ω => φ (drawBlock ξ m L 0 ω) := by
    funext ω; rw [hs 1 ω one_pos, Finset.sum_range_one]
  rw [e1] at hint ⊢
  constructor
  · intro n hn
    have := block_variance h m L n hφ hint hn
    simp only [fun ω => hs n ω hn]
    exact this
  · have := block_clt h m L hφ hint
    simp only [fun n ω => hs (n + 1) ω n.succ_pos]
    exact ⟨fun n => this.forall_aemeasurable (n + 1), this.aemeasurable_limit,
      this.tendsto.comp (tendsto_add_atTop_nat 1)⟩

/-- Paths of the Brownian simulator on a given grid. -/
theorem brownian_process {ξ : ℕ → Ω → ℝ} (h : NormalDraws P ξ) (x0 drift vol : ℝ) (m : ℕ) (val : Int)
    (dates later : List Int) (step : ℕ) (f : Int → ℝ) (hinc : ∀ a b, val ≤ a → a < b → f a < f b)
    (hgood : GoodGrid val dates step later) :
    iIndepFun (fun j ω (d : Int) => stateAt (brownian x0 drift vol fun k => ξ k ω) f val later
        (m + j * later.length) d) P ∧
      ∀ j, IsBrownianAt P val dates f x0 drift vol fun d ω =>
        stateAt (brownian x0 drift vol fun k => ξ k ω) f val later (m + j * later.length) d := by
  have hgm := bmStep_measurable drift vol
  have hp := hgood.increasing
  refine ⟨?_, fun j => ⟨fun ω => ?_, fun a b ha hb hab => ?_⟩⟩
  · have hb := (drawBlock_indep h m later.length).comp (fun _ b (d : Int) => stateAt (drawSim x0
      (bmStep drift vol) (extendBlock b)) f val later 0 d) fun _ =>
      measurable_pi_lambda _ fun d => (stateAt_measurable x0 hgm f val later 0 d).comp extendBlock_measurable
    have e : (fun (j : ℕ) ω (d : Int) => stateAt (brownian x0 drift vol fun k => ξ k ω) f val later
        (m + j * later.length) d) = fun (j : ℕ) => (fun b (d : Int) => stateAt (drawSim x0
      (bmStep drift vol) (extendBlock b)) f val later 0 d) ∘
        drawBlock ξ m later.length j := by
      funext j ω d
      exact stateAt_block x0 (bmStep drift vol) f val later m j d ω
    rw [e]
    exact hb
  · have : (later.filter fun g => decide (g ≤ val)) = [] := by
      rw [List.filter_eq_nil_iff]
      intro g hg
      have := (List.pairwise_cons.1 hp).1 g hg
      simp only [decide_eq_true_eq]; omega
    change stateAt _ f val later _ val = x0
    unfold stateAt
    rw [this]; rfl
  · have ha' : a ∈ val :: later := by
      rcases List.mem_cons.1 ha with rfl | ha
      · exact List.mem_cons_self
      · exact List.mem_cons_of_mem _ (hgood.covers a ha)
    have hva : val ≤ a := by
      rcases List.mem_cons.1 ha' with rfl | h
      · exact le_rfl
      · exact ((List.pairwise_cons.1 hp).1 a h).le
    have hb' := hgood.covers b hb
    have hlaw := noiseSum_law h f (later.filter fun g => decide (a < g ∧ g ≤ b)) a
      (m + j * later.length + (later.filter fun g => decide (g ≤ a)).length)
      (fun c d hc => hinc c d (hva.trans hc)) (between_pairwise hp)
    rw [between_last hp hab hb'] at hlaw
    have hfab := hinc a b hva hab
    constructor
    · simp only [fun ω => brownian_increment x0 drift vol (fun k => ξ k ω) f hp ha' hb' hab
        (m + j * later.length)]
      generalize hN : (fun ω => noiseSum f a (later.filter fun g => decide (a < g ∧ g ≤ b))
        (m + j * later.length + (later.filter fun g => decide (g ≤ a)).length) fun k => ξ k ω) = N at hlaw
      have hNm : Measurable N := by
        rw [← hN]
        exact (noiseSum_measurable f _ _ _).comp (measurable_pi_lambda _ fun k => h.measurable k)
      have e : (fun ω => drift * (f b - f a) + vol * noiseSum f a
          (later.filter fun g => decide (a < g ∧ g ≤ b)) (m + j * later.length
            + (later.filter fun g => decide (g ≤ a)).length) fun k => ξ k ω)
          = (fun z => drift * (f b - f a) + z) ∘ (fun z => vol * z) ∘ N := by
        rw [← hN]; rfl
      rw [e, ← Measure.map_map (by fun_prop) ((measurable_const_mul vol).comp hNm),
        ← Measure.map_map (by fun_prop) hNm, hlaw, gaussianReal_map_const_mul, gaussianReal_map_const_add,
        mul_zero, zero_add]
      congr 1
      apply NNReal.eq
      rw [Real.coe_toNNReal _ (mul_nonneg (sq_nonneg _) (by linarith)), NNReal.coe_mul,
        Real.coe_toNNReal _ (by linarith)]
      rfl
    · simp only [fun ω => brownian_increment x0 drift vol (fun k => ξ k ω) f hp ha' hb' hab
        (m + j * later.length)]
      refine indep_of_disjoint h
        (F := fun x => drift * (f b - f a) + vol * noiseSum f a
          (later.filter fun g => decide (a < g ∧ g ≤ b)) (m + j * later.length
            + (later.filter fun g => decide (g ≤ a)).length) x)
        (G := fun x (d : {d // d ≤ a}) => stateAt (brownian x0 drift vol x) f val later
          (m + j * later.length) d)
        (((noiseSum_measurable f _ _ _).const_mul _).const_add _)
        (measurable_pi_lambda _ fun d => stateAt_measurable x0 hgm f val later
          (m + j * later.length) d)
        (T := Finset.Ico (m + j * later.length + (later.filter fun g => decide (g ≤ a)).length)
          (m + j * later.length + (later.filter fun g => decide (g ≤ a)).length
            + (later.filter fun g => decide (a < g ∧ g ≤ b)).length))
        (U := Finset.Ico (m + j * later.length)
          (m + j * later.length + (later.filter fun g => decide (g ≤ a)).length)) ?_ ?_ ?_
      · rw [Finset.disjoint_left]
        intro k hk hk'
        rw [Finset.mem_Ico] at hk hk'
        omega
      · intro x y hxy
        rw [noiseSum_congr f _ a _ x y fun k hk => hxy _ (by rw [Finset.mem_Ico]; omega)]
      · intro x y hxy
        funext d
        refine stateAt_congr x0 (bmStep drift vol) f val later _ _ d fun k hk => hxy _ ?_
        have : (later.filter fun g => decide (g ≤ (d : Int))).length
            ≤ (later.filter fun g => decide (g ≤ a)).length := by
          refine (List.monotone_filter_right later fun g hg => ?_).length_le
          simp only [decide_eq_true_eq] at hg ⊢
          exact hg.trans d.2
        rw [Finset.mem_Ico]
        omega

/-- **C86**: the Brownian simulator returns independent paths, each distributed exactly as Brownian
motion with drift at the requested dates, whatever the maximal step. -/
theorem C86_brownian {ξ : ℕ → Ω → ℝ} (h : NormalDraws P ξ) (ks : KeySearch) (x0 drift vol : ℝ) (m : ℕ)
    (val : Int) (dates : List Int) (step : ℕ) (dc : Int → Int → Outcome ℝ) (f : Int → ℝ)
    (hf : ∀ d, val ≤ d → yfOrZero dc val d = .ok (f d)) (hinc : ∀ a b, val ≤ a → a < b → f a < f b)
    (r : ℕ → Ω → DatedPaths ℝ) (hr : ∀ n ω, 0 < n →
      simulateAtDates ks (brownian x0 drift vol fun k => ξ k ω) m val dates n step dc = .ok (r n ω)) :
    ∃ W : ℕ → Int → Ω → ℝ,
      (∀ n ω, 0 < n → (r n ω).paths = (List.range n).map fun j => (r n ω).obs.map fun d => W j d ω) ∧
      iIndepFun (fun j ω (d : Int) => W j d ω) P ∧
      ∀ j, IsBrownianAt P val dates f x0 drift vol (W j) := by
  obtain ⟨later, hl⟩ := captured_uniform (S := ℝ) (M := ℕ) ks val dates step dc f hf hinc
  obtain ⟨ω0⟩ : Nonempty Ω := P.nonempty_of_neZero
  have hgood := (hl _ m 1 _ (hr 1 ω0 one_pos)).1
  refine ⟨fun j d ω => stateAt (brownian x0 drift vol fun k => ξ k ω) f val later (m + j * later.length) d,
    fun n ω hn => ?_, brownian_process h x0 drift vol m val dates later step f hinc hgood⟩
  obtain ⟨-, -, h2⟩ := hl _ m n _ (hr n ω hn)
  rw [h2, brownian_eq, expectedPaths_drawSim]
  rfl

/-- **C86**: the geometric simulator returns exponentials of independent Brownian paths with drift
`μ - σ²/2` started at the logarithm of the initial value. -/
theorem C86_geometric {ξ : ℕ → Ω → ℝ} (h : NormalDraws P ξ) (ks : KeySearch) (s0 drift vol : ℝ)
    (h0 : 0 < s0) (m : ℕ) (val : Int) (dates : List Int) (step : ℕ) (dc : Int → Int → Outcome ℝ)
    (f : Int → ℝ) (hf : ∀ d, val ≤ d → yfOrZero dc val d = .ok (f d))
    (hinc : ∀ a b, val ≤ a → a < b → f a < f b) (r : ℕ → Ω → DatedPaths ℝ) (hr : ∀ n ω, 0 < n →
      simulateAtDates ks (geometric s0 drift vol fun k => ξ k ω) m val dates n step dc = .ok (r n ω)) :
    ∃ W : ℕ → Int → Ω → ℝ,
      (∀ n ω, 0 < n → (r n ω).paths
        = (List.range n).map fun j => (r n ω).obs.map fun d => Real.exp (W j d ω)) ∧
      iIndepFun (fun j ω (d : Int) => W j d ω) P ∧
      ∀ j, IsBrownianAt P val dates f (Real.log s0) (drift - vol ^ 2 / 2) vol (W j) := by
  obtain ⟨later, hl⟩ := captured_uniform (S := ℝ) (M := ℕ) ks val dates step dc f hf hinc
  obtain ⟨ω0⟩ : Nonempty Ω := P.nonempty_of_neZero
  have hgood := (hl _ m 1 _ (hr 1 ω0 one_pos)).1
  refine ⟨fun j d ω => stateAt (brownian (Real.log s0) (drift - vol ^ 2 / 2) vol fun k => ξ k ω) f val
    later (m + j * later.length) d, fun n ω hn => ?_,
    brownian_process h (Real.log s0) (drift - vol ^ 2 / 2) vol m val dates later step f hinc hgood⟩
  obtain ⟨-, -, h2⟩ := hl _ m n _ (hr n ω hn)
  rw [h2, geometric_eq, expectedPaths_drawSim]
  refine List.map_congr_left fun j _ => List.map_congr_left fun d _ => ?_
  rw [← geometric_eq]
  exact C50_gbm_exponential s0 drift vol h0 _ f val later _ d

/-- Looking up a date in a rectangular set of paths. -/
theorem statesAt_rect {ks : KeySearch} {p : DatedPaths S} {d : Int} {c : List S} {n : ℕ} {F : ℕ → Int → S}
    (hs : p.obs.Pairwise (· ≤ ·)) (hp : p.paths = (List.range n).map fun j => p.obs.map (F j))
    (hc : p.statesAt ks d = .ok (some c)) : c = (List.range n).map fun j => F j d := by
  rw [DatedPaths.statesAt] at hc
  rcases hk : ks.search p.obs d with i | i
  · rw [hk] at hc
    have hget := ks.found p.obs d i hs hk
    have hcol : ∀ l : List ℕ, column i (l.map fun j => p.obs.map (F j)) = .ok (l.map fun j => F j d) := by
      intro l
      induction l with
      | nil => rfl
      | cons j l ih =>
        rw [List.map_cons, column, List.getElem?_map, hget]
        simp only [Option.map_some]
        rw [ih]; rfl
    rw [hp] at hc
    simp only [hcol, ok_bind, ok.injEq, Option.some.injEq] at hc
    exact hc.symm
  · rw [hk] at hc
    simp at hc

/-- The value of a Brownian path at a date. -/
theorem IsBrownianAt.law {val : Int} {dates : List Int} {f : Int → ℝ} {x0 drift vol : ℝ} {W : Int → Ω → ℝ}
    (h : IsBrownianAt P val dates f x0 drift vol W) {d : Int} (hd : d ∈ dates) (hv : val < d) :
    P.map (W d) = gaussianReal (x0 + drift * (f d - f val)) (vol ^ 2 * (f d - f val)).toNNReal ∧
      AEMeasurable (W d) P := by
  obtain ⟨h1, -⟩ := h.increment val d List.mem_cons_self hd hv
  simp only [h.start] at h1
  have hm : AEMeasurable (fun ω => W d ω - x0) P := by
    apply AEMeasurable.of_map_ne_zero
    rw [h1]
    exact NeZero.ne _
  have e : W d = (fun z => x0 + z) ∘ fun ω => W d ω - x0 := by
    funext ω; simp
  constructor
  · rw [e, ← AEMeasurable.map_map_of_aemeasurable (by fun_prop) hm, h1, gaussianReal_map_const_add, add_comm]
  · rw [e]
    exact (measurable_const_add x0).comp_aemeasurable hm

/-- **C86**: the average over `n` paths of the geometric simulator of any function of the state at a
date converges almost surely to the expectation under the exact lognormal law. -/
theorem C86_lognormal {ξ : ℕ → Ω → ℝ} (h : NormalDraws P ξ) (ks : KeySearch) (s0 drift vol : ℝ)
    (h0 : 0 < s0) (m : ℕ) (val : Int) (dates : List Int) (step : ℕ) (dc : Int → Int → Outcome ℝ)
    (f : Int → ℝ) (hf : ∀ d, val ≤ d → yfOrZero dc val d = .ok (f d))
    (hinc : ∀ a b, val ≤ a → a < b → f a < f b) (r : ℕ → Ω → DatedPaths ℝ) (hr : ∀ n ω, 0 < n →
      simulateAtDates ks (geometric s0 drift vol fun k => ξ k ω) m val dates n step dc = .ok (r n ω))
    (d : Int) (hd : d ∈ dates) (c : ℕ → Ω → List ℝ)
    (hc : ∀ n ω, 0 < n → (r n ω).statesAt ks d = .ok (some (c n ω)))
    (G : ℝ → ℝ) (hG : Measurable G)
    (hint : Integrable (fun z => G (lognormalLevel (s0 * Real.exp (drift * (f d - f val)))
      (vol ^ 2 * (f d - f val)) z)) (gaussianReal 0 1)) :
    ∀ᵐ ω ∂P, Tendsto (fun n : ℕ => ((c n ω).map G).sum / n) atTop
      (𝓝 (meanOverDraw fun z => G (lognormalLevel (s0 * Real.exp (drift * (f d - f val)))
        (vol ^ 2 * (f d - f val)) z))) := by
  obtain ⟨W, hW, hind, hB⟩ := C86_geometric h ks s0 drift vol h0 m val dates step dc f hf hinc r hr
  obtain ⟨ω0⟩ : Nonempty Ω := P.nonempty_of_neZero
  have hvd : val < d := (simulate_ok (hr 1 ω0 one_pos)).2.2.2.1 d hd
  have hfd := hinc val d le_rfl hvd
  have hv : 0 ≤ vol ^ 2 * (f d - f val) := mul_nonneg (sq_nonneg _) (by linarith)
  have hlaw : ∀ j, P.map (W j d) = (gaussianReal 0 1).map (normalLevel (Real.log s0
      + (drift - vol ^ 2 / 2) * (f d - f val)) (vol ^ 2 * (f d - f val))) := fun j => by
    rw [((hB j).law hd hvd).1, normalLevel_law _ hv]
  have hmW : ∀ j, AEMeasurable (W j d) P := fun j => ((hB j).law hd hvd).2
  have hnm : Measurable (normalLevel (Real.log s0 + (drift - vol ^ 2 / 2) * (f d - f val))
      (vol ^ 2 * (f d - f val))) := by unfold normalLevel; fun_prop
  have hGe : Measurable fun x : ℝ => G (Real.exp x) := hG.comp Real.measurable_exp
  have hlev : ∀ z, Real.exp (normalLevel (Real.log s0 + (drift - vol ^ 2 / 2) * (f d - f val))
      (vol ^ 2 * (f d - f val)) z) = lognormalLevel (s0 * Real.exp (drift * (f d - f val)))
        (vol ^ 2 * (f d - f val)) z := by
    intro z
    rw [normalLevel, lognormalLevel, show Real.log s0 + (drift - vol ^ 2 / 2) * (f d - f val)
      + √(vol ^ 2 * (f d - f val)) * z = Real.log s0 + (drift * (f d - f val)
        + (√(vol ^ 2 * (f d - f val)) * z - vol ^ 2 * (f d - f val) / 2)) by ring, Real.exp_add,
      Real.exp_log h0, Real.exp_add, mul_assoc]
  have hid : ∀ j, IdentDistrib (fun ω => G (Real.exp (W j d ω))) (fun ω => G (Real.exp (W 0 d ω))) P P :=
    fun j => (IdentDistrib.mk (hmW j) (hmW 0) (by rw [hlaw, hlaw])).comp hGe
  have hint' : Integrable (fun ω => G (Real.exp (W 0 d ω))) P := by
    have : Integrable (fun x : ℝ => G (Real.exp x)) (P.map (W 0 d)) := by
      rw [hlaw, integrable_map_measure hGe.aestronglyMeasurable hnm.aemeasurable]
      simpa only [Function.comp_def, hlev] using hint
    exact this.comp_aemeasurable (hmW 0)
  have hmean : ∫ ω, G (Real.exp (W 0 d ω)) ∂P = meanOverDraw fun z => G (lognormalLevel
      (s0 * Real.exp (drift * (f d - f val))) (vol ^ 2 * (f d - f val)) z) := by
    have := integral_map (hmW 0) (f := fun x : ℝ => G (Real.exp x)) hGe.aestronglyMeasurable
    rw [← this, hlaw, integral_map hnm.aemeasurable hGe.aestronglyMeasurable, meanOverDraw]
    simp only [hlev]
  have hsl := strong_law_ae_real (fun j ω => G (Real.exp (W j d ω))) hint'
    (fun i j hij => (hind.indepFun hij).comp (hGe.comp (measurable_pi_apply d))
      (hGe.comp (measurable_pi_apply d))) hid
  rw [hmean] at hsl
  filter_upwards [hsl] with ω hω
  refine hω.congr' ?_
  filter_upwards [eventually_gt_atTop 0] with n hn
  have hs : (r n ω).obs.Pairwise (· ≤ ·) :=
    (C50_captured_partial ks _ m val dates n step dc f hf hinc _ (hr n ω hn)).2.2.1
  rw [statesAt_rect (F := fun j d => Real.exp (W j d ω)) hs (hW n ω hn) (hc n ω hn), List.map_map,
    sum_range_list]
  rfl

/-- **C86**: Monte Carlo prices of calls and puts under the geometric simulator converge almost surely
to the closed-form price at the forward `s0 e^{μT}`, and the average state to that forward. -/
theorem C86_option {ξ : ℕ → Ω → ℝ} (h : NormalDraws P ξ) (ks : KeySearch) (s0 drift vol : ℝ)
    (h0 : 0 < s0) (hvol : 0 ≤ vol) (m : ℕ) (val : Int) (dates : List Int) (step : ℕ)
    (dc : Int → Int → Outcome ℝ)
    (f : Int → ℝ) (hf : ∀ d, val ≤ d → yfOrZero dc val d = .ok (f d))
    (hinc : ∀ a b, val ≤ a → a < b → f a < f b) (r : ℕ → Ω → DatedPaths ℝ) (hr : ∀ n ω, 0 < n →
      simulateAtDates ks (geometric s0 drift vol fun k => ξ k ω) m val dates n step dc = .ok (r n ω))
    (d : Int) (hd : d ∈ dates) (c : ℕ → Ω → List ℝ)
    (hc : ∀ n ω, 0 < n → (r n ω).statesAt ks d = .ok (some (c n ω))) {K : ℝ} (hK : 0 < K) (disc : ℝ) :
    ∀ᵐ ω ∂P,
      Tendsto (fun n : ℕ => disc * (((c n ω).map (vanillaPayoff true K)).sum / n)) atTop
        (𝓝 (bsCallForward (s0 * Real.exp (drift * (f d - f val))) K vol (f d - f val) disc)) ∧
      Tendsto (fun n : ℕ => disc * (((c n ω).map (vanillaPayoff false K)).sum / n)) atTop
        (𝓝 (bsPutForward (s0 * Real.exp (drift * (f d - f val))) K vol (f d - f val) disc)) ∧
      Tendsto (fun n : ℕ => (c n ω).sum / n) atTop (𝓝 (s0 * Real.exp (drift * (f d - f val)))) := by
  obtain ⟨ω0⟩ : Nonempty Ω := P.nonempty_of_neZero
  have hvd : val < d := (simulate_ok (hr 1 ω0 one_pos)).2.2.2.1 d hd
  have hfd := hinc val d le_rfl hvd
  have hF : 0 < s0 * Real.exp (drift * (f d - f val)) := mul_pos h0 (Real.exp_pos _)
  have hi := lognormal_integrable (s0 * Real.exp (drift * (f d - f val))) (vol ^ 2 * (f d - f val))
  have hm : ∀ b, Measurable (vanillaPayoff b K) := by
    intro b
    unfold vanillaPayoff
    cases b <;> simp <;> fun_prop
  obtain ⟨e1, e2⟩ := C85_black_forward hF hK hvol (by linarith : 0 ≤ f d - f val) disc
  have hcall := C86_lognormal h ks s0 drift vol h0 m val dates step dc f hf hinc r hr d hd c hc _ (hm true)
    (payoff_integrable true K hi)
  have hput := C86_lognormal h ks s0 drift vol h0 m val dates step dc f hf hinc r hr d hd c hc _ (hm false)
    (payoff_integrable false K hi)
  have hfwd := C86_lognormal h ks s0 drift vol h0 m val dates step dc f hf hinc r hr d hd c hc id
    measurable_id hi
  filter_upwards [hcall, hput, hfwd] with ω w1 w2 w3
  rw [e1, e2]
  refine ⟨w1.const_mul disc, w2.const_mul disc, ?_⟩
  have e3 : (meanOverDraw fun z => id (lognormalLevel (s0 * Real.exp (drift * (f d - f val)))
      (vol ^ 2 * (f d - f val)) z)) = s0 * Real.exp (drift * (f d - f val)) :=
    lognormal_mean _ (mul_nonneg (sq_nonneg _) (by linarith))
  rw [e3] at w3
  simpa only [List.map_id] using w3

/-! ### Examples -/

/-- Independent standard normal draws exist: the coordinates of the infinite product measure. -/
theorem exists_normalDraws : NormalDraws (infinitePi fun _ : ℕ => gaussianReal 0 1)
    (fun k (ω : ℕ → ℝ) => ω k) where
  measurable k := measurable_pi_apply k
  independent := iIndepFun_infinitePi (P := fun _ : ℕ => gaussianReal 0 1) (X := fun _ x => x)
    fun _ => measurable_id
  law k := infinitePi_map_eval _ k

/-- Actual/365, as a day counter of the driver. -/
noncomputable def act365Dc (a b : Int) : Outcome ℝ := .ok (((b - a : Int) : ℝ) / 365)

theorem act365Dc_increasing (val : Int) : ∀ a b : Int, val ≤ a → a < b →
    ((a - val : Int) : ℝ) / 365 < ((b - val : Int) : ℝ) / 365 := by
  intro a b _ hab
  have : ((a - val : Int) : ℝ) < ((b - val : Int) : ℝ) := by
    exact_mod_cast (by omega : a - val < b - val)
  linarith

theorem act365_run {S : Type} (ks : KeySearch) (sim : SimModel S ℕ) {n : ℕ} (hn : 0 < n) :
    ∃ r, simulateAtDates ks sim 0 (ymd 2025 1 30) [ymd 2025 2 28, ymd 2025 1 31] n 10 act365Dc = .ok r :=
  C50_total ks sim 0 (ymd 2025 1 30) [ymd 2025 2 28, ymd 2025 1 31] n 10 act365Dc hn (by decide) (by decide)
    (by decide +kernel) (by decide +kernel) (by decide +kernel) (fun d _ h => by cases h)

/-- A one-month call on a geometric Brownian motion, integrated in ten-day steps: the Monte Carlo price
converges to the closed-form one. -/
example : ∃ (ks : KeySearch) (c : ℕ → (ℕ → ℝ) → List ℝ),
    (∀ n ω, 0 < n → ∃ r, simulateAtDates ks (geometric 1 (3 / 100) (2 / 10) ω) 0 (ymd 2025 1 30)
      [ymd 2025 2 28, ymd 2025 1 31] n 10 act365Dc = .ok r ∧
      r.statesAt ks (ymd 2025 2 28) = .ok (some (c n ω))) ∧
    ∀ᵐ ω ∂infinitePi fun _ : ℕ => gaussianReal 0 1,
      Tendsto (fun n : ℕ => 1 * (((c n ω).map (vanillaPayoff true 1)).sum / n)) atTop
        (𝓝 (bsCallForward (1 * Real.exp (3 / 100 * (29 / 365))) 1 (2 / 10) (29 / 365) 1)) := by
  obtain ⟨ks⟩ := exists_keySearch
  have hr : ∀ (n : ℕ) (ω : ℕ → ℝ), ∃ r, 0 < n → simulateAtDates ks (geometric 1 (3 / 100) (2 / 10) ω) 0
      (ymd 2025 1 30) [ymd 2025 2 28, ymd 2025 1 31] n 10 act365Dc = .ok r := by
    intro n ω
    by_cases hn : 0 < n
    · obtain ⟨r, h⟩ := act365_run ks (geometric 1 (3 / 100) (2 / 10) ω) hn
      exact ⟨r, fun _ => h⟩
    · exact ⟨⟨0, [], []⟩, fun h => absurd h hn⟩
  choose r hr using hr
  have hc : ∀ (n : ℕ) (ω : ℕ → ℝ), ∃ c, 0 < n → (r n ω).statesAt ks (ymd 2025 2 28) = .ok (some c) := by
    intro n ω
    by_cases hn : 0 < n
    · obtain ⟨c, -, h, -⟩ := (C50_states_at_partial ks _ 0 (ymd 2025 1 30) [ymd 2025 2 28, ymd 2025 1 31] n 10
        act365Dc _ (fun d _ => rfl) (act365Dc_increasing _) _ (hr n ω hn) (ymd 2025 2 28)).2 (by simp)
      exact ⟨c, fun _ => h⟩
    · exact ⟨[], fun h => absurd h hn⟩
  choose c hc using hc
  refine ⟨ks, c, fun n ω hn => ⟨_, hr n ω hn, hc n ω hn⟩, ?_⟩
  have := C86_option exists_normalDraws ks 1 (3 / 100) (2 / 10) one_pos (by norm_num) 0 (ymd 2025 1 30)
    [ymd 2025 2 28, ymd 2025 1 31] 10 act365Dc _ (fun d _ => rfl) (act365Dc_increasing _) r hr
    (ymd 2025 2 28) (by simp) c hc one_pos 1
  have e : (ymd 2025 2 28 - ymd 2025 1 30 : Int) = 29 := by decide +kernel
  filter_upwards [this] with ω hω
  have h1 := hω.1
  rw [e, sub_self] at h1
  norm_num at h1 ⊢
  exact h1

/-- The Brownian simulator over the same dates. -/
example : ∃ (ks : KeySearch) (r : ℕ → (ℕ → ℝ) → DatedPaths ℝ) (W : ℕ → Int → (ℕ → ℝ) → ℝ),
    (∀ n ω, 0 < n → simulateAtDates ks (brownian 1 2 3 ω) 0 (ymd 2025 1 30)
      [ymd 2025 2 28, ymd 2025 1 31] n 10 act365Dc = .ok (r n ω) ∧
      (r n ω).paths = (List.range n).map fun j => (r n ω).obs.map fun d => W j d ω) ∧
    ∀ j, IsBrownianAt (infinitePi fun _ : ℕ => gaussianReal 0 1) (ymd 2025 1 30)
      [ymd 2025 2 28, ymd 2025 1 31] (fun d => ((d - ymd 2025 1 30 : Int) : ℝ) / 365) 1 2 3 (W j) := by
  obtain ⟨ks⟩ := exists_keySearch
  have hr : ∀ (n : ℕ) (ω : ℕ → ℝ), ∃ r, 0 < n → simulateAtDates ks (brownian 1 2 3 ω) 0
      (ymd 2025 1 30) [ymd 2025 2 28, ymd 2025 1 31] n 10 act365Dc = .ok r := by
    intro n ω
    by_cases hn : 0 < n
    · obtain ⟨r, h⟩ := act365_run ks (brownian 1 2 3 ω) hn
      exact ⟨r, fun _ => h⟩
    · exact ⟨⟨0, [], []⟩, fun h => absurd h hn⟩
  choose r hr using hr
  obtain ⟨W, h1, -, h3⟩ := C86_brownian exists_normalDraws ks 1 2 3 0 (ymd 2025 1 30)
    [ymd 2025 2 28, ymd 2025 1 31] 10 act365Dc _ (fun d _ => rfl) (act365Dc_increasing _) r hr
  exact ⟨ks, r, W, fun n ω hn => ⟨hr n ω hn, h1 n ω hn⟩, h3⟩

/-- A bounded function of the second observed state under the Brownian simulator meets the hypotheses
of `C86_converges` and `C86_error`. -/
example : ∃ (ks : KeySearch) (r : ℕ → (ℕ → ℝ) → DatedPaths ℝ),
    (∀ n ω, 0 < n → simulateAtDates ks (brownian 1 2 3 ω) 0 (ymd 2025 1 30)
      [ymd 2025 2 28, ymd 2025 1 31] n 10 act365Dc = .ok (r n ω)) ∧
    MemLp (fun ω => ((r 1 ω).paths.map fun p => max 0 (min 1 (p.getD 1 0))).sum) 2
      (infinitePi fun _ : ℕ => gaussianReal 0 1) ∧
    ∀ᵐ ω ∂infinitePi fun _ : ℕ => gaussianReal 0 1,
      Tendsto (fun n : ℕ => ((r n ω).paths.map fun p => max 0 (min 1 (p.getD 1 0))).sum / n) atTop
        (𝓝 (∫ ω, ((r 1 ω).paths.map fun p => max 0 (min 1 (p.getD 1 0))).sum
          ∂infinitePi fun _ : ℕ => gaussianReal 0 1)) := by
  obtain ⟨ks⟩ := exists_keySearch
  have hr : ∀ (n : ℕ) (ω : ℕ → ℝ), ∃ r, 0 < n → simulateAtDates ks (brownian 1 2 3 ω) 0
      (ymd 2025 1 30) [ymd 2025 2 28, ymd 2025 1 31] n 10 act365Dc = .ok r := by
    intro n ω
    by_cases hn : 0 < n
    · obtain ⟨r, h⟩ := act365_run ks (brownian 1 2 3 ω) hn
      exact ⟨r, fun _ => h⟩
    · exact ⟨⟨0, [], []⟩, fun h => absurd h hn⟩
  choose r hr using hr
  have hG : Measurable fun v : Fin [ymd 2025 2 28, ymd 2025 1 31].length → ℝ =>
      max 0 (min 1 ((List.ofFn v).getD 1 0)) := by
    have e : (fun v : Fin [ymd 2025 2 28, ymd 2025 1 31].length → ℝ =>
        max 0 (min 1 ((List.ofFn v).getD 1 0))) = fun v => max 0 (min 1 (v (1 : Fin 2))) := by
      funext v; simp [List.getD]
    rw [e]
    exact measurable_const.max (measurable_const.min (measurable_pi_apply _))
  obtain ⟨L, φ, hφ, hs⟩ := paths_sum (ξ := fun k (ω : ℕ → ℝ) => ω k) ks 1 (bmStep_measurable 2 3) 0
    (ymd 2025 1 30) [ymd 2025 2 28, ymd 2025 1 31] 10 act365Dc _ (fun d _ => rfl) (act365Dc_increasing _) r hr
    (fun p => max 0 (min 1 (p.getD 1 0))) hG
  have hm : MemLp (fun ω => ((r 1 ω).paths.map fun p => max 0 (min 1 (p.getD 1 0))).sum) 2
      (infinitePi fun _ : ℕ => gaussianReal 0 1) := by
    refine MemLp.of_bound (C := 1) ?_ (ae_of_all _ fun ω => ?_)
    · have e : (fun ω => ((r 1 ω).paths.map fun p => max 0 (min 1 (p.getD 1 0))).sum)
          = fun ω => φ (drawBlock (fun k (ω : ℕ → ℝ) => ω k) 0 L 0 ω) := by
        funext ω; rw [hs 1 ω one_pos, Finset.sum_range_one]
      rw [e]
      exact (hφ.comp (drawBlock_measurable exists_normalDraws 0 L 0)).aestronglyMeasurable
    · obtain ⟨-, -, -, -, -, -, hlen, -⟩ := C50_captured_partial ks _ 0 (ymd 2025 1 30)
        [ymd 2025 2 28, ymd 2025 1 31] 1 10 act365Dc _ (fun d _ => rfl) (act365Dc_increasing _) _
        (hr 1 ω one_pos)
      obtain ⟨p, hp⟩ := List.length_eq_one_iff.1 hlen
      rw [hp, List.map_cons, List.map_nil, List.sum_singleton, Real.norm_eq_abs, abs_le]
      exact ⟨by linarith [le_max_left (0 : ℝ) (min 1 (p.getD 1 0))], max_le zero_le_one (min_le_left _ _)⟩
  exact ⟨ks, r, hr, hm, C86_converges exists_normalDraws ks 1 (bmStep_measurable 2 3) 0 (ymd 2025 1 30)
    [ymd 2025 2 28, ymd 2025 1 31] 10 act365Dc _ (fun d _ => rfl) (act365Dc_increasing _) r hr _ hG
    (hm.integrable (by norm_num))⟩

end Verif
