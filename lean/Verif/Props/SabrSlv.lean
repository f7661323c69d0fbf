import Verif.Lemmas.SabrSlv
import Verif.Props.TdSabr
import Verif.Props.Dupire

/-!
# C71: the SABR stochastic-local-volatility particle simulator
-/

namespace Verif

open Outcome Classical MeasureTheory ProbabilityTheory

/-- **C71**: `with_bins` accepts exactly two bins or more; the default is fifty. -/
theorem C71_with_bins (m : SlvSim) (n : ℕ) (p : TdSabr) (v : LocalVol) :
    (2 ≤ n → m.withBins n = .ok ⟨m.params, m.dupire, n⟩) ∧ (n < 2 → m.withBins n = .panic)
    ∧ SlvSim.new p v = ⟨p, v, 50⟩ :=
  ⟨fun h => if_pos h, fun h => if_neg (by omega), rfl⟩

theorem sum_meanSq {groups : List (List (ℝ × ℝ))} (h : ∀ g ∈ groups, g ≠ []) :
    (groups.map fun g => g.length * meanSq g).sum = (groups.flatten.map fun s => s.2 ^ 2).sum := by
  induction groups with
  | nil => rfl
  | cons g gs ih =>
    have hg : (g.length : ℝ) ≠ 0 := by
      have := List.length_pos_of_ne_nil (h g (by simp))
      positivity
    rw [List.map_cons, List.sum_cons, List.flatten_cons, List.map_append, List.sum_append,
      ih fun g' hg' => h g' (by simp [hg']), meanSq, mul_div_cancel₀ _ hg]

/-- **C71**: the bins of a population partition it by increasing forward into at most `nBins` groups
of the same size (the last one may be smaller).  The bounds are the largest forwards of the groups,
the means are the means of their squared volatilities, and weighted by the sizes of the groups they
add up to the total over the population.  The bounds never decrease and the last one is the largest
forward of the population. -/
theorem C71_bins {states : List SabrState} {nBins : ℕ} (hs : states ≠ []) (hn : 0 < nBins) :
    ∃ groups upper means, binVolSq states nBins = .ok (upper, means)
      ∧ IsBinning (states.map SabrState.pair) nBins groups
      ∧ upper.length = groups.length ∧ means.length = groups.length
      ∧ (∀ i (hi : i < groups.length), (∃ s ∈ groups[i], upper[i]? = some s.1)
          ∧ (∀ s ∈ groups[i], ∀ u, upper[i]? = some u → s.1 ≤ u)
          ∧ means[i]? = some (meanSq groups[i]))
      ∧ (groups.map fun g => g.length * meanSq g).sum = (states.map fun s => s.vol ^ 2).sum
      ∧ upper.Pairwise (· ≤ ·)
      ∧ ∃ u, upper.getLast? = some u ∧ ∀ s ∈ states, s.forward ≤ u := by
  obtain ⟨groups, h1, h2, h3, h4⟩ := binVolSq_spec hs hn
  have hord : (groups.map topF).Pairwise (· ≤ ·) := by
    rw [List.pairwise_map]
    refine List.Pairwise.imp_of_mem ?_ h1.ordered
    intro g g' hg hg' hle
    obtain ⟨s, hs1, hs2⟩ := topF_mem (h1.nonempty g hg)
    obtain ⟨t, ht1, ht2⟩ := topF_mem (h1.nonempty g' hg')
    rw [← hs2, ← ht2]
    exact hle s hs1 t ht1
  refine ⟨groups, _, _, h4, h1, by simp, by simp, ?_, ?_, hord, ?_⟩
  · intro i hi
    have hg := List.getElem_mem hi
    obtain ⟨s, a, b⟩ := topF_mem (h1.nonempty _ hg)
    refine ⟨⟨s, a, ?_⟩, ?_, ?_⟩
    · rw [List.getElem?_map, List.getElem?_eq_getElem hi, b]; rfl
    · intro t ht u hu
      rw [List.getElem?_map, List.getElem?_eq_getElem hi, Option.map_some, Option.some.injEq] at hu
      rw [← hu]
      exact le_topF (h3 _ hg) t ht
    · rw [List.getElem?_map, List.getElem?_eq_getElem hi]; rfl
  · rw [sum_meanSq h1.nonempty, ((h1.parts.map fun s => s.2 ^ 2)).sum_eq, List.map_map]
    rfl
  · have hl := List.getLast?_eq_some_getLast h2
    refine ⟨topF (groups.getLast h2), by rw [List.getLast?_map, hl]; rfl, fun s hsm => ?_⟩
    have : s.pair ∈ groups.flatten := h1.parts.mem_iff.2 (List.mem_map_of_mem hsm)
    obtain ⟨g, hg, hsg⟩ := List.mem_flatten.1 this
    have a := le_topF (h3 g hg) _ hsg
    have b : topF g ≤ topF (groups.getLast h2) := by
      have hd := List.dropLast_append_getLast h2
      rw [← hd, List.map_append, List.pairwise_append] at hord
      rw [← hd, List.mem_append, List.mem_singleton] at hg
      rcases hg with hg | rfl
      · exact hord.2.2 _ (List.mem_map_of_mem hg) _ (by simp)
      · exact le_rfl
    exact a.trans b

/-- **C71**: on a surface built from quotes, up to the horizon, the simulator moves the whole
population by compensated steps: local variance at the middle of the step and at the particle's own
forward, conditional mean of the squared volatility from the bins of the current population, and
correlation and vol-of-vol of the middle of the step.  Particle `i` uses the draw
`step * nPaths + i`. -/
theorem C71_simulate {m : SlvSim} {α ρ ν : ℝ → ℝ} (h : m.params.Describes α ρ ν)
    {expiries strikes : List ℝ} {vols : List (List ℝ)} {spot rd rf : ℝ}
    (hb : LocalVol.build expiries strikes vols spot rd rf = .ok m.dupire) (hbins : 0 < m.nBins) {T : ℝ}
    {n : ℕ} (hn : 0 < n) (hT : 0 < T) (hH : T ≤ m.params.horizon)
    (hoff : OffKnots m.params.alpha.knots T n) {nPaths : ℕ} (hp : 0 < nPaths)
    (draws : ℕ → Fin 2 → ℝ) :
    ∃ (L : ℝ → ℝ → ℝ) (l : List SabrState) (P : ℕ → List (ℝ × ℝ)) (a0 : ℝ),
      (∀ t f, m.dupire.localVariance t f = .ok (L t f) ∧ 1 / 10000 ≤ L t f ∧ L t f ≤ 4)
      ∧ m.params.alpha.values.head? = some a0 ∧ 0 < a0
      ∧ m.simulate draws T n nPaths = .ok l ∧ l.map SabrState.pair = P n ∧ l.length = nPaths
      ∧ (∀ s ∈ l, 0 ≤ s.forward ∧ 0 < s.vol)
      ∧ P 0 = List.replicate nPaths (m.params.forward0, a0)
      ∧ ∀ j < n, SlvAdvance (L ((j + 1 / 2) * (T / n))) m.nBins m.params.beta (atMid ρ T n j)
          (atMid ν T n j) (T / n) (fun i => draws (j * nPaths + i)) (P j) (P (j + 1)) := by
  have hs : (0 : ℝ) < 1 / 10 ^ 15 := by norm_num
  choose L hL using fun t f => C69_band hb t f
  have hpos : 0 < m.params.alpha.finalTime := hT.trans_le hH
  have hv := isSchedule_values_ne h.alphaFn hpos
  have ha := at_pcRead m.params.alpha le_rfl (by linarith)
  have ha0 : 0 < pcRead m.params.alpha 0 := h.alpha _ (pcRead_mem m.params.alpha hv 0)
  have hat : ∀ j < n, m.params.at (0 + ((j : ℝ) + 1 / 2) * (T / n))
      = .ok ⟨atMid α T n j, m.params.beta, atMid ρ T n j, atMid ν T n j⟩ := fun j hj => by
    obtain ⟨m0, m1⟩ := mid_lt hT hj
    rw [zero_add]
    exact ((C70_at h _).1 m0 (m1.trans_le hH) (hoff j hj)).1
  obtain ⟨l, P, p1, p2, p3, p4, p5, p6⟩ := slv_stepLoop (m := m) (L := L) (dt := T / n) (draws := draws)
    (fun t f => ⟨(hL t f).1, by linarith [(hL t f).2.1]⟩) hbins hp n 0 0
    (List.replicate nPaths ⟨m.params.forward0, pcRead m.params.alpha 0⟩) (by simp)
    (fun s hs => by rw [List.eq_of_mem_replicate hs]; exact ha0) _ hat
  refine ⟨L, l, P, pcRead m.params.alpha 0, fun t f => ⟨(hL t f).1, (hL t f).2.1, (hL t f).2.2.1⟩, ?_, ha0,
    ?_, p3, ?_, fun s hs => ⟨p4 hn s hs, p5 s hs⟩, ?_, ?_⟩
  · rw [pcRead_zero _ h.alphaFn]
    obtain ⟨a, l, e⟩ := List.exists_cons_of_ne_nil hv
    rw [e]; rfl
  · rw [SlvSim.simulate, if_pos ⟨hn, hp, hT⟩, ha, ok_bind]
    exact p2
  · have hlen : ∀ j ≤ n, (P j).length = nPaths := by
      intro j
      induction j with
      | zero => intro _; rw [p1]; simp
      | succ j ih => intro hj; rw [(p6 j (by omega)).1, ih (by omega)]
    rw [← hlen n le_rfl, ← p3, List.length_map]
  · rw [p1, List.map_replicate]; rfl
  · intro j hj
    have := p6 j hj
    rw [zero_add] at this
    have e : (fun i => draws (j * nPaths + i)) = fun i => draws (0 + j * nPaths + i) := by
      funext i; rw [Nat.zero_add]
    rw [e]
    exact this

/-- **C71**: `simulate` succeeds exactly when there is something to simulate, there is a bin, and the
middle of the last step lies within the schedule; otherwise it panics. -/
theorem C71_range {m : SlvSim} (h : m.params.Admissible) (hh : 0 ≤ m.params.horizon)
    (hv : m.params.alpha.values ≠ []) {expiries strikes : List ℝ} {vols : List (List ℝ)}
    {spot rd rf : ℝ} (hb : LocalVol.build expiries strikes vols spot rd rf = .ok m.dupire)
    (draws : ℕ → Fin 2 → ℝ) (T : ℝ) (nSteps nPaths : ℕ) :
    ((∃ l, m.simulate draws T nSteps nPaths = .ok l) ↔ 0 < nSteps ∧ 0 < nPaths ∧ 0 < T ∧ 0 < m.nBins
      ∧ T - T / nSteps / 2 ≤ m.params.horizon + 1 / 10 ^ 15)
    ∧ ((∃ l, m.simulate draws T nSteps nPaths = .ok l)
      ∨ m.simulate draws T nSteps nPaths = .panic) := by
  have hs : (0 : ℝ) < 1 / 10 ^ 15 := by norm_num
  choose L hL using fun t f => C69_band hb t f
  have hLx : ∀ t f, m.dupire.localVariance t f = .ok (L t f) ∧ 0 ≤ L t f :=
    fun t f => ⟨(hL t f).1, by linarith [(hL t f).2.1]⟩
  by_cases hc : 0 < nSteps ∧ 0 < nPaths ∧ 0 < T
  swap
  · rw [SlvSim.simulate, if_neg hc]
    exact ⟨⟨fun ⟨_, hl⟩ => (nomatch hl), fun h => absurd ⟨h.1, h.2.1, h.2.2.1⟩ hc⟩, Or.inr rfl⟩
  obtain ⟨hn, hp, hT⟩ := hc
  have hnr : (0 : ℝ) < nSteps := Nat.cast_pos.2 hn
  have hdt : 0 < T / nSteps := div_pos hT hnr
  have ha := at_pcRead m.params.alpha le_rfl (by rw [TdSabr.horizon] at hh; linarith)
  have ha0 : 0 < pcRead m.params.alpha 0 := h.alpha _ (pcRead_mem m.params.alpha hv 0)
  have hsim : m.simulate draws T nSteps nPaths = m.stepLoop (T / nSteps) draws nSteps 0 0
      (List.replicate nPaths ⟨m.params.forward0, pcRead m.params.alpha 0⟩) := by
    rw [SlvSim.simulate, if_pos ⟨hn, hp, hT⟩, ha, ok_bind]
  have hvol : ∀ s ∈ List.replicate nPaths (⟨m.params.forward0, pcRead m.params.alpha 0⟩ : SabrState),
      0 < s.vol := fun s hs => by rw [List.eq_of_mem_replicate hs]; exact ha0
  have hok : ∀ t, 0 ≤ t → t ≤ m.params.alpha.finalTime + 1 / 10 ^ 15 → ∃ q, m.params.at t = .ok q :=
    fun t h0 h1 => ⟨_, tdSabr_at h0 h1 h.final_rho h.final_nu⟩
  have hpan : ∀ t, m.params.alpha.finalTime + 1 / 10 ^ 15 < t → m.params.at t = .panic := fun t h1 => by
    rw [TdSabr.at, at_panic _ fun h => absurd h.2 (not_le.2 h1)]; rfl
  have hneg : ∀ t, t < 0 → m.params.at t = .panic := fun t h1 => by
    rw [TdSabr.at, at_panic _ fun h => absurd h.1 (not_le.2 h1)]; rfl
  have hlast : ((nSteps : ℝ) - 1 / 2) * (T / nSteps) = T - T / nSteps / 2 := by field_simp
  rw [hsim]
  by_cases hb0 : 0 < m.nBins
  swap
  · have hz : m.nBins = 0 := by omega
    have : m.stepLoop (T / nSteps) draws nSteps 0 0
        (List.replicate nPaths ⟨m.params.forward0, pcRead m.params.alpha 0⟩) = .panic := by
      obtain ⟨k, rfl⟩ : ∃ k, nSteps = k + 1 := ⟨nSteps - 1, by omega⟩
      rw [SlvSim.stepLoop]
      rcases le_or_gt (0 + 0.5 * (T / (k + 1 : ℕ))) (m.params.alpha.finalTime + 1 / 10 ^ 15) with h1 | h1
      · obtain ⟨q, hq⟩ := hok _ (by positivity) h1
        rw [hq, ok_bind, binVolSq, if_pos hz]
        rfl
      · rw [hpan _ h1]; rfl
    rw [this]
    exact ⟨⟨fun ⟨_, hl⟩ => (nomatch hl), fun h => absurd h.2.2.2.1 hb0⟩, Or.inr rfl⟩
  rcases le_or_gt (T - T / nSteps / 2) (m.params.horizon + 1 / 10 ^ 15) with hin | hout
  · have hq : ∀ j, ∃ q, j < nSteps → m.params.at (0 + ((j : ℝ) + 1 / 2) * (T / nSteps)) = .ok q := by
      intro j
      by_cases hj : j < nSteps
      · obtain ⟨q, hq⟩ := hok (0 + ((j : ℝ) + 1 / 2) * (T / nSteps)) (by positivity) (by
          rw [TdSabr.horizon] at hin
          refine le_trans ?_ hin
          rw [← hlast, zero_add]
          refine mul_le_mul_of_nonneg_right ?_ hdt.le
          have : (j : ℝ) + 1 ≤ nSteps := by exact_mod_cast hj
          linarith)
        exact ⟨q, fun _ => hq⟩
      · exact ⟨⟨0, 0, 0, 0⟩, fun h => absurd h hj⟩
    choose q hq using hq
    obtain ⟨l, P, -, p2, -⟩ := slv_stepLoop (m := m) (L := L) (dt := T / nSteps) (draws := draws) hLx hb0 hp
      nSteps 0 0 (List.replicate nPaths ⟨m.params.forward0, pcRead m.params.alpha 0⟩) (by simp) hvol q hq
    exact ⟨⟨fun _ => ⟨hn, hp, hT, hb0, hin⟩, fun _ => ⟨l, p2⟩⟩, Or.inl ⟨l, p2⟩⟩
  · have := slv_stepLoop_panic (m := m) (L := L) (dt := T / nSteps) (draws := draws) hLx hb0
      (fun t => by
        rcases lt_or_ge t 0 with h0 | h0
        · exact Or.inr (hneg t h0)
        rcases le_or_gt t (m.params.alpha.finalTime + 1 / 10 ^ 15) with h1 | h1
        · exact Or.inl (hok t h0 h1)
        · exact Or.inr (hpan t h1))
      nSteps 0 0 (List.replicate nPaths ⟨m.params.forward0, pcRead m.params.alpha 0⟩)
      (by
        intro h0
        have := congrArg List.length h0
        simp at this
        omega) hvol ⟨nSteps - 1, by omega, hpan _ (by
          rw [TdSabr.horizon, ← hlast] at hout
          rw [Nat.cast_sub (by omega), Nat.cast_one, zero_add]
          calc _ < _ := hout
            _ = _ := by ring)⟩
    rw [this]
    exact ⟨⟨fun ⟨_, hl⟩ => (nomatch hl), fun h => absurd h.2.2.2.2 (not_le.2 hout)⟩, Or.inr rfl⟩

/-- **C71**: the volatilities follow the SABR dynamics untouched by the compensator: particle `i`
has the volatility `α₀ ξ` of a time-dependent SABR path (with any forward) on its own draws, so that
its moments are those of `C70_volatility`. -/
theorem C71_volatility {L : ℕ → ℝ → ℝ} {nBins M n : ℕ} {β a0 f0 : ℝ} {r v : ℕ → ℝ} {dt : ℝ}
    {draws : ℕ → Fin 2 → ℝ} {P : ℕ → List (ℝ × ℝ)} (h0 : P 0 = List.replicate M (f0, a0))
    (hP : ∀ j < n, SlvAdvance (L j) nBins β (r j) (v j) dt (fun i => draws (j * M + i)) (P j) (P (j + 1)))
    (a : ℕ → ℝ) {i : ℕ} (hi : i < M) :
    ∃ s, (P n)[i]? = some s
      ∧ s.2 = a0 * (chain (sabrScheme a r v (fun _ => dt) β) n (f0, 1) fun j => draws (j * M + i)).2 := by
  induction n with
  | zero =>
    refine ⟨(f0, a0), ?_, by simp [chain]⟩
    rw [h0, List.getElem?_replicate, if_pos hi]
  | succ n ih =>
    obtain ⟨s, hs, hv⟩ := ih fun j hj => hP j (by omega)
    obtain ⟨-, groups, -, hg⟩ := hP n (by omega)
    obtain ⟨e, -, he⟩ := hg i s hs
    refine ⟨_, he, ?_⟩
    rw [chain]
    simp only [slvStep, sabrScheme, hv]
    ring

theorem isBinMean_own {P : List (ℝ × ℝ)} {nBins : ℕ} {groups : List (List (ℝ × ℝ))}
    (hb : IsBinning P nBins groups) (hd : (P.map Prod.fst).Nodup) {g : List (ℝ × ℝ)} (hg : g ∈ groups)
    {s : ℝ × ℝ} (hs : s ∈ g) {e : ℝ} (he : IsBinMean groups s.1 e) : e = meanSq g := by
  have hnd : (groups.map fun g => g.map Prod.fst).Pairwise List.Disjoint := by
    have : (groups.flatten.map Prod.fst).Nodup := ((hb.parts.map Prod.fst).nodup_iff).2 hd
    rw [List.map_flatten, List.nodup_flatten] at this
    exact this.2
  rw [List.pairwise_map] at hnd
  obtain ⟨i, hi, rfl⟩ := List.getElem_of_mem hg
  rcases he with ⟨i', hi', ⟨t, ht, hle⟩, hbefore, rfl⟩ | ⟨hall, -⟩
  · rcases lt_trichotomy i i' with h | h | h
    · exact absurd (hbefore i h s hs) (lt_irrefl _)
    · subst h; rfl
    · have h1 := (List.pairwise_iff_getElem.1 hb.ordered i' i hi' hi h) t ht s hs
      have h2 := (List.pairwise_iff_getElem.1 hnd i' i hi' hi h)
      have heq : t.1 = s.1 := le_antisymm h1 hle
      exact absurd (heq ▸ List.mem_map_of_mem hs) (h2 (List.mem_map_of_mem ht))
  · exact absurd (hall _ hg s hs) (lt_irrefl _)

theorem slvCoef_sq {x e β : ℝ} {s : ℝ × ℝ} (hx : 0 ≤ x) (hf : 1 / 10 ^ 12 ≤ s.1)
    (he : 1 / 10 ^ 12 ≤ e * s.1 ^ (2 * β - 2)) :
    slvCoef x e β s ^ 2 = x * s.1 ^ 2 * (s.2 ^ 2 / e) := by
  have hl : liftF s.1 = s.1 := max_eq_left hf
  have h0 : 0 < s.1 := lt_of_lt_of_le (by norm_num) hf
  have hr : 0 < s.1 ^ (2 * β - 2) := Real.rpow_pos_of_pos h0 _
  have he0 : 0 < e := by
    have : 0 < e * s.1 ^ (2 * β - 2) := lt_of_lt_of_le (by norm_num) he
    exact (mul_pos_iff_of_pos_right hr).1 this
  have e1 : (s.1 ^ β) ^ 2 = s.1 ^ (2 * β - 2) * s.1 ^ 2 := by
    rw [← Real.rpow_natCast (s.1 ^ β), ← Real.rpow_mul h0.le, ← Real.rpow_natCast s.1 2,
      ← Real.rpow_add h0]
    congr 1
    push_cast; ring
  rw [slvCoef, hl, max_eq_left he, mul_pow, mul_pow, Real.sq_sqrt (by positivity), e1]
  field_simp

theorem std_sq_coord (c dt : ℝ) (hdt : 0 ≤ dt) :
    ∫ z : Fin 2 → ℝ, (c * (√dt * z 0)) ^ 2 ∂stdNormal 2 = c ^ 2 * dt := by
  have e : (fun z : Fin 2 → ℝ => (c * (√dt * z 0)) ^ 2) = fun z => c ^ 2 * dt * (z 0 * z 0) := by
    funext z
    have := Real.sq_sqrt hdt
    calc (c * (√dt * z 0)) ^ 2 = c ^ 2 * (√dt) ^ 2 * (z 0 * z 0) := by ring
      _ = _ := by rw [this]
  rw [e, integral_const_mul, (std_cov (n := 2) 0 0).2]
  simp

/-- **C71** (mimicking): with pairwise different forwards and the floors not binding, every particle
uses the mean of its own bin, and in every bin the average of `Var[ΔF] / (F² σ²_LV(F) dt)`, the
variance taken over the draws before the forward is cut at zero, is exactly one: whatever the
volatilities, the bin as a whole moves with the local variance of the surface. -/
theorem C71_mimicking {P : List (ℝ × ℝ)} {nBins : ℕ} {groups : List (List (ℝ × ℝ))} {L : ℝ → ℝ}
    {β dt : ℝ} (hb : IsBinning P nBins groups) (hd : (P.map Prod.fst).Nodup)
    (hf : ∀ s ∈ P, 1 / 10 ^ 12 ≤ s.1) (hL : ∀ f, 0 < L f) (hdt : 0 < dt)
    (hfloor : ∀ g ∈ groups, ∀ s ∈ g, 1 / 10 ^ 12 ≤ meanSq g * s.1 ^ (2 * β - 2))
    {g : List (ℝ × ℝ)} (hg : g ∈ groups) {E : ℝ × ℝ → ℝ}
    (hE : ∀ s ∈ g, IsBinMean groups (liftF s.1) (E s)) :
    (∀ s ∈ g, E s = meanSq g)
    ∧ (g.map fun s => (∫ z : Fin 2 → ℝ, (slvCoef (L (liftF s.1)) (E s) β s * (√dt * z 0)) ^ 2 ∂stdNormal 2)
        / (s.1 ^ 2 * L s.1 * dt)).sum / g.length = 1 := by
  have hmem : ∀ s ∈ g, s ∈ P := fun s hs =>
    hb.parts.mem_iff.1 (List.mem_flatten.2 ⟨g, hg, hs⟩)
  have hlift : ∀ s ∈ g, liftF s.1 = s.1 := fun s hs => max_eq_left (hf s (hmem s hs))
  have hown : ∀ s ∈ g, E s = meanSq g := fun s hs =>
    isBinMean_own hb hd hg hs (by have := hE s hs; rwa [hlift s hs] at this)
  refine ⟨hown, ?_⟩
  have hlen : (g.length : ℝ) ≠ 0 := by
    have := List.length_pos_of_ne_nil (hb.nonempty g hg)
    positivity
  have hterm : ∀ s ∈ g, (∫ z : Fin 2 → ℝ, (slvCoef (L (liftF s.1)) (E s) β s * (√dt * z 0)) ^ 2 ∂stdNormal 2)
      / (s.1 ^ 2 * L s.1 * dt) = (meanSq g)⁻¹ * s.2 ^ 2 := fun s hs => by
    have h0 : 0 < s.1 := lt_of_lt_of_le (by norm_num) (hf s (hmem s hs))
    have hL0 := hL s.1
    rw [std_sq_coord _ _ hdt.le, hlift s hs, hown s hs,
      slvCoef_sq hL0.le (hf s (hmem s hs)) (hfloor g hg s hs)]
    field_simp
  have hm : meanSq g ≠ 0 := by
    obtain ⟨s, hs⟩ := List.exists_mem_of_ne_nil _ (hb.nonempty g hg)
    intro h0
    have := hfloor g hg s hs
    rw [h0, zero_mul] at this
    norm_num at this
  rw [List.map_congr_left hterm, List.sum_map_mul_left]
  have : (g.map fun s => s.2 ^ 2).sum = meanSq g * g.length := by
    rw [meanSq, div_mul_cancel₀ _ hlen]
  rw [this]
  field_simp

theorem meanSq_const {g : List (ℝ × ℝ)} (hg : g ≠ []) {c : ℝ} (h : ∀ s ∈ g, s.2 = c) :
    meanSq g = c ^ 2 := by
  have hlen : (g.length : ℝ) ≠ 0 := by
    have := List.length_pos_of_ne_nil hg
    positivity
  have : (g.map fun s => s.2 ^ 2) = List.replicate g.length (c ^ 2) := by
    rw [List.eq_replicate_iff]
    refine ⟨by simp, fun x hx => ?_⟩
    obtain ⟨s, hs, rfl⟩ := List.mem_map.1 hx
    rw [h s hs]
  rw [meanSq, this, List.sum_replicate, nsmul_eq_mul, mul_div_cancel_left₀ _ hlen]

/-- **C71**: with zero vol-of-vol the stochastic volatility cancels: as long as the floor of the
denominator does not bind, each particle makes an Euler step of the pure local-volatility model,
`F + σ_LV(F) F √dt z`, and keeps its volatility. -/
theorem C71_local_vol {L : ℝ → ℝ} {nBins : ℕ} {β r dt c : ℝ} {z : ℕ → Fin 2 → ℝ} {P Q : List (ℝ × ℝ)}
    (h : SlvAdvance L nBins β r 0 dt z P Q) (hc : 0 < c) (hv : ∀ s ∈ P, s.2 = c) (hL : ∀ f, 0 ≤ L f)
    (hfloor : ∀ s ∈ P, 1 / 10 ^ 12 ≤ c ^ 2 * liftF s.1 ^ (2 * β - 2)) {i : ℕ} {s : ℝ × ℝ}
    (hs : P[i]? = some s) :
    Q[i]? = some (max (liftF s.1 + √(L (liftF s.1)) * liftF s.1 * (√dt * z i 0)) 0, c) := by
  obtain ⟨-, groups, hb, hg⟩ := h
  obtain ⟨e, he, hq⟩ := hg i s hs
  have hmem : s ∈ P := List.mem_of_getElem? hs
  have hmean : ∀ g ∈ groups, meanSq g = c ^ 2 := fun g hgm =>
    meanSq_const (hb.nonempty g hgm) fun t ht =>
      hv t (hb.parts.mem_iff.1 (List.mem_flatten.2 ⟨g, hgm, ht⟩))
  have hec : e = c ^ 2 := by
    rcases he with ⟨i', hi', -, -, rfl⟩ | ⟨-, g, hgl, rfl⟩
    · exact hmean _ (List.getElem_mem hi')
    · exact hmean _ (List.mem_of_getLast? hgl)
  have h0 := liftF_pos s.1
  have hcoef : slvCoef (L (liftF s.1)) e β s = √(L (liftF s.1)) * liftF s.1 := by
    have hr : 0 < liftF s.1 ^ (2 * β - 2) := Real.rpow_pos_of_pos h0 _
    have e1 : liftF s.1 ^ (2 * β - 2) = (liftF s.1 ^ (β - 1)) ^ 2 := by
      rw [← Real.rpow_natCast, ← Real.rpow_mul h0.le]
      congr 1
      push_cast; ring
    have hr1 : 0 < liftF s.1 ^ (β - 1) := Real.rpow_pos_of_pos h0 _
    have e2 : liftF s.1 ^ β = liftF s.1 ^ (β - 1) * liftF s.1 := by
      rw [← Real.rpow_add_one h0.ne', sub_add_cancel]
    rw [slvCoef, hec, max_eq_left (hfloor s hmem), hv s hmem, Real.sqrt_div (hL _), e1, ← mul_pow,
      Real.sqrt_sq (by positivity), e2]
    field_simp
  rw [hq, slvStep, hcoef, hv s hmem]
  simp

theorem slv_increment (x e β r v dt : ℝ) (s : ℝ × ℝ) :
    Integrable (fun z => (slvStep x e β r v dt s z).1) (stdNormal 2)
    ∧ Integrable (fun z : Fin 2 → ℝ => max (-(liftF s.1 + slvCoef x e β s * (√dt * z 0))) 0) (stdNormal 2)
    ∧ ∫ z, ((slvStep x e β r v dt s z).1 - max (-(liftF s.1 + slvCoef x e β s * (√dt * z 0))) 0) ∂stdNormal 2
      = liftF s.1 := by
  have hz := (std_coord (n := 2) 0)
  have hi : Integrable (fun z : Fin 2 → ℝ => liftF s.1 + slvCoef x e β s * (√dt * z 0)) (stdNormal 2) :=
    (integrable_const _).add ((hz.1.const_mul _).const_mul _)
  refine ⟨hi.pos_part, hi.neg.pos_part, ?_⟩
  have e1 : ∀ y : ℝ, max y 0 - max (-y) 0 = y := fun y => by
    rcases le_total 0 y with h | h
    · rw [max_eq_left h, max_eq_right (by linarith)]; ring
    · rw [max_eq_right h, max_eq_left (by linarith)]; ring
  simp only [slvStep, e1]
  rw [integral_add (integrable_const _) ((hz.1.const_mul _).const_mul _), integral_const_mul,
    integral_const_mul, hz.2]
  simp

/-- **C71, partial**: given the population, the next forward of a particle, less what cutting it at
zero adds, has the mean `max(F, 1e-12)`.  Missing from the martingale claim: the cuts and the
restart of particles at zero, see `C71_martingale_false`. -/
theorem C71_martingale_partial (x e β r v dt : ℝ) (s : ℝ × ℝ) (hs : 1 / 10 ^ 12 ≤ s.1) :
    ∫ z, ((slvStep x e β r v dt s z).1 - max (-(s.1 + slvCoef x e β s * (√dt * z 0))) 0) ∂stdNormal 2
      = s.1 := by
  have := (slv_increment x e β r v dt s).2.2
  rwa [show liftF s.1 = s.1 from max_eq_left hs] at this

/-- **C71, refuted**: the forward is not a martingale: with positive local variance and volatility
the mean of the next forward is strictly larger than the current one, for every particle. -/
theorem C71_martingale_false {x e β r v dt : ℝ} {s : ℝ × ℝ} (hx : 0 < x) (hv : 0 < s.2) (hdt : 0 < dt) :
    s.1 < ∫ z, (slvStep x e β r v dt s z).1 ∂stdNormal 2 := by
  obtain ⟨h1, h2, h3⟩ := slv_increment x e β r v dt s
  rw [integral_sub h1 h2] at h3
  have hc : 0 < slvCoef x e β s * √dt := by
    have hd : 0 < max (e * liftF s.1 ^ (2 * β - 2)) (1 / 10 ^ 12) :=
      lt_of_lt_of_le (by norm_num) (le_max_right _ _)
    have := Real.sqrt_pos.2 (div_pos hx hd)
    have := Real.rpow_pos_of_pos (liftF_pos s.1) β
    have := Real.sqrt_pos.2 hdt
    rw [slvCoef]
    positivity
  set c := slvCoef x e β s * √dt with hcd
  have hpos : 0 < ∫ z : Fin 2 → ℝ, max (-(liftF s.1 + slvCoef x e β s * (√dt * z 0))) 0 ∂stdNormal 2 := by
    have hnn : 0 ≤ fun z : Fin 2 → ℝ => max (-(liftF s.1 + slvCoef x e β s * (√dt * z 0))) 0 :=
      fun z => le_max_right _ _
    rw [integral_pos_iff_support_of_nonneg hnn h2]
    have hopen : IsOpen {z : Fin 2 → ℝ | liftF s.1 + c * z 0 < 0} := by
      refine isOpen_lt ?_ continuous_const
      fun_prop
    refine lt_of_lt_of_le (hopen.measure_pos _ ⟨fun _ => -(liftF s.1 + 1) / c, ?_⟩)
      (measure_mono fun z hz => ?_)
    · change liftF s.1 + c * (-(liftF s.1 + 1) / c) < 0
      rw [mul_div_cancel₀ _ hc.ne']
      linarith
    · rw [Function.mem_support]
      refine ne_of_gt (lt_max_of_lt_left ?_)
      have : liftF s.1 + c * z 0 < 0 := hz
      rw [hcd, mul_assoc] at this
      linarith
  have : s.1 ≤ liftF s.1 := le_max_left _ _
  linarith

/-- **C71, refuted**: among particles with the same forward the conditional mean is not the mean over
those particles.  Volatilities 1 and 3 at the same forward in two bins: both use the first bin's
mean 1 instead of 5, and their average variance is five times the local variance. -/
theorem C71_ties_false :
    binVolSq [⟨1, 1⟩, ⟨1, 3⟩] 2 = .ok ([1, 1], [1, 9]) ∧ lookupBin 1 [1, 1] [1, 9] = .ok 1
    ∧ ∀ x β : ℝ, 0 ≤ x → (slvCoef x 1 β (1, 1) ^ 2 + slvCoef x 1 β (1, 3) ^ 2) / 2 = 5 * x := by
  refine ⟨?_, ?_, fun x β hx => ?_⟩
  · have hm : sortByForward [((1 : ℝ), (1 : ℝ)), (1, 9)] = [(1, 1), (1, 9)] := by
      rw [sortByForward]
      exact List.mergeSort_of_pairwise (by simp)
    norm_num [binVolSq, hm, binLoop]
    exact fun h => (nomatch h)
  · norm_num [lookupBin, List.findIdx?_cons, unwrap]
  · rw [slvCoef_sq hx (by norm_num) (by norm_num), slvCoef_sq hx (by norm_num) (by norm_num)]
    norm_num
    ring

/-- **C71, refuted**: zero is not absorbing, and a particle at zero does not use its own bin.  Next to
a particle with volatility 3, one at zero with volatility 1 uses the mean 9 of the other's bin, and
an upward draw lifts it off zero; in the SABR model without compensator (`β > 0`) zero is
absorbing. -/
theorem C71_zero_false :
    binVolSq [⟨0, 1⟩, ⟨1, 3⟩] 2 = .ok ([0, 1], [1, 9])
    ∧ lookupBin (liftF 0) [0, 1] [1, 9] = .ok 9
    ∧ (∀ x e β r v dt : ℝ, ∀ z : Fin 2 → ℝ, 0 ≤ z 0 → 0 < (slvStep x e β r v dt (0, 1) z).1)
    ∧ ∀ (a r v dt : ℕ → ℝ) (β ξ : ℝ) (k : ℕ) (z : Fin 2 → ℝ), 0 < β →
        (sabrScheme a r v dt β k (0, ξ) z).1 = 0 := by
  refine ⟨?_, ?_, fun x e β r v dt z hz => ?_, fun a r v dt β ξ k z hβ => ?_⟩
  · have hm : sortByForward [((0 : ℝ), (1 : ℝ)), (1, 9)] = [(0, 1), (1, 9)] := by
      rw [sortByForward]
      exact List.mergeSort_of_pairwise (by simp)
    norm_num [binVolSq, hm, binLoop]
    exact fun h => (nomatch h)
  · norm_num [lookupBin, liftF, List.findIdx?_cons, unwrap]
  · refine lt_max_of_lt_left ?_
    have h1 := liftF_pos 0
    have : 0 ≤ slvCoef x e β (0, 1) := by
      have := Real.rpow_nonneg h1.le β
      rw [slvCoef]
      positivity
    have := mul_nonneg this (mul_nonneg (Real.sqrt_nonneg dt) hz)
    change 0 < liftF 0 + _
    linarith
  · simp [sabrScheme, Real.zero_rpow hβ.ne']

/-- Three particles in two bins meet the hypotheses of `C71_mimicking`: the first bin holds two of
them. -/
example : ∃ groups : List (List (ℝ × ℝ)), IsBinning [(1.2, 0.3), (1, 0.1), (1.1, 0.2)] 2 groups
    ∧ (([(1.2, 0.3), (1, 0.1), (1.1, 0.2)] : List (ℝ × ℝ)).map Prod.fst).Nodup
    ∧ (∀ g ∈ groups, ∀ s ∈ g, 1 / 10 ^ 12 ≤ meanSq g * s.1 ^ (2 * (1 : ℝ) - 2))
    ∧ IsBinMean groups (liftF 1) (0.025) := by
  refine ⟨[[(1, 0.1), (1.1, 0.2)], [(1.2, 0.3)]], ⟨?_, by simp, by simp, ⟨2, ?_, by simp⟩, ?_⟩, ?_, ?_, ?_⟩
  · exact List.perm_append_comm (l₁ := [(1, 0.1), (1.1, 0.2)]) (l₂ := [(1.2, 0.3)])
  · intro i hi
    have : i = 0 := by simp at hi; omega
    subst this; rfl
  · norm_num
    rintro a b (⟨rfl, rfl⟩ | ⟨rfl, rfl⟩) <;> norm_num
  · norm_num
  · norm_num [meanSq]
  · refine Or.inl ⟨0, by simp, ⟨(1, 0.1), by simp, by norm_num [liftF]⟩, by simp, ?_⟩
    norm_num [meanSq]

/-- Equal volatilities of 20% and `β = 1/2` keep the floor of `C71_local_vol` off around the usual
levels. -/
example : (1 : ℝ) / 10 ^ 12 ≤ 0.2 ^ 2 * liftF 1 ^ (2 * (1 / 2 : ℝ) - 2) := by
  norm_num [liftF]

end Verif
