import Verif.Lemmas.Simulation
import Verif.Model.DayCount
import Mathlib.Tactic.Positivity
import Mathlib.Tactic.NormNum
import Mathlib.Probability.Distributions.Gaussian.Real
import Mathlib.Probability.Moments.Variance

/-!
# C50: date-driven Monte Carlo
-/

namespace Verif

open Classical Outcome

/-- A concrete linear search meeting the `KeySearch` contract (for the examples). -/
theorem exists_keySearch : Nonempty KeySearch := by
  refine ⟨⟨fun l t => if t ∈ l then .found (l.idxOf t)
      else .missing (l.takeWhile fun q => decide (q < t)).length, ?_, ?_⟩⟩
  · intro l t i _ h
    by_cases hm : t ∈ l
    · rw [if_pos hm] at h
      injection h with h
      rw [← h, List.getElem?_eq_getElem (List.idxOf_lt_length_iff.2 hm), List.getElem_idxOf]
    · rw [if_neg hm] at h; cases h
  · intro l t i hs h
    by_cases hm : t ∈ l
    · rw [if_pos hm] at h; cases h
    · rw [if_neg hm] at h
      injection h with h
      subst h
      have e := List.takeWhile_append_dropWhile (p := fun q => decide (q < t)) (l := l)
      have e1 : l.take (l.takeWhile fun q => decide (q < t)).length =
          l.takeWhile fun q => decide (q < t) := by
        have h1 := List.take_left' (l₁ := l.takeWhile fun q => decide (q < t))
          (l₂ := l.dropWhile fun q => decide (q < t)) rfl
        rwa [e] at h1
      have e2 : l.drop (l.takeWhile fun q => decide (q < t)).length =
          l.dropWhile fun q => decide (q < t) := by
        have h1 := List.take_append_drop (l.takeWhile fun q => decide (q < t)).length l
        rw [e1] at h1
        exact List.append_cancel_left (h1.trans e.symm)
      refine ⟨(List.takeWhile_sublist _).length_le, fun q hq => ?_, fun q hq => ?_⟩
      · rw [e1] at hq
        have := List.mem_takeWhile_imp hq
        simpa using this
      · rw [e2] at hq
        rcases hdw : l.dropWhile (fun q => decide (q < t)) with _ | ⟨x, xs⟩
        · rw [hdw] at hq; cases hq
        · have hx : ¬ x < t := by
            have := List.head?_dropWhile_not (fun q => decide (q < t)) l
            rw [hdw] at this; simpa using this
          have hxl : x ∈ l := (List.dropWhile_sublist _).subset (by rw [hdw]; exact List.mem_cons_self)
          have hxt : x ≠ t := fun h => hm (h ▸ hxl)
          have hsub := hs.sublist (List.dropWhile_sublist fun q => decide (q < t))
          rw [hdw] at hsub hq
          rcases List.mem_cons.1 hq with rfl | hq
          · omega
          · have := (List.pairwise_cons.1 hsub).1 q hq; omega

theorem simulate_ok {S M : Type} {ks : KeySearch} {sim : SimModel S M} {m : M}
    {val : Int} {dates : List Int} {n step : Nat} {dc : Int → Int → Outcome ℝ}
    {r : DatedPaths S} (h : simulateAtDates ks sim m val dates n step dc = .ok r) :
    0 < n ∧ 0 < step ∧ dates ≠ [] ∧ (∀ d ∈ dates, val < d) ∧
    ∃ last grid times, (dates.mergeSort fun a b => decide (a ≤ b)).getLast? = some last ∧
      simGrid val (dates.mergeSort fun a b => decide (a ≤ b)) last step = .ok grid ∧
      gridTimes dc val grid = .ok times ∧
      ∃ idx, obsIndices ks grid (dates.mergeSort fun a b => decide (a ≤ b)) = .ok idx ∧
      r = ⟨val, dates.mergeSort fun a b => decide (a ≤ b), (runPaths sim times idx n m).1⟩ := by
  rw [simulateAtDates] at h
  by_cases h1 : n = 0
  · rw [if_pos h1] at h; cases h
  rw [if_neg h1] at h
  by_cases h2 : step = 0
  · rw [if_pos h2] at h; cases h
  rw [if_neg h2] at h
  by_cases h3 : dates = []
  · rw [if_pos h3] at h; cases h
  rw [if_neg h3] at h
  by_cases h4 : ∃ d ∈ dates, d ≤ val
  · rw [if_pos h4] at h; cases h
  rw [if_neg h4] at h
  simp only [] at h
  rcases h5 : (dates.mergeSort fun a b => decide (a ≤ b)).getLast? with _ | last
  · rw [h5] at h; cases h
  · rw [h5] at h
    obtain ⟨grid, hg, h⟩ := bind_eq_ok.1 h
    obtain ⟨idx, hi, h⟩ := bind_eq_ok.1 h
    obtain ⟨times, ht, h⟩ := bind_eq_ok.1 h
    injection h with h
    refine ⟨by omega, by omega, h3, fun d hd => ?_, last, grid, times, rfl, hg, ht, idx, hi, h.symm⟩
    by_contra hc
    exact h4 ⟨d, hd, by omega⟩

/-- **C50**: the integration grid starts at the valuation date, is strictly increasing, contains
every observation date, ends at the last one and has no step longer than the maximum. -/
theorem C50_grid (val last : Int) (obs grid : List Int) (step : Nat) (hs : 0 < step)
    (hv : ∀ d ∈ obs, val < d) (hl : last ∈ obs) (hm : ∀ d ∈ obs, d ≤ last)
    (h : simGrid val obs last step = .ok grid) :
    ∃ later, grid = val :: later ∧ GoodGrid val obs step later :=
  simGrid_good val obs last step hs hv ⟨hl, hm⟩ grid h

/-- **C50** (partial: day counters that increase strictly from grid date to grid date): every
path holds exactly one state per requested observation date, in date order, each the fold of the
model's step over the grid up to that date.  Missing: other day counters, where it is false
(`C50_lost_observation_false`). -/
theorem C50_captured_partial {S M : Type} (ks : KeySearch) (sim : SimModel S M) (m : M)
    (val : Int) (dates : List Int) (n step : Nat) (dc : Int → Int → Outcome ℝ)
    (f : Int → ℝ) (hf : ∀ d, val ≤ d → yfOrZero dc val d = .ok (f d))
    (hinc : ∀ a b, val ≤ a → a < b → f a < f b)
    (r : DatedPaths S) (h : simulateAtDates ks sim m val dates n step dc = .ok r) :
    r.valuation = val ∧ r.obs.Perm dates ∧ r.obs.Pairwise (· ≤ ·) ∧
    ∃ later, GoodGrid val dates step later ∧
      r.paths = expectedPaths sim f val later r.obs n m ∧
      r.paths.length = n ∧ ∀ p ∈ r.paths, p.length = dates.length := by
  obtain ⟨hn, hs, hne, hv, last, grid, times, hlast, hg, ht, idx, hi, rfl⟩ := simulate_ok h
  have hsort := mergeSort_dates dates
  have hperm : (dates.mergeSort fun a b => decide (a ≤ b)).Perm dates := List.mergeSort_perm _ _
  have hmax := getLast_max _ _ hsort hlast
  obtain ⟨later, rfl, hgood⟩ := simGrid_good val _ last step hs
    (fun d hd => hv d (hperm.mem_iff.1 hd)) hmax grid hg
  have hge : ∀ d ∈ val :: later, val ≤ d := by
    intro d hd
    rcases List.mem_cons.1 hd with rfl | hd
    · exact le_rfl
    · exact ((List.pairwise_cons.1 hgood.increasing).1 d hd).le
  have hts := gridTimes_ok (fun d hd => hf d (hge d hd)) ht
  have hidx := obsIndices_eq ks (val :: later) hgood.increasing _
    (fun d hd => List.mem_cons_of_mem _ (hgood.covers d hd))
  rw [hidx] at hi
  injection hi with hi
  subst hts hi
  have hp := runPaths_eq sim f val later _ hgood.increasing
    (fun a ha b _ hab => hinc a b (hge a ha) hab) hsort hgood.covers n m
  refine ⟨rfl, hperm, hsort, later, ⟨hgood.increasing, fun d hd => hgood.covers d (hperm.mem_iff.2 hd),
    fun g hg => ?_, hgood.gaps⟩, hp, ?_, ?_⟩
  · obtain ⟨d, hd, h⟩ := hgood.ends g hg
    exact ⟨d, hperm.mem_iff.1 hd, h⟩
  · simp only []; rw [hp]; exact (expectedPaths_length sim f val later _ n m).1
  · intro p hpm
    simp only [] at hpm
    rw [hp] at hpm
    rw [(expectedPaths_length sim f val later _ n m).2 p hpm, hperm.length_eq]

/-- **C50**: the call succeeds whenever its assertions hold and dates and day counter stay in
range. -/
theorem C50_total {S M : Type} (ks : KeySearch) (sim : SimModel S M) (m : M)
    (val : Int) (dates : List Int) (n step : Nat) (dc : Int → Int → Outcome ℝ)
    (hn : 0 < n) (hs : 0 < step) (hne : dates ≠ []) (hv : ∀ d ∈ dates, val < d)
    (hmin : minDay ≤ val) (hmax : ∀ d ∈ dates, d + step ≤ maxDay)
    (hdc : ∀ d, val ≤ d → dc val d ≠ .panic) :
    ∃ r, simulateAtDates ks sim m val dates n step dc = .ok r := by
  rw [simulateAtDates, if_neg (by omega), if_neg (by omega), if_neg hne,
    if_neg (by rintro ⟨d, hd, h⟩; have := hv d hd; omega)]
  simp only []
  have hsort := mergeSort_dates dates
  have hperm : (dates.mergeSort fun a b => decide (a ≤ b)).Perm dates := List.mergeSort_perm _ _
  rcases hlast : (dates.mergeSort fun a b => decide (a ≤ b)).getLast? with _ | last
  · rw [List.getLast?_eq_none_iff] at hlast
    rw [hlast] at hperm
    exact absurd hperm.symm.eq_nil hne
  · have hm := getLast_max _ _ hsort hlast
    have hlv := hv last (hperm.mem_iff.1 hm.1)
    obtain ⟨u, hu⟩ := gridLoop_ok last step (hmax last (hperm.mem_iff.1 hm.1)) (last - val).toNat val hmin
      hlv.le
    have hg : ∃ g, simGrid val (dates.mergeSort fun a b => decide (a ≤ b)) last step = .ok g := by
      rw [simGrid, hu]; exact ⟨_, rfl⟩
    obtain ⟨g, hg⟩ := hg
    obtain ⟨later, rfl, hgood⟩ := simGrid_good val _ last step hs
      (fun d hd => hv d (hperm.mem_iff.1 hd)) hm g hg
    have hyf : ∀ d ∈ val :: later, yfOrZero dc val d = .ok
        (match dc val d with | .ok x => x | _ => 0) := by
      intro d hd
      have hvd : val ≤ d := by
        rcases List.mem_cons.1 hd with rfl | hd
        · exact le_rfl
        · exact ((List.pairwise_cons.1 hgood.increasing).1 d hd).le
      have := hdc d hvd
      rw [yfOrZero]
      rcases h : dc val d with x | e | _
      · rfl
      · rfl
      · exact absurd h this
    simp only []
    rw [hg, ok_bind, obsIndices_eq ks (val :: later) hgood.increasing _
      (fun d hd => List.mem_cons_of_mem _ (hgood.covers d hd)), ok_bind,
      gridTimes_total (f := fun d => match dc val d with | .ok x => x | _ => 0) hyf]
    exact ⟨_, rfl⟩

theorem expectedPaths_get {S M : Type} (sim : SimModel S M) (f : Int → ℝ) (val : Int)
    (later obs : List Int) (n : Nat) (m : M) (p : List S)
    (hp : p ∈ expectedPaths sim f val later obs n m) :
    ∃ m', p = obs.map (stateAt sim f val later m') := by
  induction n generalizing m with
  | zero => rw [expectedPaths] at hp; cases hp
  | succ n ih =>
    rw [expectedPaths] at hp
    rcases List.mem_cons.1 hp with rfl | hp
    · exact ⟨m, rfl⟩
    · exact ih _ hp

/-- **C50** (partial, as above): looking up a requested date returns the state of every path at
that date, and looking up any other date returns nothing. -/
theorem C50_states_at_partial {S M : Type} (ks : KeySearch) (sim : SimModel S M) (m : M)
    (val : Int) (dates : List Int) (n step : Nat) (dc : Int → Int → Outcome ℝ)
    (f : Int → ℝ) (hf : ∀ d, val ≤ d → yfOrZero dc val d = .ok (f d))
    (hinc : ∀ a b, val ≤ a → a < b → f a < f b)
    (r : DatedPaths S) (h : simulateAtDates ks sim m val dates n step dc = .ok r) (d : Int) :
    (d ∉ dates → r.statesAt ks d = .ok none) ∧
    (d ∈ dates → ∃ c later, r.statesAt ks d = .ok (some c) ∧ GoodGrid val dates step later ∧
      c.length = n ∧ c = (expectedPaths sim f val later [d] n m).flatten) := by
  obtain ⟨_, hperm, hsort, later, hgood, hpaths, hlen, hplen⟩ :=
    C50_captured_partial ks sim m val dates n step dc f hf hinc r h
  constructor
  · intro hd
    rw [DatedPaths.statesAt]
    rcases hk : ks.search r.obs d with i | i
    · exfalso
      have := ks.found r.obs d i hsort hk
      exact hd (hperm.mem_iff.1 (List.mem_of_getElem? this))
    · rfl
  · intro hd
    rw [DatedPaths.statesAt]
    rcases hk : ks.search r.obs d with i | i
    · have hget := ks.found r.obs d i hsort hk
      have hi : i < r.obs.length := (List.getElem?_eq_some_iff.1 hget).1
      have hcol : ∀ (k : Nat) (m : M), column i (expectedPaths sim f val later r.obs k m) =
          .ok (expectedPaths sim f val later [d] k m).flatten := by
        intro k
        induction k with
        | zero => intro m; rfl
        | succ k ih =>
          intro m
          rw [expectedPaths, column, List.getElem?_map, hget]
          simp only [Option.map_some]
          rw [ih]; rfl
      have hl : ∀ (k : Nat) (m : M), (expectedPaths sim f val later [d] k m).flatten.length = k := by
        intro k
        induction k with
        | zero => intro m; rfl
        | succ k ih => intro m; rw [expectedPaths]; simp [ih]
      refine ⟨_, later, ?_, hgood, hl n m, rfl⟩
      simp only []
      rw [hpaths, hcol]; rfl
    · exfalso
      obtain ⟨_, h1, h2⟩ := ks.missing r.obs d i hsort hk
      have hm := hperm.mem_iff.2 hd
      rw [← List.take_append_drop i r.obs, List.mem_append] at hm
      rcases hm with hm | hm
      · have := h1 d hm; omega
      · have := h2 d hm; omega

theorem mergeSort_dates_eq (l t : List Int) (hp : l.Perm t) (ht : t.Pairwise (· ≤ ·)) :
    (l.mergeSort fun a b => decide (a ≤ b)) = t :=
  ((List.mergeSort_perm _ _).trans hp).eq_of_pairwise (fun _ _ _ _ h1 h2 => le_antisymm h1 h2)
    (mergeSort_dates l) ht

/-- The 30/360 (US) day counter of the library, whose year fraction never fails. -/
noncomputable def thirtyDc (a b : Int) : Outcome ℝ := .ok ((thirty360Yf .usa a b : ℚ) : ℝ)

/-- **C50** (refuted for general day counters): with the library's 30/360 counter, valuation on
2025-01-30 and observations on 2025-01-31 and 2025-02-28, the interval to the 31st has length
zero, so the loop skips it together with the capture; the pending index then never matches again
and every path comes back empty, although two dates were requested.  Looking up the second date
panics. -/
theorem C50_lost_observation_false (ks : KeySearch) (draws : ℕ → ℝ) :
    ∃ r, simulateAtDates ks (brownian 0 0 1 draws) 0 (ymd 2025 1 30) [ymd 2025 1 31, ymd 2025 2 28]
        1 30 thirtyDc = .ok r ∧
      r.obs = [ymd 2025 1 31, ymd 2025 2 28] ∧ r.paths = [[]] ∧
      r.statesAt ks (ymd 2025 2 28) = .panic := by
  have hsort : ([ymd 2025 1 31, ymd 2025 2 28].mergeSort fun a b => decide (a ≤ b)) =
      [ymd 2025 1 31, ymd 2025 2 28] := mergeSort_dates_eq _ _ (by decide +kernel) (by decide +kernel)
  have hgrid : simGrid (ymd 2025 1 30) [ymd 2025 1 31, ymd 2025 2 28] (ymd 2025 2 28) 30 =
      .ok [ymd 2025 1 30, ymd 2025 1 31, ymd 2025 2 28] := by
    have hl : gridLoop (ymd 2025 2 28) 30 (ymd 2025 2 28 - ymd 2025 1 30).toNat (ymd 2025 1 30) =
        .ok [ymd 2025 2 28] := by decide +kernel
    rw [simGrid, hl, ok_bind, mergeSort_dates_eq _ [ymd 2025 1 30, ymd 2025 1 31, ymd 2025 2 28,
      ymd 2025 2 28] (by decide +kernel) (by decide +kernel)]
    decide +kernel
  have hinc : [ymd 2025 1 30, ymd 2025 1 31, ymd 2025 2 28].Pairwise (· < ·) := by decide +kernel
  have hidx := obsIndices_eq ks _ hinc [ymd 2025 1 31, ymd 2025 2 28] (by decide +kernel)
  have hi : ([ymd 2025 1 31, ymd 2025 2 28].map fun d =>
      [ymd 2025 1 30, ymd 2025 1 31, ymd 2025 2 28].idxOf d) = [1, 2] := by decide +kernel
  rw [hi] at hidx
  have t0 : thirty360 .usa (ymd 2025 1 30) (ymd 2025 1 30) = 0 := by decide +kernel
  have t1 : thirty360 .usa (ymd 2025 1 30) (ymd 2025 1 31) = 0 := by decide +kernel
  have t2 : thirty360 .usa (ymd 2025 1 30) (ymd 2025 2 28) = 28 := by decide +kernel
  have ht : gridTimes thirtyDc (ymd 2025 1 30) [ymd 2025 1 30, ymd 2025 1 31, ymd 2025 2 28] =
      .ok [0, 0, 28 / 360] := by
    have e : ∀ d, yfOrZero thirtyDc (ymd 2025 1 30) d =
        .ok ((thirty360Yf .usa (ymd 2025 1 30) d : ℚ) : ℝ) := fun d => rfl
    rw [gridTimes, gridTimes, gridTimes, gridTimes, e, e, e]
    simp only [thirty360Yf, t0, t1, t2]
    show Outcome.ok _ = Outcome.ok _
    norm_num
  have hsim : simulateAtDates ks (brownian 0 0 1 draws) 0 (ymd 2025 1 30)
      [ymd 2025 1 31, ymd 2025 2 28] 1 30 thirtyDc =
      .ok ⟨ymd 2025 1 30, [ymd 2025 1 31, ymd 2025 2 28], [[]]⟩ := by
    rw [simulateAtDates, if_neg (by decide), if_neg (by decide), if_neg (by decide),
      if_neg (by decide +kernel), hsort]
    simp only [List.getLast?_cons_cons, List.getLast?_singleton]
    rw [hgrid, ok_bind, hidx, ok_bind, ht, ok_bind]
    congr 2
    rw [runPaths.eq_def]
    simp only []
    rw [runPath, runPath, runPath]
    norm_num [runPaths, runPath]
  refine ⟨_, hsim, rfl, rfl, ?_⟩
  rw [DatedPaths.statesAt, search_idx ks _ (by decide +kernel) _ (by decide +kernel)]
  rfl

/-- **C50**: a geometric Brownian motion started at a positive level stays positive at every
observation, whatever the draws. -/
theorem C50_gbm_positive (s0 drift vol : ℝ) (h0 : 0 < s0) (draws : ℕ → ℝ) (f : Int → ℝ)
    (val : Int) (later : List Int) (m : ℕ) (d : Int) :
    0 < stateAt (geometric s0 drift vol draws) f val later m d := by
  have key : ∀ (l : List Int) (prev : Int) (x : ℝ × ℕ), 0 < x.1 →
      0 < (walk (geometric s0 drift vol draws) f prev l x).1 := by
    intro l
    induction l with
    | nil => intro prev x h; exact h
    | cons g l ih =>
      intro prev x h
      rw [walk]
      exact ih g _ (mul_pos h (Real.exp_pos _))
  exact key _ _ _ h0

/-- **C50**: for every sequence of draws, a geometric Brownian motion is the exponential of the
Brownian motion with drift `μ - σ²/2` and the same draws. -/
theorem C50_gbm_exponential (s0 drift vol : ℝ) (h0 : 0 < s0) (draws : ℕ → ℝ) (f : Int → ℝ)
    (val : Int) (later : List Int) (m : ℕ) (d : Int) :
    stateAt (geometric s0 drift vol draws) f val later m d =
      Real.exp (stateAt (brownian (Real.log s0) (drift - vol ^ 2 / 2) vol draws) f val later m d) := by
  have key : ∀ (l : List Int) (prev : Int) (x y : ℝ × ℕ), x.1 = Real.exp y.1 → x.2 = y.2 →
      (walk (geometric s0 drift vol draws) f prev l x).1 =
        Real.exp (walk (brownian (Real.log s0) (drift - vol ^ 2 / 2) vol draws) f prev l y).1 := by
    intro l
    induction l with
    | nil => intro prev x y h _; exact h
    | cons g l ih =>
      intro prev x y h h2
      rw [walk, walk]
      apply ih
      · simp only [geometric, brownian]
        rw [h, h2, ← Real.exp_add]
        congr 1; ring
      · simp only [geometric, brownian, h2]
  exact key _ _ _ _ (by simp only [geometric, brownian]; rw [Real.exp_log h0]) rfl

/-- **C50**: `drift` is the growth rate of the mean of a geometric Brownian motion: averaging one step
over a standard normal draw gives `s · e^{μ dt}`. -/
theorem C50_gbm_mean (s0 drift vol s t dt : ℝ) (n : ℕ) (hdt : 0 ≤ dt) :
    ∫ z, ((geometric s0 drift vol fun _ => z).step n s t dt).1 ∂(ProbabilityTheory.gaussianReal 0 1) =
      s * Real.exp (drift * dt) := by
  simp only [geometric]
  have e : ∀ z : ℝ, s * Real.exp ((drift - 1 / 2 * vol * vol) * dt + vol * √dt * z) =
      s * Real.exp ((drift - 1 / 2 * vol * vol) * dt) * Real.exp (vol * √dt * z) := by
    intro z; rw [Real.exp_add]; ring
  simp only [e]
  rw [MeasureTheory.integral_const_mul]
  have hm := congrFun (ProbabilityTheory.mgf_fun_id_gaussianReal (μ := 0) (v := 1)) (vol * √dt)
  unfold ProbabilityTheory.mgf at hm
  rw [hm, mul_assoc, ← Real.exp_add]
  congr 2
  rw [mul_pow, Real.sq_sqrt hdt]
  push_cast
  ring

/-- **C50**: one step of a Brownian motion has mean `x + μ dt` and variance `σ² dt`. -/
theorem C50_bm_moments (x0 drift vol x t dt : ℝ) (n : ℕ) (hdt : 0 ≤ dt) :
    ∫ z, ((brownian x0 drift vol fun _ => z).step n x t dt).1 ∂(ProbabilityTheory.gaussianReal 0 1) =
      x + drift * dt ∧
    ∫ z, (((brownian x0 drift vol fun _ => z).step n x t dt).1 - (x + drift * dt)) ^ 2
      ∂(ProbabilityTheory.gaussianReal 0 1) = vol ^ 2 * dt := by
  simp only [brownian]
  have hid : MeasureTheory.Integrable (fun z : ℝ => z) (ProbabilityTheory.gaussianReal 0 1) :=
    (ProbabilityTheory.memLp_id_gaussianReal 1).integrable (by norm_num)
  have hmean : ∫ z, z ∂(ProbabilityTheory.gaussianReal 0 1) = 0 := by
    simpa using ProbabilityTheory.integral_id_gaussianReal (μ := 0) (v := 1)
  have hvar : ∫ z, z ^ 2 ∂(ProbabilityTheory.gaussianReal 0 1) = 1 := by
    have h := ProbabilityTheory.variance_fun_id_gaussianReal (μ := 0) (v := 1)
    rw [ProbabilityTheory.variance_eq_integral (by fun_prop)] at h
    simp only [hmean, sub_zero] at h
    simpa using h
  constructor
  · rw [MeasureTheory.integral_add (by fun_prop) (hid.const_mul _), MeasureTheory.integral_const_mul, hmean]
    simp
  · have e : ∀ z : ℝ, (x + drift * dt + vol * √dt * z - (x + drift * dt)) ^ 2 = vol ^ 2 * dt * z ^ 2 := by
      intro z
      have : (x + drift * dt + vol * √dt * z - (x + drift * dt)) ^ 2 = vol ^ 2 * (√dt) ^ 2 * z ^ 2 := by ring
      rw [this, Real.sq_sqrt hdt]
    simp only [e]
    rw [MeasureTheory.integral_const_mul, hvar, mul_one]

/-- **C50**: without noise a Brownian motion follows its drift exactly, whatever the refinement:
the state at an observation date depends on the date alone. -/
theorem C50_drift_exact (x0 drift vol : ℝ) (f : Int → ℝ) (val : Int) (obs later : List Int)
    (step : Nat) (hg : GoodGrid val obs step later) (m : ℕ) (d : Int) (hd : d ∈ obs) :
    stateAt (brownian x0 drift vol fun _ => 0) f val later m d = x0 + drift * (f d - f val) := by
  have key : ∀ (l : List Int) (prev : Int) (x : ℝ × ℕ),
      (walk (brownian x0 drift vol fun _ => 0) f prev l x).1 =
        x.1 + drift * (f ((prev :: l).getLast (List.cons_ne_nil _ _)) - f prev) := by
    intro l
    induction l with
    | nil => intro prev x; simp [walk]
    | cons g l ih =>
      intro prev x
      rw [walk, ih, List.getLast_cons (List.cons_ne_nil _ _)]
      simp only [brownian]
      ring
  rw [stateAt, key]
  congr 4
  -- the last grid date not after `d` is `d`
  have hp := hg.increasing
  have hmem : d ∈ later.filter fun g => decide (g ≤ d) := by
    rw [List.mem_filter]; exact ⟨hg.covers d hd, by simp⟩
  have hsub : (val :: later.filter fun g => decide (g ≤ d)).Pairwise (· < ·) :=
    hp.sublist (List.Sublist.cons_cons _ List.filter_sublist)
  have hle : (val :: later.filter fun g => decide (g ≤ d)).Pairwise (· ≤ ·) :=
    hsub.imp fun h => by omega
  have hne : (val :: later.filter fun g => decide (g ≤ d)) ≠ [] := List.cons_ne_nil _ _
  have hmax := (getLast_max _ _ hle (List.getLast?_eq_some_getLast hne)).2 d
    (List.mem_cons_of_mem _ hmem)
  have hin := List.getLast_mem hne
  rcases List.mem_cons.1 hin with h | h
  · have := (List.pairwise_cons.1 hsub).1 d hmem
    omega
  · have := (List.mem_filter.1 h).2
    simp only [decide_eq_true_eq] at this
    omega

/-- The hypotheses are met by Actual/365 with two observation dates (unsorted, one repeated) and
ten-day steps. -/
example : ∃ ks : KeySearch, ∃ r : DatedPaths ℝ,
    simulateAtDates ks (brownian 1 2 3 fun _ => 0) 0 (ymd 2025 1 30)
      [ymd 2025 2 28, ymd 2025 1 31, ymd 2025 2 28] 2 10
      (fun a b => .ok (((b - a : Int) : ℝ) / 365)) = .ok r ∧
    (∀ d, yfOrZero (fun a b => .ok (((b - a : Int) : ℝ) / 365)) (ymd 2025 1 30) d =
      .ok (((d - ymd 2025 1 30 : Int) : ℝ) / 365)) ∧
    ∀ a b : Int, a < b → ((a - ymd 2025 1 30 : Int) : ℝ) / 365 < ((b - ymd 2025 1 30 : Int) : ℝ) / 365 := by
  obtain ⟨ks⟩ := exists_keySearch
  obtain ⟨r, hr⟩ := C50_total ks (brownian 1 2 3 fun _ => 0) 0 (ymd 2025 1 30)
    [ymd 2025 2 28, ymd 2025 1 31, ymd 2025 2 28] 2 10 (fun a b => .ok (((b - a : Int) : ℝ) / 365))
    (by decide) (by decide) (by decide) (by decide +kernel) (by decide +kernel) (by decide +kernel)
    (fun d _ h => by cases h)
  refine ⟨ks, r, hr, fun d => rfl, fun a b hab => ?_⟩
  have : ((a - ymd 2025 1 30 : Int) : ℝ) < ((b - ymd 2025 1 30 : Int) : ℝ) := by
    exact_mod_cast (by omega : a - ymd 2025 1 30 < b - ymd 2025 1 30)
  linarith

end Verif
