import Verif.Lemmas.FmmDrift

/-! # One step of the forward market model -/

namespace Verif

open Outcome Classical

variable {f : Fmm}

/-! ## The volatility -/

theorem knotLoop_value (t last : ℝ) (l : List (ℝ × ℝ))
    (hinc : ∀ i, i + 1 < l.length → (l.getD i (0, 0)).1 < (l.getD (i + 1) (0, 0)).1) :
    (∃ i < l.length, (l.getD i (0, 0)).1 ≤ t ∧ knotLoop t last l = (l.getD i (0, 0)).2
      ∧ ∀ j < l.length, i < j → t < (l.getD j (0, 0)).1)
    ∨ (∀ i < l.length, t < (l.getD i (0, 0)).1) ∧ knotLoop t last l = last := by
  induction l generalizing last with
  | nil => exact .inr ⟨fun i hi => absurd hi (by simp), rfl⟩
  | cons a rest ih =>
    obtain ⟨start, sigma⟩ := a
    have hinc' : ∀ i, i + 1 < rest.length → (rest.getD i (0, 0)).1 < (rest.getD (i + 1) (0, 0)).1 :=
      fun i hi => by simpa using hinc (i + 1) (by simpa using hi)
    rw [knotLoop]
    by_cases hc : start ≤ t
    · rw [if_pos hc]
      left
      rcases ih sigma hinc' with ⟨i, h1, h2, h3, h4⟩ | ⟨h1, h2⟩
      · refine ⟨i + 1, by simpa using h1, by simpa using h2, by simpa using h3, fun j hj hij => ?_⟩
        obtain ⟨k, rfl⟩ : ∃ k, j = k + 1 := ⟨j - 1, by omega⟩
        simpa using h4 k (by simpa using hj) (by omega)
      · refine ⟨0, by simp, by simpa using hc, by simpa using h2, fun j hj hij => ?_⟩
        obtain ⟨k, rfl⟩ : ∃ k, j = k + 1 := ⟨j - 1, by omega⟩
        simpa using h1 k (by simpa using hj)
    · rw [if_neg hc]
      right
      refine ⟨fun i hi => ?_, rfl⟩
      have hmono : ∀ i, i < (((start, sigma) :: rest).length) →
          start ≤ (((start, sigma) :: rest).getD i (0, 0)).1 := by
        intro i
        induction i with
        | zero => intro _; simp
        | succ i ihi => intro hi; exact (ihi (by omega)).trans (hinc i hi).le
      exact (not_le.1 hc).trans_le (hmono i hi)

theorem sigmaAt_ok (hv : f.Valid) {j : ℕ} (h1 : 1 ≤ j) (h2 : j ≤ f.tenor.m) (t : ℝ) :
    ∃ v, f.sigmaAt j t = .ok v := by
  unfold Fmm.sigmaAt
  cases hs : f.schedule with
  | none => exact ⟨_, at1_ok _ j h1 (hv.sigmas ▸ h2) 0⟩
  | some s =>
    cases s with
    | piecewiseConstant l =>
      obtain ⟨hl, hne⟩ := hv.knots l hs
      dsimp only
      rw [VolSchedule.sigmaAt]
      rw [at1_ok l j h1 (hl ▸ h2) [], ok_bind]
      have hm : l.getD (j - 1) [] ∈ l := by
        rw [List.getD_eq_getElem?_getD, List.getElem?_eq_getElem (by omega : j - 1 < l.length)]
        exact List.getElem_mem _
      have := hne _ hm
      revert this
      cases l.getD (j - 1) [] with
      | nil => intro h; exact absurd rfl h
      | cons a r => intro _; exact ⟨_, rfl⟩
    | hoLeeEquivalent vol a =>
      have hl := hv.tenor.2.1
      dsimp only
      rw [VolSchedule.sigmaAt, at1_ok _ j h1 (by omega) 0, ok_bind,
        unwrap_getD _ j (by omega) 0, ok_bind]
      split
      · exact ⟨_, rfl⟩
      · split <;> exact ⟨_, rfl⟩

theorem displacementLevel_ok (hv : f.Valid) {j : ℕ} (h1 : 1 ≤ j) (h2 : j ≤ f.tenor.m) (r : ℝ) :
    ∃ v, f.displacementLevel j r = .ok v := by
  unfold Fmm.displacementLevel
  cases hs : f.betas with
  | none => exact ⟨_, rfl⟩
  | some b =>
    have := hv.betas b hs
    dsimp only
    rw [at1_ok b j h1 (by omega) 0, ok_bind, at1_ok f.tenor.rates j h1 h2 0, ok_bind]
    exact ⟨_, rfl⟩

theorem adaptedVol_ok (hv : f.Valid) {j : ℕ} (h1 : 1 ≤ j) (h2 : j ≤ f.tenor.m) (t r : ℝ) :
    ∃ v, f.adaptedVol j t r = .ok v := by
  obtain ⟨a, ha⟩ := sigmaAt_ok hv h1 h2 t
  obtain ⟨b, hb⟩ := displacementLevel_ok hv h1 h2 r
  refine ⟨a * b, ?_⟩
  rw [Fmm.adaptedVol, ha, ok_bind, hb, ok_bind]

/-! ## The increments -/

theorem take_zip_sum (n : ℕ) (g : ℕ → ℝ) (z : List ℝ) (hz : z.length = n) (i : ℕ) (hi : i < n) :
    ((((List.range n).map g).zip z).take (i + 1) |>.map fun (a, b) => a * b).sum
      = ∑ k ∈ Finset.range (i + 1), g k * z.getD k 0 := by
  have key : ∀ l, l ≤ n → ((((List.range n).map g).zip z).take l
      |>.map fun (a, b) => a * b).sum = ∑ k ∈ Finset.range l, g k * z.getD k 0 := by
    intro l
    induction l with
    | zero => simp
    | succ l ih =>
      intro hl
      have hlen : l < (((List.range n).map g).zip z).length := by simp [hz]; omega
      rw [List.take_add_one, List.map_append, List.sum_append, ih (by omega), Finset.sum_range_succ,
        List.getElem?_eq_getElem hlen]
      simp [List.getD_eq_getElem?_getD, hz, show l < n by omega]
  exact key (i + 1) hi

theorem dw_eq {s : FmmSimulator} {dt : ℝ} {z : List ℝ} {n : ℕ}
    (hn : s.model.correlation.length = n) (hz : z.length = n) {i : ℕ} (hi : i < n) :
    s.dw dt z i = √dt * ∑ k ∈ Finset.range (i + 1), s.chol i k * z.getD k 0 := by
  rw [FmmSimulator.dw, hn]
  have := take_zip_sum n (s.chol i) z hz i hi
  dsimp only at this ⊢
  rw [this, mul_comm]

/-! ## The pieces of a step -/

theorem driftWeight_ok (hv : f.Valid) {rates : List ℝ} (hr : rates.length = f.tenor.m) {tMid : ℝ}
    {v : ℕ → ℝ} {i : ℕ} (h1 : 1 ≤ i) (h2 : i ≤ f.tenor.m)
    (hvi : f.adaptedVol i tMid (rates.getD (i - 1) 0) = .ok (v i)) :
    fmmDriftWeight f rates tMid i = .ok (v i * ahead f.tenor i tMid * f.tenor.len i
      / (1 + f.tenor.len i * rates.getD (i - 1) 0)) := by
  rw [fmmDriftWeight, gamma_ok hv.tenor h1 h2, ok_bind, at1_ok rates i h1 (hr ▸ h2) 0, ok_bind, hvi,
    ok_bind, FmmTenor.tau_ok hv.tenor h1 h2, ok_bind]
  rfl

theorem ahead_dead {q : FmmTenor} (h : q.Ordered) {t u : ℝ} (htu : t ≤ u) {i : ℕ} (h1 : 1 ≤ i)
    (h2 : i ≤ q.m) (hi : i < q.etaN t) : ahead q i u = 0 :=
  ahead_after (FmmTenor.tau_pos h h1 h2)
    (((FmmTenor.eta_spec h t).2.2.2.1 i h1 hi).le.trans htu)

theorem newRate_ok {s : FmmSimulator} (hv : s.model.Valid) {rates : List ℝ}
    (hr : rates.length = s.model.tenor.m) {t tMid dt : ℝ} (ht : t ≤ tMid) {z : List ℝ} {v : ℕ → ℝ}
    (hvol : ∀ i, 1 ≤ i → i ≤ s.model.tenor.m →
      s.model.adaptedVol i tMid (rates.getD (i - 1) 0) = .ok (v i)) {j : ℕ} (h1 : 1 ≤ j)
    (h2 : j ≤ s.model.tenor.m) :
    s.newRate rates tMid dt z (s.model.tenor.etaN t) j
      = .ok (rates.getD (j - 1) 0
        + fmmDrift (matAt s.model.correlation) s.model.tenor.len (fun i => rates.getD (i - 1) 0)
          (fun i => v i * ahead s.model.tenor i tMid) j * dt
        + v j * ahead s.model.tenor j tMid * s.dw dt z (j - 1)) := by
  obtain ⟨-, e1, e2, e3, e4⟩ := FmmTenor.eta_spec hv.tenor t
  rw [FmmSimulator.newRate]
  dsimp only
  rw [at1_ok rates j h1 (hr ▸ h2) 0, ok_bind]
  by_cases hd : j < s.model.tenor.etaN t
  · rw [if_pos hd, fmmDrift, ahead_dead hv.tenor ht h1 h2 hd]
    simp
  rw [if_neg hd, gamma_ok hv.tenor h1 h2, ok_bind]
  by_cases hg : ahead s.model.tenor j tMid = 0
  · rw [if_pos hg, fmmDrift, hg]
    simp
  rw [if_neg hg, hvol j h1 h2, ok_bind]
  rw [foldlM_okR (g := fun i => matAt s.model.correlation i j * (v i * ahead s.model.tenor i tMid
      * s.model.tenor.len i / (1 + s.model.tenor.len i * rates.getD (i - 1) 0)))]
  · rw [ok_bind, sum_range'_Icc _ (by omega), zero_add, fmmDrift]
    congr 4
    refine congrArg _ ?_
    refine Finset.sum_subset_zero_on_sdiff (Finset.Icc_subset_Icc_left e1) (fun i hi => ?_)
      fun _ _ => rfl
    rw [Finset.mem_sdiff, Finset.mem_Icc, Finset.mem_Icc] at hi
    rw [ahead_dead hv.tenor ht (by omega) (by omega) (by omega)]
    ring
  · intro a i hi
    have := mem_range'_Icc hi
    rw [entry_ok _ _ hv.correlation hv.rows (by omega) (by omega) h1 h2, ok_bind,
      driftWeight_ok hv hr (by omega) (by omega) (hvol i (by omega) (by omega)), ok_bind]

theorem newY_ok (hv : f.Valid) {p : FmmPath} (hp : p.Fits f.tenor.m) {tMid dt : ℝ} (hdt : 0 < dt)
    {v : ℕ → ℝ} {j : ℕ} (h1 : 1 ≤ j) (h2 : j ≤ f.tenor.m)
    (hvj : f.adaptedVol j tMid (p.R j) = .ok (v j)) :
    f.newY p tMid dt j = .ok (p.Y j + (v j / (p.R j + 1 / f.tenor.len j)) ^ 2
      * max 0 (min dt (f.tenor.T j - p.t))) := by
  have hl := hv.tenor.2.1
  rw [Fmm.newY, unwrap_getD _ j (by omega) 0, ok_bind, at1_ok p.yDiag j h1 (hp.yDiag ▸ h2) 0, ok_bind]
  change (if f.tenor.T j ≤ p.t then _ else _) = _
  by_cases hc : f.tenor.T j ≤ p.t
  · rw [if_pos hc, min_eq_right (by linarith), max_eq_left (by linarith)]
    simp [FmmPath.Y]
  · rw [if_neg hc, FmmTenor.tau_ok hv.tenor h1 h2, ok_bind, at1_ok p.rates j h1 (hp.rates ▸ h2) 0,
      ok_bind]
    have hvj' : f.adaptedVol j tMid (p.rates.getD (j - 1) 0) = .ok (v j) := hvj
    rw [hvj', ok_bind, max_eq_right (le_min hdt.le (by linarith [not_le.1 hc])), min_comm]
    rfl

theorem at1_range_map (g : ℕ → ℝ) {n j : ℕ} (h1 : 1 ≤ j) (h2 : j ≤ n) (d : ℝ) :
    ((List.range n).map fun i => g (i + 1)).getD (j - 1) d = g j := by
  have : j - 1 < n := by omega
  simp [List.getD_eq_getElem?_getD, this, show j - 1 + 1 = j by omega]

theorem newX_inside {s : FmmSimulator} (hv : s.model.Valid) {p : FmmPath}
    (hp : p.Fits s.model.tenor.m) {tMid dt : ℝ} {z newRates newYs : List ℝ} {k : ℕ} (h1 : 1 ≤ k)
    (h2 : k ≤ s.model.tenor.m) (hr : newRates.length = s.model.tenor.m)
    (hy : newYs.length = s.model.tenor.m) (ht1 : s.model.tenor.T (k - 1) < p.t)
    (ht2 : p.t < s.model.tenor.T k) {w : ℝ}
    (hw : s.model.adaptedVol k tMid (1 / 2 * (p.R k + newRates.getD (k - 1) 0)) = .ok w) :
    s.newX p tMid dt z k newRates newYs
      = .ok (p.xActive + (1 / s.model.tenor.len k * (newYs.getD (k - 1) 0 - p.startY k) * dt
        + w / (1 / 2 * (p.R k + newRates.getD (k - 1) 0) + 1 / s.model.tenor.len k)
          * s.dw dt z (k - 1))) := by
  have hl := hv.tenor.2.1
  rw [FmmSimulator.newX]
  dsimp only
  rw [if_pos ⟨h1, h2⟩, at1_ok _ k h1 (by omega) 0, ok_bind, unwrap_getD _ k (by omega) 0, ok_bind]
  rw [if_pos ⟨ht1, ht2⟩, FmmTenor.tau_ok hv.tenor h1 h2, ok_bind, at1_ok p.rates k h1 (hp.rates ▸ h2) 0,
    ok_bind, at1_ok newRates k h1 (hr ▸ h2) 0, ok_bind]
  have hw' : s.model.adaptedVol k tMid (1 / 2 * (p.rates.getD (k - 1) 0 + newRates.getD (k - 1) 0))
    = .ok w := hw
  rw [hw', ok_bind, at1_ok newYs k h1 (hy ▸ h2) 0, ok_bind, at1_ok p.yAtStart k h1 (hp.yAtStart ▸ h2) 0,
    ok_bind]
  rfl

theorem newX_outside {s : FmmSimulator} (hv : s.model.Valid) {p : FmmPath} {tMid dt : ℝ}
    {z newRates newYs : List ℝ} {k : ℕ}
    (hout : ¬ (1 ≤ k ∧ k ≤ s.model.tenor.m
      ∧ s.model.tenor.T (k - 1) < p.t ∧ p.t < s.model.tenor.T k)) :
    s.newX p tMid dt z k newRates newYs = .ok p.xActive := by
  have hl := hv.tenor.2.1
  rw [FmmSimulator.newX]
  dsimp only
  by_cases hk : 1 ≤ k ∧ k ≤ s.model.tenor.m
  · rw [if_pos hk, at1_ok _ k hk.1 (by omega) 0, ok_bind, unwrap_getD _ k (by omega) 0, ok_bind,
      if_neg]
    exact fun h => hout ⟨hk.1, hk.2, h⟩
  · rw [if_neg hk]

theorem newX_ok {s : FmmSimulator} (hv : s.model.Valid) {p : FmmPath}
    (hp : p.Fits s.model.tenor.m) {tMid dt : ℝ} {z newRates newYs : List ℝ}
    (hr : newRates.length = s.model.tenor.m) (hy : newYs.length = s.model.tenor.m) (k : ℕ) :
    ∃ x, s.newX p tMid dt z k newRates newYs = .ok x := by
  by_cases h : 1 ≤ k ∧ k ≤ s.model.tenor.m
      ∧ s.model.tenor.T (k - 1) < p.t ∧ p.t < s.model.tenor.T k
  · obtain ⟨h1, h2, h3, h4⟩ := h
    obtain ⟨w, hw⟩ := adaptedVol_ok hv h1 h2 tMid (1 / 2 * (p.R k + newRates.getD (k - 1) 0))
    exact ⟨_, newX_inside hv hp h1 h2 hr hy h3 h4 hw⟩
  · exact ⟨_, newX_outside hv h⟩

/-- The index counted from one is in its period or at its end exactly when `eta` says so. -/
theorem etaN_le_iff {q : FmmTenor} (h : q.Ordered) (t : ℝ) {k : ℕ} (h1 : 1 ≤ k) (h2 : k ≤ q.m) :
    q.etaN t ≤ k ↔ t ≤ q.T k := by
  obtain ⟨-, e1, e2, e3, e4⟩ := FmmTenor.eta_spec h t
  constructor
  · intro hk
    exact (e4 (by omega)).trans (h.mono hk h2)
  · intro ht
    by_contra hc
    exact absurd (e3 k h1 (by omega)) (not_lt.2 ht)

theorem step_ok {s : FmmSimulator} (hv : s.model.Valid) {p : FmmPath}
    (hp : p.Fits s.model.tenor.m) {dt : ℝ} (hdt : 0 < dt) (z : List ℝ) :
    ∃ (p' : FmmPath) (v : ℕ → ℝ), s.step p dt z = .ok p' ∧ p'.Fits s.model.tenor.m ∧ p'.t = p.t + dt
      ∧ (∀ j, 1 ≤ j → j ≤ s.model.tenor.m →
        s.model.adaptedVol j (p.t + 1 / 2 * dt) (p.R j) = .ok (v j)
        ∧ p'.R j = p.R j
          + fmmDrift (matAt s.model.correlation) s.model.tenor.len p.R
            (fun i => v i * ahead s.model.tenor i (p.t + 1 / 2 * dt)) j * dt
          + v j * ahead s.model.tenor j (p.t + 1 / 2 * dt) * s.dw dt z (j - 1)
        ∧ p'.Y j = p.Y j + (v j / (p.R j + 1 / s.model.tenor.len j)) ^ 2
          * max 0 (min dt (s.model.tenor.T j - p.t))
        ∧ (2 ≤ j ∧ p.t ≤ s.model.tenor.T (j - 1) ∧ s.model.tenor.T (j - 1) < p.t + dt →
          p'.startR j = p'.R j ∧ p'.startY j = p'.Y j ∧ p'.xActive = 0)
        ∧ (¬ (2 ≤ j ∧ p.t ≤ s.model.tenor.T (j - 1) ∧ s.model.tenor.T (j - 1) < p.t + dt) →
          p'.startR j = p.startR j ∧ p'.startY j = p.startY j)
        ∧ (s.model.tenor.T (j - 1) < p.t → p.t < s.model.tenor.T j →
          (p.t + dt ≤ s.model.tenor.T j ∨ j = s.model.tenor.m) →
          ∃ w, s.model.adaptedVol j (p.t + 1 / 2 * dt) (1 / 2 * (p.R j + p'.R j)) = .ok w
            ∧ p'.xActive = p.xActive
              + (1 / s.model.tenor.len j * (p'.Y j - p.startY j) * dt
              + w / (1 / 2 * (p.R j + p'.R j) + 1 / s.model.tenor.len j) * s.dw dt z (j - 1))))
      ∧ (p.t ≤ s.model.tenor.T 0 → p.t + dt ≤ s.model.tenor.T 1 → p'.xActive = p.xActive) := by
  have hv0 := fun j (h1 : 1 ≤ j) (h2 : j ≤ s.model.tenor.m) =>
    adaptedVol_ok hv h1 h2 (p.t + 1 / 2 * dt) (p.R j)
  choose! v hvol using hv0
  set q := s.model.tenor with hq
  have hT : q.Ordered := hv.tenor
  set mid := p.t + 1 / 2 * dt with hmid
  obtain ⟨he, e1, e2, e3, e4⟩ := FmmTenor.eta_spec hT p.t
  obtain ⟨he', d1, d2, d3, d4⟩ := FmmTenor.eta_spec hT (p.t + dt)
  set newR : ℕ → ℝ := fun j => p.R j
    + fmmDrift (matAt s.model.correlation) q.len p.R (fun i => v i * ahead q i mid) j * dt
    + v j * ahead q j mid * s.dw dt z (j - 1) with hnewR
  set newY : ℕ → ℝ := fun j => p.Y j + (v j / (p.R j + 1 / q.len j)) ^ 2
    * max 0 (min dt (q.T j - p.t)) with hnewY
  have hR : collectO (fun i => s.newRate p.rates mid dt z (q.etaN p.t) (i + 1)) (List.range q.m)
      = .ok ((List.range q.m).map fun i => newR (i + 1)) := by
    apply collectO_ok
    intro i hi
    rw [List.mem_range] at hi
    exact newRate_ok hv hp.rates (by linarith) hvol (by omega) (show i + 1 ≤ q.m by omega)
  have hY : collectO (fun i => s.model.newY p mid dt (i + 1)) (List.range q.m)
      = .ok ((List.range q.m).map fun i => newY (i + 1)) := by
    apply collectO_ok
    intro i hi
    rw [List.mem_range] at hi
    exact newY_ok hv hp hdt (by omega) (show i + 1 ≤ q.m by omega) (hvol _ (by omega) (by omega))
  have lenR : ((List.range q.m).map fun i => newR (i + 1)).length = q.m := by simp
  have lenY : ((List.range q.m).map fun i => newY (i + 1)).length = q.m := by simp
  obtain ⟨x, hx⟩ := newX_ok (tMid := mid) (dt := dt) (z := z) hv hp lenR lenY (q.etaN p.t)
  set crossed : ℕ → Prop := fun k => q.etaN p.t + 1 ≤ k ∧ k ≤ min (q.etaN (p.t + dt)) q.m with hcr
  have hSR : collectO (fun i => if crossed (i + 1)
        then at1 ((List.range q.m).map fun i => newR (i + 1)) (i + 1)
        else at1 p.ratesAtStart (i + 1)) (List.range q.m)
      = .ok ((List.range q.m).map fun i =>
        (fun j => if crossed j then newR j else p.startR j) (i + 1)) := by
    apply collectO_ok
    intro i hi
    rw [List.mem_range] at hi
    dsimp only
    by_cases hc : crossed (i + 1)
    · rw [if_pos hc, if_pos hc, at1_map newR (by omega) (by omega)]
    · rw [if_neg hc, if_neg hc, at1_ok _ _ (by omega) (by rw [hp.ratesAtStart]; omega) 0]
      rfl
  have hSY : collectO (fun i => if crossed (i + 1)
        then at1 ((List.range q.m).map fun i => newY (i + 1)) (i + 1)
        else at1 p.yAtStart (i + 1)) (List.range q.m)
      = .ok ((List.range q.m).map fun i =>
        (fun j => if crossed j then newY j else p.startY j) (i + 1)) := by
    apply collectO_ok
    intro i hi
    rw [List.mem_range] at hi
    dsimp only
    by_cases hc : crossed (i + 1)
    · rw [if_pos hc, if_pos hc, at1_map newY (by omega) (by omega)]
    · rw [if_neg hc, if_neg hc, at1_ok _ _ (by omega) (by rw [hp.yAtStart]; omega) 0]
      rfl
  have hstep : s.step p dt z = .ok ⟨(List.range q.m).map fun i => newR (i + 1),
      (List.range q.m).map fun i => newY (i + 1),
      (List.range q.m).map fun i => (fun j => if crossed j then newR j else p.startR j) (i + 1),
      (List.range q.m).map fun i => (fun j => if crossed j then newY j else p.startY j) (i + 1),
      if q.etaN p.t + 1 ≤ min (q.etaN (p.t + dt)) q.m then 0 else x, p.t + dt⟩ := by
    rw [FmmSimulator.step, if_pos hdt]
    dsimp only
    rw [he, ok_bind, hR, ok_bind, hY, ok_bind, hx, ok_bind, he', ok_bind, hSR, ok_bind, hSY, ok_bind]
  refine ⟨_, v, hstep, ⟨by simp, by simp, by simp, by simp⟩, rfl, ?_, ?_⟩
  · intro j h1 h2
    have rj : ((List.range q.m).map fun i => newR (i + 1)).getD (j - 1) 0 = newR j :=
      at1_range_map newR h1 h2 0
    have yj : ((List.range q.m).map fun i => newY (i + 1)).getD (j - 1) 0 = newY j :=
      at1_range_map newY h1 h2 0
    have srj := at1_range_map (fun j => if crossed j then newR j else p.startR j) h1 h2 0
    have syj := at1_range_map (fun j => if crossed j then newY j else p.startY j) h1 h2 0
    have hcross : crossed j ↔ 2 ≤ j ∧ p.t ≤ q.T (j - 1) ∧ q.T (j - 1) < p.t + dt := by
      rw [hcr]
      dsimp only
      constructor
      · rintro ⟨c1, c2⟩
        refine ⟨by omega, (etaN_le_iff hT p.t (by omega) (by omega)).1 (by omega), ?_⟩
        by_contra hc
        have := (etaN_le_iff hT (p.t + dt) (by omega : 1 ≤ j - 1) (by omega)).2 (not_lt.1 hc)
        omega
      · rintro ⟨c0, c1, c2⟩
        have a1 := (etaN_le_iff hT p.t (by omega : 1 ≤ j - 1) (by omega)).2 c1
        refine ⟨by omega, le_min ?_ h2⟩
        by_contra hc
        have := (etaN_le_iff hT (p.t + dt) (by omega : 1 ≤ j - 1) (by omega)).1 (by omega)
        exact absurd c2 (not_lt.2 this)
    refine ⟨hvol j h1 h2, rj, yj, fun hc => ?_, fun hc => ?_, fun i1 i2 i3 => ?_⟩
    · have hc' := hcross.2 hc
      refine ⟨?_, ?_, ?_⟩
      · refine srj.trans ?_
        dsimp only
        rw [if_pos hc']
        exact rj.symm
      · refine syj.trans ?_
        dsimp only
        rw [if_pos hc']
        exact yj.symm
      · exact if_pos (hc'.1.trans hc'.2)
    · have hc' := fun h => hc (hcross.1 h)
      refine ⟨srj.trans ?_, syj.trans ?_⟩
      · exact if_neg hc'
      · exact if_neg hc'
    · have hk : q.etaN p.t = j := by
        refine FmmTenor.etaN_unique hT h1 (by omega) (fun l l1 l2 => ?_) fun _ => i2.le
        exact (hT.mono (by omega : l ≤ j - 1) (by omega)).trans_lt i1
      have hno : ¬ (q.etaN p.t + 1 ≤ min (q.etaN (p.t + dt)) q.m) := by
        rw [hk]
        rcases i3 with i3 | i3
        · have := (etaN_le_iff hT (p.t + dt) h1 h2).2 i3
          omega
        · omega
      obtain ⟨w, hw⟩ := adaptedVol_ok hv h1 h2 mid (1 / 2 * (p.R j + newR j))
      have hw2 : s.model.adaptedVol j mid (1 / 2 * (p.R j
          + ((List.range q.m).map fun i => newR (i + 1)).getD (j - 1) 0)) = .ok w := by rw [rj]; exact hw
      refine ⟨w, hw2, ?_⟩
      refine (if_neg hno).trans ?_
      have := newX_inside (dt := dt) (z := z) hv hp h1 h2 lenR lenY i1 i2 hw2
      rw [hk] at hx
      rw [hx] at this
      injection this
  · intro i1 i2
    have hm := hT.1
    have hk : q.etaN p.t = 1 := by
      refine FmmTenor.etaN_unique hT le_rfl (by omega) (fun l l1 l2 => by omega) fun _ => ?_
      exact i1.trans (hT.mono (by omega) hm)
    have hno : ¬ (q.etaN p.t + 1 ≤ min (q.etaN (p.t + dt)) q.m) := by
      have := (etaN_le_iff hT (p.t + dt) le_rfl hm).2 i2
      omega
    refine (if_neg hno).trans ?_
    have := newX_outside (tMid := mid) (dt := dt) (z := z)
      (newRates := (List.range q.m).map fun i => newR (i + 1))
      (newYs := (List.range q.m).map fun i => newY (i + 1)) (k := q.etaN p.t) hv (p := p) (by
        rw [hk]
        rintro ⟨-, -, h, -⟩
        exact absurd h (not_lt.2 i1))
    rw [hx] at this
    injection this

end Verif
