import Verif.Spec.FxFmm
import Verif.Lemmas.HlmmChf

/-! # The FX-FMM1 characteristic function -/

namespace Verif

open Outcome Classical MeasureTheory

/-! ## The tenor -/

/-- The same dates and rates as a Libor tenor. -/
def FmmTenor.toLibor (q : FmmTenor) : LiborTenor := ⟨q.dates, q.rates⟩

variable {q : FmmTenor}

theorem FmmTenor.Ordered.libor (h : q.Ordered) : q.toLibor.Ordered := h.2

theorem FmmTenor.Ordered.mono (h : q.Ordered) {i j : ℕ} (hij : i ≤ j) (hj : j ≤ q.m) :
    q.T i ≤ q.T j := LiborTenor.Ordered.mono h.libor hij hj

theorem FmmTenor.Ordered.strict (h : q.Ordered) {i j : ℕ} (hij : i < j) (hj : j ≤ q.m) :
    q.T i < q.T j := LiborTenor.Ordered.strict h.libor hij hj

theorem FmmTenor.tau_ok (h : q.Ordered) {k : ℕ} (h1 : 1 ≤ k) (h2 : k ≤ q.m) :
    q.tau k = .ok (q.T k - q.T (k - 1)) := LiborTenor.tau_ok h.libor h1 h2

theorem FmmTenor.tau_pos (h : q.Ordered) {k : ℕ} (h1 : 1 ≤ k) (h2 : k ≤ q.m) :
    0 < q.T k - q.T (k - 1) := sub_pos.2 (h.strict (by omega) h2)

theorem FmmTenor.new_ok {dates rates : List ℝ} {t : FmmTenor}
    (h : FmmTenor.new dates rates = .ok t) : t = ⟨dates, rates⟩ ∧ t.Ordered := by
  unfold FmmTenor.new at h
  split at h
  · rename_i hc
    obtain ⟨h0, h1, ⟨d, h2, h3⟩, h4⟩ := hc
    cases h
    refine ⟨rfl, ?_, h1, ?_, fun i hi => ?_⟩
    · change 1 ≤ rates.length; omega
    · simpa [FmmTenor.T, List.getD_eq_getElem?_getD, h2] using h3
    · exact (increasingDates_iff dates).1 h4 i (by
        have : i < rates.length := hi
        omega)
  · cases h

theorem etaLoop_spec (dates : List ℝ) (t : ℝ) (k : ℕ) : ∀ a, a + k ≤ dates.length →
    (etaLoop dates t (List.range' a k) = .ok none ∧ ∀ j, a ≤ j → j < a + k → dates.getD j 0 < t)
    ∨ ∃ e, etaLoop dates t (List.range' a k) = .ok (some e) ∧ a ≤ e ∧ e < a + k
      ∧ (∀ j, a ≤ j → j < e → dates.getD j 0 < t) ∧ t ≤ dates.getD e 0 := by
  induction k with
  | zero => intro a _; exact .inl ⟨rfl, fun j h1 h2 => by omega⟩
  | succ k ih =>
    intro a ha
    rw [List.range'_succ, etaLoop, unwrap_getD _ _ (by omega) 0, ok_bind]
    by_cases hc : t ≤ dates.getD a 0
    · rw [if_pos hc]
      exact .inr ⟨a, rfl, le_rfl, by omega, fun j h1 h2 => by omega, hc⟩
    · rw [if_neg hc]
      rcases ih (a + 1) (by omega) with ⟨h1, h2⟩ | ⟨e, h1, h2, h3, h4, h5⟩
      · refine .inl ⟨h1, fun j hj1 hj2 => ?_⟩
        rcases hj1.eq_or_lt with rfl | hlt
        · exact not_le.1 hc
        · exact h2 j hlt (by omega)
      · refine .inr ⟨e, h1, by omega, by omega, fun j hj1 hj2 => ?_, h5⟩
        rcases hj1.eq_or_lt with rfl | hlt
        · exact not_le.1 hc
        · exact h4 j hlt hj2

/-- The value of `eta`. -/
noncomputable def FmmTenor.etaN (q : FmmTenor) (t : ℝ) : ℕ :=
  match q.eta t with
  | .ok e => e
  | _ => 0

theorem FmmTenor.eta_spec (h : q.Ordered) (t : ℝ) :
    q.eta t = .ok (q.etaN t) ∧ 1 ≤ q.etaN t ∧ q.etaN t ≤ q.m + 1
      ∧ (∀ j, 1 ≤ j → j < q.etaN t → q.T j < t) ∧ (q.etaN t ≤ q.m → t ≤ q.T (q.etaN t)) := by
  have hl := h.2.1
  have key : ∃ e, q.eta t = .ok e ∧ 1 ≤ e ∧ e ≤ q.m + 1
      ∧ (∀ j, 1 ≤ j → j < e → q.T j < t) ∧ (e ≤ q.m → t ≤ q.T e) := by
    rcases etaLoop_spec q.dates t q.m 1 (by omega) with ⟨h1, h2⟩ | ⟨e, h1, h2, h3, h4, h5⟩
    · refine ⟨q.m + 1, ?_, by omega, le_rfl, fun j a b => h2 j a (by omega), by omega⟩
      rw [FmmTenor.eta, h1]; rfl
    · refine ⟨e, ?_, h2, by omega, h4, fun _ => h5⟩
      rw [FmmTenor.eta, h1]; rfl
  obtain ⟨e, he, h2⟩ := key
  have : q.etaN t = e := by rw [FmmTenor.etaN, he]
  rw [this]
  exact ⟨he, h2⟩

theorem FmmTenor.etaN_unique (h : q.Ordered) {t : ℝ} {e : ℕ} (h1 : 1 ≤ e) (h2 : e ≤ q.m + 1)
    (h3 : ∀ j, 1 ≤ j → j < e → q.T j < t) (h4 : e ≤ q.m → t ≤ q.T e) : q.etaN t = e := by
  obtain ⟨-, m1, m2, m3, m4⟩ := FmmTenor.eta_spec h t
  rcases Nat.lt_trichotomy (q.etaN t) e with hlt | heq | hgt
  · exact absurd (h3 _ m1 hlt) (not_lt.2 (m4 (by omega)))
  · exact heq
  · exact absurd (m3 _ h1 hgt) (not_lt.2 (h4 (by omega)))

theorem liveRates_eq (h : q.Ordered) (t : ℝ) : liveRates q t = Finset.Icc (q.etaN t) q.m := by
  obtain ⟨-, m1, m2, m3, m4⟩ := FmmTenor.eta_spec h t
  ext j
  rw [liveRates, Finset.mem_filter, Finset.mem_Icc, Finset.mem_Icc]
  constructor
  · rintro ⟨⟨h1, h2⟩, h3⟩
    refine ⟨?_, h2⟩
    by_contra hc
    exact absurd (m3 j h1 (by omega)) (not_lt.2 h3)
  · rintro ⟨h1, h2⟩
    exact ⟨⟨by omega, h2⟩, (m4 (by omega)).trans (h.mono h1 h2)⟩

/-! ## The decay -/

theorem ahead_before {j : ℕ} {t : ℝ} (hp : 0 < q.T j - q.T (j - 1)) (ht : t ≤ q.T (j - 1)) :
    ahead q j t = 1 := by
  rw [ahead, min_eq_left, max_eq_right zero_le_one]
  rw [le_div_iff₀ hp]; linarith

theorem ahead_after {j : ℕ} {t : ℝ} (hp : 0 < q.T j - q.T (j - 1)) (ht : q.T j ≤ t) :
    ahead q j t = 0 := by
  rw [ahead, max_eq_left]
  exact (min_le_right _ _).trans (div_nonpos_of_nonpos_of_nonneg (by linarith) hp.le)

theorem ahead_inside {j : ℕ} {t : ℝ} (hp : 0 < q.T j - q.T (j - 1)) (h1 : q.T (j - 1) ≤ t)
    (h2 : t ≤ q.T j) : ahead q j t = (q.T j - t) / (q.T j - q.T (j - 1)) := by
  rw [ahead, min_eq_right, max_eq_right]
  · exact div_nonneg (by linarith) hp.le
  · rw [div_le_one hp]; linarith

theorem ahead_mem (q : FmmTenor) (j : ℕ) (t : ℝ) : ahead q j t ∈ Set.Icc (0 : ℝ) 1 :=
  ⟨le_max_left _ _, max_le zero_le_one (min_le_left _ _)⟩

theorem ahead_lip {j : ℕ} (hp : 0 < q.T j - q.T (j - 1)) (s t : ℝ) :
    |ahead q j s - ahead q j t| ≤ 1 / (q.T j - q.T (j - 1)) * |s - t| := by
  have h1 : |ahead q j s - ahead q j t|
      ≤ |min 1 ((q.T j - s) / (q.T j - q.T (j - 1))) - min 1 ((q.T j - t) / (q.T j - q.T (j - 1)))| := by
    have := abs_max_sub_max_le_abs (min 1 ((q.T j - s) / (q.T j - q.T (j - 1))))
      (min 1 ((q.T j - t) / (q.T j - q.T (j - 1)))) 0
    rw [max_comm _ (0 : ℝ), max_comm _ (0 : ℝ)] at this
    exact this
  have h2 : |min 1 ((q.T j - s) / (q.T j - q.T (j - 1))) - min 1 ((q.T j - t) / (q.T j - q.T (j - 1)))|
      ≤ |(q.T j - s) / (q.T j - q.T (j - 1)) - (q.T j - t) / (q.T j - q.T (j - 1))| := by
    have := abs_min_sub_min_le_max (1 : ℝ) ((q.T j - s) / (q.T j - q.T (j - 1))) 1
      ((q.T j - t) / (q.T j - q.T (j - 1)))
    rw [sub_self, abs_zero, max_eq_right (abs_nonneg _)] at this
    exact this
  refine h1.trans (h2.trans (le_of_eq ?_))
  rw [← sub_div, abs_div, abs_of_pos hp, show q.T j - s - (q.T j - t) = -(s - t) by ring, abs_neg]
  ring

theorem gamma_ok (h : q.Ordered) {j : ℕ} (h1 : 1 ≤ j) (h2 : j ≤ q.m) (t : ℝ) :
    q.gamma j t = .ok (ahead q j t) := by
  have hl := h.2.1
  have hp := FmmTenor.tau_pos h h1 h2
  rw [FmmTenor.gamma, at1_ok _ j h1 (by omega) 0, ok_bind, unwrap_getD _ _ (by omega) 0, ok_bind]
  change (if t ≤ q.T (j - 1) then Outcome.ok 1 else if q.T j ≤ t then .ok 0
    else .ok ((q.T j - t) / (q.T j - q.T (j - 1)))) = _
  by_cases c1 : t ≤ q.T (j - 1)
  · rw [if_pos c1, ahead_before hp c1]
  · rw [if_neg c1]
    by_cases c2 : q.T j ≤ t
    · rw [if_pos c2, ahead_after hp c2]
    · rw [if_neg c2, ahead_inside hp (not_le.1 c1).le (not_le.1 c2).le]

/-! ## The coefficients -/

/-- The entry of `psi_base`. -/
noncomputable def baseVal (l : FmmSide) (q : FmmTenor) (j : ℕ) : ℝ :=
  (q.T j - q.T (j - 1)) * l.sigmas.getD (j - 1) 0 / (1 + (q.T j - q.T (j - 1)) * q.R j)

theorem baseVal_eq (l : FmmSide) (q : FmmTenor) (j : ℕ)
    (h : 1 + (q.T j - q.T (j - 1)) * q.R j ≠ 0) :
    baseVal l q j = l.sigmas.getD (j - 1) 0
      * deriv (fun x => Real.log (1 + (q.T j - q.T (j - 1)) * x)) (q.R j) := by
  have h1 : HasDerivAt (fun x => 1 + (q.T j - q.T (j - 1)) * x) (q.T j - q.T (j - 1)) (q.R j) := by
    simpa using ((hasDerivAt_id (q.R j)).const_mul (q.T j - q.T (j - 1))).const_add 1
  rw [baseVal, (h1.log h).deriv]
  ring

/-- The entry of `psi_at`. -/
noncomputable def wVal (l : FmmSide) (q : FmmTenor) (t : ℝ) (j : ℕ) : ℝ :=
  baseVal l q j * ahead q j t

theorem wVal_eq_loading (l : FmmSide) (q : FmmTenor) (t : ℝ) (j : ℕ)
    (h : 1 + (q.T j - q.T (j - 1)) * q.R j ≠ 0) : wVal l q t j = fmmLoading l q t j := by
  rw [wVal, baseVal_eq l q j h, fmmLoading]; ring

theorem at1_map (g : ℕ → ℝ) {n j : ℕ} (h1 : 1 ≤ j) (h2 : j ≤ n) :
    at1 ((List.range n).map fun j => g (j + 1)) j = .ok (g j) := by
  rw [at1_ok _ j h1 (by simpa using h2) 0]
  have : j - 1 < n := by omega
  simp [List.getD_eq_getElem?_getD, this, show j - 1 + 1 = j by omega]

theorem psiBase_ok {l : FmmSide} (h : q.Ordered) (hs : l.sigmas.length = q.m) :
    l.psiBase q = .ok ((List.range q.m).map fun j => baseVal l q (j + 1)) := by
  apply collectO_ok
  intro j hj
  rw [List.mem_range] at hj
  rw [FmmTenor.tau_ok h (by omega) (by omega), ok_bind,
    unwrap_getD q.rates j hj 0, ok_bind, unwrap_getD l.sigmas j (by omega) 0, ok_bind]
  simp [baseVal, FmmTenor.R]

theorem psiAt_ok {l : FmmSide} (h : q.Ordered) (hs : l.sigmas.length = q.m) (t : ℝ) :
    l.psiAt q t = .ok ((List.range q.m).map fun j => wVal l q t (j + 1)) := by
  rw [FmmSide.psiAt, psiBase_ok h hs, ok_bind]
  apply collectO_ok
  intro j hj
  rw [List.mem_range] at hj
  rw [unwrap_getD _ j (by simpa using hj) 0, ok_bind, gamma_ok h (by omega) (by omega), ok_bind]
  simp [List.getD_eq_getElem?_getD, hj, wVal]

theorem fmmASide_eq {l : FmmSide} (h : q.Ordered) (hs : l.sigmas.length = q.m)
    (hc : l.rateCorr.length = q.m) (hr : ∀ row ∈ l.rateCorr, row.length = q.m) (t : ℝ) {a : ℕ}
    (ha : 1 ≤ a) : fmmASide l q t a = .ok (triForm l.rateCorr (wVal l q t) a q.m) := by
  rw [fmmASide, psiAt_ok h hs, ok_bind]
  dsimp only
  by_cases hn : q.m < a
  · rw [if_pos hn]
    have : Finset.Icc a q.m = ∅ := Finset.Icc_eq_empty (by omega)
    simp [triForm, this]
  rw [if_neg hn]
  rw [foldlM_okR (g := fun j => wVal l q t j * wVal l q t j), ok_bind,
    foldlM_okR (g := fun i => ∑ j ∈ Finset.Icc (i + 1) q.m,
      2 * wVal l q t i * wVal l q t j * matAt l.rateCorr i j), zero_add,
    sum_range'_Icc _ (by omega), sum_range'_Icc _ (by omega)]
  · rfl
  · intro acc i hi
    have hi := mem_range'_Icc hi
    rw [foldlM_okR (g := fun j => 2 * wVal l q t i * wVal l q t j * matAt l.rateCorr i j),
      show q.m - i = q.m + 1 - (i + 1) by omega, sum_range'_Icc _ (by omega)]
    intro acc j hj
    rw [show q.m - i = q.m + 1 - (i + 1) by omega] at hj
    have hj := mem_range'_Icc hj
    rw [at1_map (wVal l q t) (by omega) (by omega), ok_bind,
      at1_map (wVal l q t) (by omega) (by omega), ok_bind,
      entry_ok _ _ hc hr (by omega) (by omega) (by omega) (by omega), ok_bind]
  · intro acc j hj
    have hj := mem_range'_Icc hj
    rw [at1_map (wVal l q t) (by omega) (by omega), ok_bind]

/-- The sum in `compute_f_linearised`. -/
noncomputable def fmmCross (p : FmmParams) (t x y z : ℝ) (a : ℕ) : ℝ :=
  (∑ j ∈ Finset.Icc a p.tenor.m, wVal p.domestic p.tenor t j * p.correlations.xiD.getD (j - 1) 0)
      * (2 * x * y)
    - (∑ j ∈ Finset.Icc a p.tenor.m, wVal p.foreign p.tenor t j * p.correlations.xiF.getD (j - 1) 0)
      * (2 * x * z)
    - (∑ j ∈ Finset.Icc a p.tenor.m, ∑ k ∈ Finset.Icc a p.tenor.m,
        wVal p.domestic p.tenor t j * wVal p.foreign p.tenor t k * matAt p.correlations.cross j k)
      * (2 * y * z)

theorem fmmF_eq {p : FmmParams} (h : p.tenor.Ordered) (hv : p.Valid) (hk : 0 < p.heston.kappa)
    (t : ℝ) {a : ℕ} (ha : 1 ≤ a) :
    fmmF p t a = .ok (fmmCross p t (phiOf p.heston t) (phiOf p.domestic.cir t)
      (phiOf p.foreign.cir t) a) := by
  obtain ⟨hd, hf, hc⟩ := hv
  have hkd : 0 < p.domestic.cir.kappa := hd.2.2.2.2.1.1
  have hkf : 0 < p.foreign.cir.kappa := hf.2.2.2.2.1.1
  rw [fmmF, psiAt_ok h hd.1, ok_bind, psiAt_ok h hf.1, ok_bind, sqrtMean_phiOf _ hk, ok_bind,
    sqrtMean_phiOf _ hkd, ok_bind, sqrtMean_phiOf _ hkf, ok_bind]
  dsimp only
  by_cases hn : p.tenor.m < a
  · rw [if_pos hn]
    have : Finset.Icc a p.tenor.m = ∅ := Finset.Icc_eq_empty (by omega)
    simp [fmmCross, this]
  rw [if_neg hn]
  rw [foldlM_okR (g := fun j => wVal p.domestic p.tenor t j * p.correlations.xiD.getD (j - 1) 0),
    ok_bind,
    foldlM_okR (g := fun j => wVal p.foreign p.tenor t j * p.correlations.xiF.getD (j - 1) 0),
    ok_bind,
    foldlM_okR (g := fun j => ∑ k ∈ Finset.Icc a p.tenor.m,
      wVal p.domestic p.tenor t j * wVal p.foreign p.tenor t k * matAt p.correlations.cross j k),
    ok_bind, zero_add, zero_add, zero_add,
    sum_range'_Icc _ (by omega), sum_range'_Icc _ (by omega), sum_range'_Icc _ (by omega)]
  · rfl
  · intro acc i hi
    have hi := mem_range'_Icc hi
    rw [foldlM_okR (g := fun k => wVal p.domestic p.tenor t i * wVal p.foreign p.tenor t k
      * matAt p.correlations.cross i k), sum_range'_Icc _ (by omega)]
    intro acc j hj
    have hj := mem_range'_Icc hj
    rw [at1_map (wVal p.domestic p.tenor t) (by omega) (by omega), ok_bind,
      at1_map (wVal p.foreign p.tenor t) (by omega) (by omega), ok_bind,
      entry_ok _ _ hc.2.2.2.2.2.1 (fun r hr => (hc.2.2.2.2.2.2.1 r hr).1) (by omega) (by omega)
        (by omega) (by omega), ok_bind]
  · intro acc j hj
    have hj := mem_range'_Icc hj
    rw [at1_map (wVal p.foreign p.tenor t) (by omega) (by omega), ok_bind,
      at1_ok _ j (by omega) (by rw [hc.2.2.1]; omega) 0, ok_bind]
  · intro acc j hj
    have hj := mem_range'_Icc hj
    rw [at1_map (wVal p.domestic p.tenor t) (by omega) (by omega), ok_bind,
      at1_ok _ j (by omega) (by rw [hc.2.1]; omega) 0, ok_bind]

/-- What the constructor caches. -/
def Cached (c : FmmChf) : Prop :=
  c.phiSigma = c.params.heston ∧ c.phiD = c.params.domestic.cir ∧ c.phiF = c.params.foreign.cir
    ∧ c.psiBaseD = (List.range c.params.tenor.m).map (fun j => baseVal c.params.domestic c.params.tenor (j + 1))
    ∧ c.psiBaseF = (List.range c.params.tenor.m).map (fun j => baseVal c.params.foreign c.params.tenor (j + 1))

theorem fAt_eq {c : FmmChf} (h : c.params.tenor.Ordered) (hv : c.params.Valid)
    (hk : 0 < c.params.heston.kappa) (hca : Cached c) (t : ℝ) {a : ℕ} (ha : 1 ≤ a) :
    c.fAt t a = .ok (fmmCross c.params t (phiOf c.params.heston t) (phiOf c.params.domestic.cir t)
      (phiOf c.params.foreign.cir t) a) := by
  obtain ⟨hd, hf, hc⟩ := hv
  obtain ⟨c1, c2, c3, c4, c5⟩ := hca
  set p := c.params with hp
  have hkd : 0 < p.domestic.cir.kappa := hd.2.2.2.2.1.1
  have hkf : 0 < p.foreign.cir.kappa := hf.2.2.2.2.1.1
  rw [FmmChf.fAt]
  dsimp only
  rw [← hp]
  by_cases hn : p.tenor.m < a
  · rw [if_pos hn]
    have : Finset.Icc a p.tenor.m = ∅ := Finset.Icc_eq_empty (by omega)
    simp [fmmCross, this]
  rw [if_neg hn, c1, c2, c3, sqrtMean_phiOf _ hk, ok_bind,
    sqrtMean_phiOf _ hkd, ok_bind, sqrtMean_phiOf _ hkf, ok_bind, c4, c5]
  rw [foldlM_okR (g := fun j => wVal p.domestic p.tenor t j * p.correlations.xiD.getD (j - 1) 0),
    ok_bind,
    foldlM_okR (g := fun j => wVal p.foreign p.tenor t j * p.correlations.xiF.getD (j - 1) 0),
    ok_bind,
    foldlM_okR (g := fun j => ∑ k ∈ Finset.Icc a p.tenor.m,
      wVal p.domestic p.tenor t j * wVal p.foreign p.tenor t k * matAt p.correlations.cross j k),
    ok_bind, zero_add, zero_add, zero_add,
    sum_range'_Icc _ (by omega), sum_range'_Icc _ (by omega), sum_range'_Icc _ (by omega)]
  · rfl
  · intro acc i hi
    have hi := mem_range'_Icc hi
    rw [gamma_ok h (by omega) (by omega), ok_bind,
      foldlM_okR (g := fun k => wVal p.domestic p.tenor t i * wVal p.foreign p.tenor t k
      * matAt p.correlations.cross i k), sum_range'_Icc _ (by omega)]
    intro acc j hj
    have hj := mem_range'_Icc hj
    rw [gamma_ok h (by omega) (by omega), ok_bind,
      at1_map (baseVal p.domestic p.tenor) (by omega) (by omega), ok_bind,
      at1_map (baseVal p.foreign p.tenor) (by omega) (by omega), ok_bind,
      entry_ok _ _ hc.2.2.2.2.2.1 (fun r hr => (hc.2.2.2.2.2.2.1 r hr).1) (by omega) (by omega)
        (by omega) (by omega), ok_bind]
    simp only [wVal]
    congr 1
    ring
  · intro acc j hj
    have hj := mem_range'_Icc hj
    rw [gamma_ok h (by omega) (by omega), ok_bind,
      at1_map (baseVal p.foreign p.tenor) (by omega) (by omega), ok_bind,
      at1_ok _ j (by omega) (by rw [hc.2.2.1]; omega) 0, ok_bind]
    rfl
  · intro acc j hj
    have hj := mem_range'_Icc hj
    rw [gamma_ok h (by omega) (by omega), ok_bind,
      at1_map (baseVal p.domestic p.tenor) (by omega) (by omega), ok_bind,
      at1_ok _ j (by omega) (by rw [hc.2.1]; omega) 0, ok_bind]
    rfl

/-- The rates already past do not contribute. -/
theorem wVal_past (h : q.Ordered) (l : FmmSide) {t : ℝ} {j : ℕ} (h1 : 1 ≤ j) (h2 : j ≤ q.m)
    (ht : q.T j ≤ t) : wVal l q t j = 0 := by
  rw [wVal, ahead_after (FmmTenor.tau_pos h h1 h2) ht, mul_zero]

theorem quadOn_full {m : List (List ℝ)} {w : ℕ → ℝ} {a n : ℕ} (ha : 1 ≤ a)
    (hw : ∀ j, 1 ≤ j → j < a → j ≤ n → w j = 0) :
    quadOn m w (Finset.Icc a n) = quadOn m w (Finset.Icc 1 n) := by
  unfold quadOn
  have hsub : Finset.Icc a n ⊆ Finset.Icc 1 n := Finset.Icc_subset_Icc_left ha
  rw [Finset.sum_subset hsub]
  · refine Finset.sum_congr rfl fun i hi => ?_
    rw [Finset.sum_subset hsub]
    intro j hj hn
    rw [Finset.mem_Icc] at hj hn
    rw [hw j hj.1 (by omega) hj.2]; ring
  · intro i hi hn
    rw [Finset.mem_Icc] at hi hn
    apply Finset.sum_eq_zero
    intro j _
    rw [hw i hi.1 (by omega) hi.2]; ring

theorem fmmCross_full {p : FmmParams} {t x y z : ℝ} {a : ℕ} (ha : 1 ≤ a)
    (hd : ∀ j, 1 ≤ j → j < a → j ≤ p.tenor.m → wVal p.domestic p.tenor t j = 0)
    (hf : ∀ j, 1 ≤ j → j < a → j ≤ p.tenor.m → wVal p.foreign p.tenor t j = 0) :
    fmmCross p t x y z a = fmmCross p t x y z 1 := by
  have hsub : Finset.Icc a p.tenor.m ⊆ Finset.Icc 1 p.tenor.m := Finset.Icc_subset_Icc_left ha
  unfold fmmCross
  congr 1
  · congr 1
    · congr 1
      refine Finset.sum_subset hsub fun j hj hn => ?_
      rw [Finset.mem_Icc] at hj hn
      rw [hd j hj.1 (by omega) hj.2]; ring
    · congr 1
      refine Finset.sum_subset hsub fun j hj hn => ?_
      rw [Finset.mem_Icc] at hj hn
      rw [hf j hj.1 (by omega) hj.2]; ring
  · congr 1
    rw [Finset.sum_subset hsub]
    · refine Finset.sum_congr rfl fun i hi => Finset.sum_subset hsub fun j hj hn => ?_
      rw [Finset.mem_Icc] at hj hn
      rw [hf j hj.1 (by omega) hj.2]; ring
    · intro i hi hn
      rw [Finset.mem_Icc] at hi hn
      apply Finset.sum_eq_zero
      intro j _
      rw [hd i hi.1 (by omega) hi.2]; ring

/-- The variance of the log-forward splits into the coefficients of the code. -/
theorem fmmVariance_eq {p : FmmParams} (hd : UnitSymm p.domestic.rateCorr p.tenor.m)
    (hf : UnitSymm p.foreign.rateCorr p.tenor.m) (t x y z : ℝ) {a : ℕ} (ha : 1 ≤ a) :
    fmmVariance p (Finset.Icc a p.tenor.m) x (fun j => y * wVal p.domestic p.tenor t j)
        (fun j => -(z * wVal p.foreign p.tenor t j))
      = x * x + triForm p.domestic.rateCorr (wVal p.domestic p.tenor t) a p.tenor.m * (y * y)
        + triForm p.foreign.rateCorr (wVal p.foreign p.tenor t) a p.tenor.m * (z * z)
        + fmmCross p t x y z a := by
  rw [triForm_eq _ _ _ hd _ a ha rfl, triForm_eq _ _ _ hf _ a ha rfl, fmmVariance, fmmCross]
  set s := Finset.Icc a p.tenor.m
  have e1 : quadOn p.domestic.rateCorr (fun j => y * wVal p.domestic p.tenor t j) s
      = quadOn p.domestic.rateCorr (wVal p.domestic p.tenor t) s * (y * y) := by
    unfold quadOn
    rw [Finset.sum_mul]
    refine Finset.sum_congr rfl fun i _ => ?_
    rw [Finset.sum_mul]
    exact Finset.sum_congr rfl fun j _ => by ring
  have e2 : quadOn p.foreign.rateCorr (fun j => -(z * wVal p.foreign p.tenor t j)) s
      = quadOn p.foreign.rateCorr (wVal p.foreign p.tenor t) s * (z * z) := by
    unfold quadOn
    rw [Finset.sum_mul]
    refine Finset.sum_congr rfl fun i _ => ?_
    rw [Finset.sum_mul]
    exact Finset.sum_congr rfl fun j _ => by ring
  have e3 : ∑ j ∈ s, y * wVal p.domestic p.tenor t j * p.correlations.xiD.getD (j - 1) 0
      = y * ∑ j ∈ s, wVal p.domestic p.tenor t j * p.correlations.xiD.getD (j - 1) 0 := by
    rw [Finset.mul_sum]; exact Finset.sum_congr rfl fun j _ => by ring
  have e4 : ∑ j ∈ s, -(z * wVal p.foreign p.tenor t j) * p.correlations.xiF.getD (j - 1) 0
      = -z * ∑ j ∈ s, wVal p.foreign p.tenor t j * p.correlations.xiF.getD (j - 1) 0 := by
    rw [Finset.mul_sum]; exact Finset.sum_congr rfl fun j _ => by ring
  have e5 : ∑ i ∈ s, ∑ j ∈ s, y * wVal p.domestic p.tenor t i * -(z * wVal p.foreign p.tenor t j)
        * matAt p.correlations.cross i j
      = -(y * z) * ∑ i ∈ s, ∑ j ∈ s, wVal p.domestic p.tenor t i * wVal p.foreign p.tenor t j
        * matAt p.correlations.cross i j := by
    rw [Finset.mul_sum]
    refine Finset.sum_congr rfl fun i _ => ?_
    rw [Finset.mul_sum]
    exact Finset.sum_congr rfl fun j _ => by ring
  rw [e1, e2, e3, e4, e5]
  ring

theorem quadOn_congr {m : List (List ℝ)} {v w : ℕ → ℝ} {s : Finset ℕ} (h : ∀ j ∈ s, v j = w j) :
    quadOn m v s = quadOn m w s :=
  Finset.sum_congr rfl fun i hi => Finset.sum_congr rfl fun j hj => by rw [h i hi, h j hj]

/-- The coefficient at a time is the variance of the side. -/
theorem triForm_side {l : FmmSide} (h : q.Ordered) (hc : UnitSymm l.rateCorr q.m)
    (hR : ∀ k, 1 ≤ k → k ≤ q.m → 0 < 1 + (q.T k - q.T (k - 1)) * q.R k) (t : ℝ) :
    triForm l.rateCorr (wVal l q t) (q.etaN t) q.m = sideVariance l q t := by
  obtain ⟨-, m1, -, -, -⟩ := FmmTenor.eta_spec h t
  rw [triForm_eq _ _ _ hc _ _ m1 rfl, sideVariance, liveRates_eq h]
  refine quadOn_congr fun j hj => ?_
  rw [Finset.mem_Icc] at hj
  exact wVal_eq_loading _ _ _ _ (hR j (by omega) hj.2).ne'

theorem sideVariance_full {l : FmmSide} (h : q.Ordered)
    (hR : ∀ k, 1 ≤ k → k ≤ q.m → 0 < 1 + (q.T k - q.T (k - 1)) * q.R k) (t : ℝ) :
    sideVariance l q t = quadOn l.rateCorr (wVal l q t) (Finset.Icc 1 q.m) := by
  obtain ⟨-, m1, -, m3, -⟩ := FmmTenor.eta_spec h t
  rw [sideVariance, liveRates_eq h, ← quadOn_full m1 fun j h1 h2 h3 => wVal_past h l h1 h3 (m3 j h1 h2).le]
  refine quadOn_congr fun j hj => ?_
  rw [Finset.mem_Icc] at hj
  exact (wVal_eq_loading _ _ _ _ (hR j (by omega) hj.2).ne').symm

theorem sideVariance_lip {l : FmmSide} (h : q.Ordered)
    (hR : ∀ k, 1 ≤ k → k ≤ q.m → 0 < 1 + (q.T k - q.T (k - 1)) * q.R k) (s t : ℝ) :
    |sideVariance l q s - sideVariance l q t| ≤ sideSpeed l q * |s - t| := by
  rw [sideVariance_full h hR, sideVariance_full h hR, quadOn, quadOn, ← Finset.sum_sub_distrib, sideSpeed,
    Finset.sum_mul]
  refine (Finset.abs_sum_le_sum_abs _ _).trans (Finset.sum_le_sum fun i hi => ?_)
  rw [← Finset.sum_sub_distrib, Finset.sum_mul]
  refine (Finset.abs_sum_le_sum_abs _ _).trans (Finset.sum_le_sum fun j hj => ?_)
  rw [Finset.mem_Icc] at hi hj
  rw [← baseVal_eq l q i (hR i hi.1 hi.2).ne', ← baseVal_eq l q j (hR j hj.1 hj.2).ne']
  have hli := ahead_lip (FmmTenor.tau_pos h hi.1 hi.2) s t
  have hlj := ahead_lip (FmmTenor.tau_pos h hj.1 hj.2) s t
  have hg : |ahead q i s * ahead q j s - ahead q i t * ahead q j t|
      ≤ (1 / (q.T i - q.T (i - 1)) + 1 / (q.T j - q.T (j - 1))) * |s - t| := by
    have e : ahead q i s * ahead q j s - ahead q i t * ahead q j t
        = (ahead q i s - ahead q i t) * ahead q j s + ahead q i t * (ahead q j s - ahead q j t) := by
      ring
    rw [e]
    refine (abs_add_le _ _).trans ?_
    rw [abs_mul, abs_mul, abs_of_nonneg (ahead_mem q j s).1, abs_of_nonneg (ahead_mem q i t).1, add_mul]
    refine add_le_add ?_ ?_
    · exact (mul_le_of_le_one_right (abs_nonneg _) (ahead_mem q j s).2).trans hli
    · exact (mul_le_of_le_one_left (abs_nonneg _) (ahead_mem q i t).2).trans hlj
  have e : wVal l q s i * wVal l q s j * matAt l.rateCorr i j
        - wVal l q t i * wVal l q t j * matAt l.rateCorr i j
      = baseVal l q i * baseVal l q j * matAt l.rateCorr i j
        * (ahead q i s * ahead q j s - ahead q i t * ahead q j t) := by
    unfold wVal; ring
  rw [e, abs_mul, abs_mul, abs_mul, mul_assoc _ (_ + _) |s - t|]
  exact mul_le_mul_of_nonneg_left hg (by positivity)

end Verif
