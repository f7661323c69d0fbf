import Verif.Spec.Hlmm
import Verif.Lemmas.HhwChf
import Mathlib.Analysis.SpecialFunctions.Log.Deriv
import Mathlib.Algebra.Order.BigOperators.Group.Finset
import Mathlib.Algebra.BigOperators.Intervals

/-! # The tenor and the coefficients of the FX-HLMM model -/

namespace Verif

open Outcome Classical

/-! ## Lists -/

theorem getElem?_getD {α : Type} (l : List α) (i : ℕ) (h : i < l.length) (d : α) :
    l[i]? = some (l.getD i d) := by
  rw [List.getD_eq_getElem?_getD, List.getElem?_eq_getElem h]; rfl

theorem unwrap_getD {α : Type} (l : List α) (i : ℕ) (h : i < l.length) (d : α) :
    unwrap l[i]? = .ok (l.getD i d) := by
  rw [getElem?_getD l i h d]; rfl

theorem at1_ok {α : Type} (l : List α) (j : ℕ) (h1 : 1 ≤ j) (h2 : j ≤ l.length) (d : α) :
    at1 l j = .ok (l.getD (j - 1) d) := by
  rw [at1, if_neg (by omega), unwrap_getD l (j - 1) (by omega) d]

theorem collectO_ok {f : ℕ → Outcome ℝ} {g : ℕ → ℝ} (l : List ℕ) (h : ∀ j ∈ l, f j = .ok (g j)) :
    collectO f l = .ok (l.map g) := by
  induction l with
  | nil => rfl
  | cons j js ih =>
    rw [collectO, h j List.mem_cons_self, ok_bind,
      ih fun i hi => h i (List.mem_cons_of_mem _ hi), ok_bind, List.map_cons]

theorem foldlM_okR {f : ℝ → ℕ → Outcome ℝ} {g : ℕ → ℝ} (l : List ℕ) (acc : ℝ)
    (h : ∀ a, ∀ k ∈ l, f a k = .ok (a + g k)) :
    l.foldlM f acc = .ok (acc + (l.map g).sum) := by
  induction l generalizing acc with
  | nil => simp [List.foldlM, pure]
  | cons k ks ih =>
    rw [List.foldlM_cons, h acc k List.mem_cons_self, ok_bind,
      ih _ (fun a j hj => h a j (List.mem_cons_of_mem _ hj)), List.map_cons, List.sum_cons, add_assoc]

theorem sum_range' (g : ℕ → ℝ) (a k : ℕ) :
    ((List.range' a k).map g).sum = ∑ j ∈ Finset.Ico a (a + k), g j := by
  induction k generalizing a with
  | zero => simp
  | succ k ih =>
    rw [List.range'_succ, List.map_cons, List.sum_cons, ih, show a + (k + 1) = a + 1 + k by ring]
    rw [Finset.sum_eq_sum_Ico_succ_bot (by omega : a < a + 1 + k)]

theorem sum_range'_Icc (g : ℕ → ℝ) {a n : ℕ} (h : a ≤ n + 1) :
    ((List.range' a (n + 1 - a)).map g).sum = ∑ j ∈ Finset.Icc a n, g j := by
  rw [sum_range', show a + (n + 1 - a) = n + 1 by omega]
  exact Finset.sum_congr (by ext; simp) fun _ _ => rfl

theorem mem_range'_Icc {a n j : ℕ} (h : j ∈ List.range' a (n + 1 - a)) : a ≤ j ∧ j ≤ n := by
  rw [List.mem_range'_1] at h; omega

/-! ## The tenor -/

theorem increasingDates_iff (l : List ℝ) :
    increasingDates l ↔ ∀ i, i + 1 < l.length → l.getD i 0 < l.getD (i + 1) 0 := by
  induction l with
  | nil => simp [increasingDates]
  | cons a l ih =>
    cases l with
    | nil => simp [increasingDates]
    | cons b l =>
      rw [increasingDates, ih]
      constructor
      · rintro ⟨h1, h2⟩ i hi
        cases i with
        | zero => simpa using h1
        | succ i => simpa using h2 i (by simpa using hi)
      · intro h
        refine ⟨by simpa using h 0 (by simp), fun i hi => ?_⟩
        simpa using h (i + 1) (by simpa using hi)

theorem LiborTenor.new_ok {dates libors : List ℝ} {t : LiborTenor}
    (h : LiborTenor.new dates libors = .ok t) : t = ⟨dates, libors⟩ ∧ t.Ordered := by
  unfold LiborTenor.new at h
  split at h
  · rename_i hc
    obtain ⟨h1, ⟨d, h2, h3⟩, h4⟩ := hc
    cases h
    refine ⟨rfl, h1, ?_, fun i hi => ?_⟩
    · simpa [LiborTenor.T, List.getD_eq_getElem?_getD, h2] using h3
    · exact (increasingDates_iff dates).1 h4 i (by
        have : i < libors.length := hi
        omega)
  · cases h

variable {q : LiborTenor}

theorem LiborTenor.Ordered.mono (h : q.Ordered) {i j : ℕ} (hij : i ≤ j) (hj : j ≤ q.n) :
    q.T i ≤ q.T j := by
  induction j with
  | zero => rw [Nat.le_zero.1 hij]
  | succ j ih =>
    rcases Nat.lt_or_ge j i with hlt | hge
    · rw [show i = j + 1 by omega]
    · exact (ih hge (by omega)).trans (h.2.2 j (by omega)).le

theorem LiborTenor.Ordered.strict (h : q.Ordered) {i j : ℕ} (hij : i < j) (hj : j ≤ q.n) :
    q.T i < q.T j :=
  (h.2.2 i (by omega)).trans_le (h.mono (by omega) hj)

theorem LiborTenor.Ordered.nonneg (h : q.Ordered) {i : ℕ} (hi : i ≤ q.n) : 0 ≤ q.T i :=
  h.2.1.trans (h.mono (Nat.zero_le i) hi)

theorem LiborTenor.tau_ok (h : q.Ordered) {k : ℕ} (h1 : 1 ≤ k) (h2 : k ≤ q.n) :
    q.tau k = .ok (q.T k - q.T (k - 1)) := by
  have hl := h.1
  rw [LiborTenor.tau, if_pos ⟨h1, h2⟩, unwrap_getD _ _ (by omega) 0, ok_bind,
    unwrap_getD _ _ (by omega) 0, ok_bind]
  rfl

theorem firstNotBefore_none (t : ℝ) (l : List ℝ) (k : ℕ) (h : firstNotBefore t l k = none) :
    ∀ i < l.length, l.getD i 0 < t := by
  induction l generalizing k with
  | nil => simp
  | cons a l ih =>
    rw [firstNotBefore] at h
    split at h
    · cases h
    · rename_i hn
      intro i hi
      cases i with
      | zero => simpa using hn
      | succ i => simpa using ih (k + 1) h i (by simpa using hi)

theorem firstNotBefore_some (t : ℝ) (l : List ℝ) (k j : ℕ) (h : firstNotBefore t l k = some j) :
    k ≤ j ∧ j - k < l.length ∧ t ≤ l.getD (j - k) 0 ∧ ∀ i < j - k, l.getD i 0 < t := by
  induction l generalizing k with
  | nil => simp [firstNotBefore] at h
  | cons a l ih =>
    rw [firstNotBefore] at h
    split at h
    · rename_i hp
      cases h
      simpa using hp
    · rename_i hn
      obtain ⟨h1, h2, h3, h4⟩ := ih (k + 1) h
      have e : j - k = (j - (k + 1)) + 1 := by omega
      refine ⟨by omega, by rw [e]; simpa using h2, by rw [e]; simpa using h3, ?_⟩
      intro i hi
      cases i with
      | zero => simpa using hn
      | succ i => simpa using h4 i (by omega)

theorem LiborTenor.m_spec (h : q.Ordered) (t : ℝ) :
    q.m t ≤ q.n ∧ (∀ i < q.m t, q.T i < t) ∧ (q.m t < q.n → t ≤ q.T (q.m t)) := by
  have hl := h.1
  unfold LiborTenor.m
  cases hf : firstNotBefore t q.dates 0 with
  | none =>
    rw [Option.getD_none]
    refine ⟨le_refl _, fun i hi => firstNotBefore_none t _ _ hf i (by omega), by omega⟩
  | some j =>
    rw [Option.getD_some]
    obtain ⟨-, h2, h3, h4⟩ := firstNotBefore_some t _ _ _ hf
    rw [Nat.sub_zero] at h2 h3 h4
    exact ⟨by omega, h4, fun _ => h3⟩

theorem LiborTenor.m_unique (h : q.Ordered) {t : ℝ} {k : ℕ} (h1 : k ≤ q.n)
    (h2 : ∀ i < k, q.T i < t) (h3 : k < q.n → t ≤ q.T k) : q.m t = k := by
  obtain ⟨m1, m2, m3⟩ := LiborTenor.m_spec h t
  rcases Nat.lt_trichotomy (q.m t) k with hlt | heq | hgt
  · exact absurd (h2 _ hlt) (not_lt.2 (m3 (by omega)))
  · exact heq
  · exact absurd (m2 _ hgt) (not_lt.2 (h3 (by omega)))

theorem openLibors_eq (h : q.Ordered) (t : ℝ) : openLibors q t = Finset.Icc (q.m t + 1) q.n := by
  obtain ⟨m1, m2, m3⟩ := LiborTenor.m_spec h t
  ext j
  rw [openLibors, Finset.mem_filter, Finset.mem_Icc, Finset.mem_Icc]
  constructor
  · rintro ⟨⟨h1, h2⟩, h3⟩
    refine ⟨?_, h2⟩
    by_contra hc
    exact absurd (m2 (j - 1) (by omega)) (not_lt.2 h3)
  · rintro ⟨h1, h2⟩
    exact ⟨⟨by omega, h2⟩, (m3 (by omega)).trans (h.mono (by omega) (by omega))⟩

/-! ## The coefficients -/

/-- The entry of `psi`. -/
noncomputable def psiVal (l : DdSvLmm) (t : LiborTenor) (k : ℕ) : ℝ :=
  (t.T k - t.T (k - 1)) * l.sigmas.getD (k - 1) 0 * t.L k / (1 + (t.T k - t.T (k - 1)) * t.L k)

theorem psiVal_eq_loading (l : DdSvLmm) (t : LiborTenor) (k : ℕ)
    (h : 1 + (t.T k - t.T (k - 1)) * t.L k ≠ 0) : psiVal l t k = loading l t k := by
  have h1 : HasDerivAt (fun x => 1 + (t.T k - t.T (k - 1)) * x) (t.T k - t.T (k - 1)) (t.L k) := by
    simpa using ((hasDerivAt_id (t.L k)).const_mul (t.T k - t.T (k - 1))).const_add 1
  rw [psiVal, loading, (h1.log h).deriv]
  ring

theorem psi_ok {l : DdSvLmm} (h : q.Ordered) (hs : l.sigmas.length = q.n) :
    l.psi q = .ok ((List.range q.n).map fun j => psiVal l q (j + 1)) := by
  apply collectO_ok
  intro j hj
  rw [List.mem_range] at hj
  rw [LiborTenor.tau_ok h (by omega) (by omega), ok_bind,
    unwrap_getD q.libors j hj 0, ok_bind, unwrap_getD l.sigmas j (by omega) 0, ok_bind]
  simp [psiVal, LiborTenor.L]

theorem at1_psi {l : DdSvLmm} {j : ℕ} (h1 : 1 ≤ j) (h2 : j ≤ q.n) :
    at1 ((List.range q.n).map fun j => psiVal l q (j + 1)) j = .ok (psiVal l q j) := by
  rw [at1_ok _ j h1 (by simpa using h2) 0]
  have : j - 1 < q.n := by omega
  simp [List.getD_eq_getElem?_getD, this, show j - 1 + 1 = j by omega]

theorem entry_ok (m : List (List ℝ)) (n : ℕ) (hl : m.length = n) (hr : ∀ row ∈ m, row.length = n)
    {i j : ℕ} (hi : 1 ≤ i) (hi' : i ≤ n) (hj : 1 ≤ j) (hj' : j ≤ n) :
    entry m i j = .ok (matAt m i j) := by
  have hrow : (m.getD (i - 1) []).length = n := by
    apply hr
    rw [List.getD_eq_getElem?_getD, List.getElem?_eq_getElem (by omega)]
    simp
  rw [entry, at1_ok m i hi (by omega) [], ok_bind, at1_ok _ j hj (by omega) 0]
  rfl

/-- The sum in `compute_a_side`. -/
noncomputable def triForm (m : List (List ℝ)) (w : ℕ → ℝ) (a n : ℕ) : ℝ :=
  (∑ j ∈ Finset.Icc a n, w j * w j)
    + ∑ i ∈ Finset.Icc a n, ∑ j ∈ Finset.Icc (i + 1) n, 2 * w i * w j * matAt m i j

theorem Icc_insert_bot {a n : ℕ} (h : a ≤ n) :
    Finset.Icc a n = insert a (Finset.Icc (a + 1) n) := by
  ext; simp; omega

theorem triForm_eq (m : List (List ℝ)) (w : ℕ → ℝ) (n : ℕ) (hm : UnitSymm m n) (k : ℕ) :
    ∀ a, 1 ≤ a → n + 1 - a = k → triForm m w a n = quadOn m w (Finset.Icc a n) := by
  induction k with
  | zero =>
    intro a _ hk
    have : Finset.Icc a n = ∅ := Finset.Icc_eq_empty (by omega)
    simp [triForm, quadOn, this]
  | succ k ih =>
    intro a ha hk
    have hn : a ∉ Finset.Icc (a + 1) n := by simp
    have h1 := ih (a + 1) (by omega) (by omega)
    unfold triForm quadOn at h1 ⊢
    rw [Icc_insert_bot (show a ≤ n by omega)]
    simp only [Finset.sum_insert hn, Finset.sum_add_distrib]
    have h2 : ∑ i ∈ Finset.Icc (a + 1) n, w i * w a * matAt m i a
        = ∑ i ∈ Finset.Icc (a + 1) n, w a * w i * matAt m a i := by
      apply Finset.sum_congr rfl
      intro i hi
      rw [Finset.mem_Icc] at hi
      rw [hm.2 i a (by omega) (by omega) ha (by omega)]
      ring
    have h3 : ∑ i ∈ Finset.Icc (a + 1) n, 2 * w a * w i * matAt m a i
        = 2 * ∑ i ∈ Finset.Icc (a + 1) n, w a * w i * matAt m a i := by
      rw [Finset.mul_sum]
      exact Finset.sum_congr rfl fun i _ => by ring
    rw [h2, h3, hm.1 a ha (by omega)]
    linarith

theorem computeASide_eq {l : DdSvLmm} (h : q.Ordered) (hs : l.sigmas.length = q.n)
    (hc : l.liborCorr.length = q.n) (hr : ∀ row ∈ l.liborCorr, row.length = q.n) {a : ℕ}
    (ha : 1 ≤ a) : computeASide l q a = .ok (triForm l.liborCorr (psiVal l q) a q.n) := by
  rw [computeASide, psi_ok h hs, ok_bind]
  dsimp only
  by_cases hn : q.n < a
  · rw [if_pos hn]
    have : Finset.Icc a q.n = ∅ := Finset.Icc_eq_empty (by omega)
    simp [triForm, this]
  rw [if_neg hn]
  rw [foldlM_okR (g := fun j => psiVal l q j * psiVal l q j), ok_bind,
    foldlM_okR (g := fun i => ∑ j ∈ Finset.Icc (i + 1) q.n,
      2 * psiVal l q i * psiVal l q j * matAt l.liborCorr i j), zero_add,
    sum_range'_Icc _ (by omega), sum_range'_Icc _ (by omega)]
  · rfl
  · intro acc i hi
    have hi := mem_range'_Icc hi
    rw [foldlM_okR (g := fun j => 2 * psiVal l q i * psiVal l q j * matAt l.liborCorr i j),
      show q.n - i = q.n + 1 - (i + 1) by omega, sum_range'_Icc _ (by omega)]
    intro acc j hj
    rw [show q.n - i = q.n + 1 - (i + 1) by omega] at hj
    have hj := mem_range'_Icc hj
    rw [at1_psi (by omega) (by omega), ok_bind, at1_psi (by omega) (by omega), ok_bind,
      entry_ok _ _ hc hr (by omega) (by omega) (by omega) (by omega), ok_bind]
  · intro acc j hj
    have hj := mem_range'_Icc hj
    rw [at1_psi (by omega) (by omega), ok_bind]

/-- The sum in `compute_f_linearised`. -/
noncomputable def crossForm (p : HlmmParams) (x y z : ℝ) (a : ℕ) : ℝ :=
  (∑ j ∈ Finset.Icc a p.tenor.n, psiVal p.domestic p.tenor j * p.correlations.xiD.getD (j - 1) 0)
      * (2 * x * y)
    - (∑ j ∈ Finset.Icc a p.tenor.n, psiVal p.foreign p.tenor j * p.correlations.xiF.getD (j - 1) 0)
      * (2 * x * z)
    - (∑ j ∈ Finset.Icc a p.tenor.n, ∑ k ∈ Finset.Icc a p.tenor.n,
        psiVal p.domestic p.tenor j * psiVal p.foreign p.tenor k * matAt p.correlations.cross j k)
      * (2 * y * z)

theorem computeF_eq {p : HlmmParams} (h : p.tenor.Ordered) (hv : p.Valid) (hk : 0 < p.heston.kappa)
    (t : ℝ) {a : ℕ} (ha : 1 ≤ a) :
    computeF p t a = .ok (crossForm p (phiOf p.heston t) (phiOf p.domestic.cir t)
      (phiOf p.foreign.cir t) a) := by
  obtain ⟨hd, hf, hc⟩ := hv
  have hkd : 0 < p.domestic.cir.kappa := hd.2.2.2.2.2.1
  have hkf : 0 < p.foreign.cir.kappa := hf.2.2.2.2.2.1
  rw [computeF, psi_ok h hd.1, ok_bind, psi_ok h hf.1, ok_bind, sqrtMean_phiOf _ hk, ok_bind,
    sqrtMean_phiOf _ hkd, ok_bind, sqrtMean_phiOf _ hkf, ok_bind]
  dsimp only
  by_cases hn : p.tenor.n < a
  · rw [if_pos hn]
    have : Finset.Icc a p.tenor.n = ∅ := Finset.Icc_eq_empty (by omega)
    simp [crossForm, this]
  rw [if_neg hn]
  rw [foldlM_okR (g := fun j => psiVal p.domestic p.tenor j * p.correlations.xiD.getD (j - 1) 0),
    ok_bind,
    foldlM_okR (g := fun j => psiVal p.foreign p.tenor j * p.correlations.xiF.getD (j - 1) 0),
    ok_bind,
    foldlM_okR (g := fun j => ∑ k ∈ Finset.Icc a p.tenor.n,
      psiVal p.domestic p.tenor j * psiVal p.foreign p.tenor k * matAt p.correlations.cross j k),
    ok_bind, zero_add, zero_add, zero_add,
    sum_range'_Icc _ (by omega), sum_range'_Icc _ (by omega), sum_range'_Icc _ (by omega)]
  · rfl
  · intro acc i hi
    have hi := mem_range'_Icc hi
    rw [foldlM_okR (g := fun k => psiVal p.domestic p.tenor i * psiVal p.foreign p.tenor k
      * matAt p.correlations.cross i k), sum_range'_Icc _ (by omega)]
    intro acc j hj
    have hj := mem_range'_Icc hj
    rw [at1_psi (by omega) (by omega), ok_bind, at1_psi (by omega) (by omega), ok_bind,
      entry_ok _ _ hc.2.2.2.1 (fun r hr => (hc.2.2.2.2.1 r hr).1) (by omega) (by omega) (by omega)
        (by omega), ok_bind]
  · intro acc j hj
    have hj := mem_range'_Icc hj
    rw [at1_psi (by omega) (by omega), ok_bind,
      at1_ok _ j (by omega) (by rw [hc.2.2.1]; omega) 0, ok_bind]
  · intro acc j hj
    have hj := mem_range'_Icc hj
    rw [at1_psi (by omega) (by omega), ok_bind,
      at1_ok _ j (by omega) (by rw [hc.2.1]; omega) 0, ok_bind]

/-- The variance of the log-forward splits into the coefficients of the code. -/
theorem forwardVariance_eq {p : HlmmParams} (hd : UnitSymm p.domestic.liborCorr p.tenor.n)
    (hf : UnitSymm p.foreign.liborCorr p.tenor.n) (x y z : ℝ) {a : ℕ} (ha : 1 ≤ a) :
    forwardVariance p (Finset.Icc a p.tenor.n) x (fun j => y * psiVal p.domestic p.tenor j)
        (fun j => -(z * psiVal p.foreign p.tenor j))
      = x * x + triForm p.domestic.liborCorr (psiVal p.domestic p.tenor) a p.tenor.n * (y * y)
        + triForm p.foreign.liborCorr (psiVal p.foreign p.tenor) a p.tenor.n * (z * z)
        + crossForm p x y z a := by
  rw [triForm_eq _ _ _ hd _ a ha rfl, triForm_eq _ _ _ hf _ a ha rfl, forwardVariance, crossForm]
  set s := Finset.Icc a p.tenor.n
  have e1 : quadOn p.domestic.liborCorr (fun j => y * psiVal p.domestic p.tenor j) s
      = quadOn p.domestic.liborCorr (psiVal p.domestic p.tenor) s * (y * y) := by
    unfold quadOn
    rw [Finset.sum_mul]
    refine Finset.sum_congr rfl fun i _ => ?_
    rw [Finset.sum_mul]
    exact Finset.sum_congr rfl fun j _ => by ring
  have e2 : quadOn p.foreign.liborCorr (fun j => -(z * psiVal p.foreign p.tenor j)) s
      = quadOn p.foreign.liborCorr (psiVal p.foreign p.tenor) s * (z * z) := by
    unfold quadOn
    rw [Finset.sum_mul]
    refine Finset.sum_congr rfl fun i _ => ?_
    rw [Finset.sum_mul]
    exact Finset.sum_congr rfl fun j _ => by ring
  have e3 : ∑ j ∈ s, y * psiVal p.domestic p.tenor j * p.correlations.xiD.getD (j - 1) 0
      = y * ∑ j ∈ s, psiVal p.domestic p.tenor j * p.correlations.xiD.getD (j - 1) 0 := by
    rw [Finset.mul_sum]; exact Finset.sum_congr rfl fun j _ => by ring
  have e4 : ∑ j ∈ s, -(z * psiVal p.foreign p.tenor j) * p.correlations.xiF.getD (j - 1) 0
      = -z * ∑ j ∈ s, psiVal p.foreign p.tenor j * p.correlations.xiF.getD (j - 1) 0 := by
    rw [Finset.mul_sum]; exact Finset.sum_congr rfl fun j _ => by ring
  have e5 : ∑ i ∈ s, ∑ j ∈ s, y * psiVal p.domestic p.tenor i * -(z * psiVal p.foreign p.tenor j)
        * matAt p.correlations.cross i j
      = -(y * z) * ∑ i ∈ s, ∑ j ∈ s, psiVal p.domestic p.tenor i * psiVal p.foreign p.tenor j
        * matAt p.correlations.cross i j := by
    rw [Finset.mul_sum]
    refine Finset.sum_congr rfl fun i _ => ?_
    rw [Finset.mul_sum]
    exact Finset.sum_congr rfl fun j _ => by ring
  rw [e1, e2, e3, e4, e5]
  ring

/-- A positive semidefinite correlation matrix gives non-negative coefficients. -/
theorem quadOn_nonneg {m : List (List ℝ)} {n : ℕ}
    (h : ∀ w, 0 ≤ quadOn m w (Finset.Icc 1 n)) (w : ℕ → ℝ) {a : ℕ} (ha : 1 ≤ a) :
    0 ≤ quadOn m w (Finset.Icc a n) := by
  have h1 := h fun j => if a ≤ j then w j else 0
  have : quadOn m (fun j => if a ≤ j then w j else 0) (Finset.Icc 1 n)
      = quadOn m w (Finset.Icc a n) := by
    unfold quadOn
    have hsub : Finset.Icc a n ⊆ Finset.Icc 1 n := Finset.Icc_subset_Icc_left ha
    rw [← Finset.sum_subset hsub]
    · refine Finset.sum_congr rfl fun i hi => ?_
      rw [← Finset.sum_subset hsub]
      · refine Finset.sum_congr rfl fun j hj => ?_
        dsimp only
        rw [if_pos (Finset.mem_Icc.1 hi).1, if_pos (Finset.mem_Icc.1 hj).1]
      · intro j hj hn
        rw [Finset.mem_Icc] at hj hn
        dsimp only
        rw [if_neg (by omega : ¬ a ≤ j)]; ring
    · intro i hi hn
      rw [Finset.mem_Icc] at hi hn
      apply Finset.sum_eq_zero
      intro j _
      dsimp only
      rw [if_neg (by omega : ¬ a ≤ i)]; ring
  rw [this] at h1
  exact h1

end Verif
