import Verif.Lemmas.FmmStep

/-! # Bonds and the bank account of the forward market model -/

namespace Verif

open Outcome Classical

variable {f : Fmm} {p : FmmPath} {p0 : ℝ → ℝ}

theorem bigG_ok {q : FmmTenor} (h : q.Ordered) {j : ℕ} (h1 : 1 ≤ j) (h2 : j ≤ q.m) (s T : ℝ) :
    q.bigG j s T = .ok (ahead q j s - ahead q j T) := by
  rw [FmmTenor.bigG, gamma_ok h h1 h2, ok_bind, gamma_ok h h1 h2, ok_bind]

/-- The back stub. -/
noncomputable def backVal (q : FmmTenor) (p0 : ℝ → ℝ) (k : ℕ) (r y T : ℝ) : ℝ :=
  p0Fwd p0 (q.T (k - 1)) T * (1 + q.len k * r) ^ (-(1 - ahead q k T))
    * p0Fwd p0 (q.T (k - 1)) (q.T k) ^ (-(1 - ahead q k T))
    * Real.exp (1 / 2 * (1 - ahead q k T) * ahead q k T * y)

/-- The front stub. -/
noncomputable def frontVal (q : FmmTenor) (p0 : ℝ → ℝ) (k : ℕ) (r0 y0 t x y T : ℝ) : ℝ :=
  p0Fwd p0 t T * p0Fwd p0 (q.T (k - 1)) (q.T k) ^ (-(ahead q k t - ahead q k T))
    * (1 + q.len k * r0) ^ (-(ahead q k t - ahead q k T))
    * Real.exp (-(ahead q k t - ahead q k T) * x
      - 1 / 2 * (ahead q k t - ahead q k T) * (ahead q k t - ahead q k T) * (y - y0)
      + 1 / 2 * y0 * (ahead q k T * (1 - ahead q k T) - ahead q k t * (1 - ahead q k t)))

theorem backStub_ok (h : f.tenor.Ordered) (hp : p.Fits f.tenor.m) {k : ℕ} (h1 : 1 ≤ k)
    (h2 : k ≤ f.tenor.m) {T : ℝ} (ht : p.t ≤ f.tenor.T (k - 1) + 1 / 10 ^ 15)
    (hT1 : f.tenor.T (k - 1) < T) (hT2 : T ≤ f.tenor.T k) :
    backStubForwardBond f p k T (p0Fwd p0 (f.tenor.T (k - 1)) T)
        (p0Fwd p0 (f.tenor.T (k - 1)) (f.tenor.T k))
      = .ok (backVal f.tenor p0 k (p.R k) (p.Y k) T) := by
  have hl := h.2.1
  have hpos := FmmTenor.tau_pos h h1 h2
  have hε : (0 : ℝ) < 1 / 10 ^ 15 := by positivity
  rw [backStubForwardBond]
  rw [if_pos ⟨h1, h2⟩, at1_ok _ k h1 (by omega) 0, ok_bind, unwrap_getD _ k (by omega) 0, ok_bind]
  change (if p.t ≤ f.tenor.T (k - 1) + 1 / 10 ^ 15 then
    if f.tenor.T (k - 1) - 1 / 10 ^ 15 < T ∧ T ≤ f.tenor.T k + 1 / 10 ^ 15 then _ else _ else _) = _
  rw [if_pos ht, if_pos ⟨by linarith, by linarith⟩, at1_ok _ k h1 (hp.rates ▸ h2) 0, ok_bind,
    FmmTenor.tau_ok h h1 h2, ok_bind]
  change (f.tenor.bigG k (f.tenor.T (k - 1)) T >>= fun g1 => f.tenor.bigG k T (f.tenor.T k) >>= _) = _
  rw [bigG_ok h h1 h2, ok_bind, bigG_ok h h1 h2, ok_bind, at1_ok _ k h1 (hp.yDiag ▸ h2) 0, ok_bind,
    ahead_before hpos le_rfl, ahead_after hpos le_rfl, sub_zero]
  rfl

theorem frontStub_ok (h : f.tenor.Ordered) (hp : p.Fits f.tenor.m) {k : ℕ}
    (hk : f.tenor.etaN p.t = k) (h2 : k ≤ f.tenor.m) {T : ℝ} (ht : f.tenor.T (k - 1) < p.t)
    (hT1 : p.t ≤ T) (hT2 : T ≤ f.tenor.T k) :
    frontStubBond f p T (p0Fwd p0 p.t T) (p0Fwd p0 (f.tenor.T (k - 1)) (f.tenor.T k))
      = .ok (frontVal f.tenor p0 k (p.startR k) (p.startY k) p.t p.xActive (p.Y k) T) := by
  have hl := h.2.1
  obtain ⟨he, e1, e2, e3, e4⟩ := FmmTenor.eta_spec h p.t
  rw [hk] at he e1 e2 e3 e4
  have hpos := FmmTenor.tau_pos h e1 h2
  have hε : (0 : ℝ) < 1 / 10 ^ 15 := by positivity
  have h4 := e4 h2
  rw [frontStubBond]
  dsimp only
  rw [he, ok_bind, if_pos ⟨e1, h2⟩, at1_ok _ k e1 (by omega) 0, ok_bind,
    unwrap_getD _ k (by omega) 0, ok_bind]
  change (if f.tenor.T (k - 1) - 1 / 10 ^ 15 < p.t ∧ p.t < f.tenor.T k + 1 / 10 ^ 15 then
    if p.t - 1 / 10 ^ 15 < T ∧ T ≤ f.tenor.T k + 1 / 10 ^ 15 then _ else _ else _) = _
  rw [if_pos ⟨by linarith, by linarith⟩, if_pos ⟨by linarith, by linarith⟩,
    FmmTenor.tau_ok h e1 h2, ok_bind, at1_ok _ k e1 (hp.ratesAtStart ▸ h2) 0, ok_bind,
    at1_ok _ k e1 (hp.yAtStart ▸ h2) 0, ok_bind, at1_ok _ k e1 (hp.yDiag ▸ h2) 0, ok_bind]
  change (f.tenor.bigG k p.t T >>= fun g => f.tenor.bigG k T (f.tenor.T k) >>= fun g' =>
    f.tenor.bigG k (f.tenor.T (k - 1)) T >>= fun g'' => f.tenor.bigG k p.t (f.tenor.T k) >>= fun g3 =>
    f.tenor.bigG k (f.tenor.T (k - 1)) p.t >>= _) = _
  simp only [bigG_ok h e1 h2, ok_bind, ahead_before hpos le_rfl, ahead_after hpos le_rfl, sub_zero]
  rfl

/-- The bond to a date of the current period. -/
noncomputable def curVal (q : FmmTenor) (p0 : ℝ → ℝ) (p : FmmPath) (T : ℝ) : ℝ :=
  if p.t ≤ q.T (q.etaN p.t - 1) + 1 / 10 ^ 15 then
    backVal q p0 (q.etaN p.t) (p.R (q.etaN p.t)) (p.Y (q.etaN p.t)) T
  else frontVal q p0 (q.etaN p.t) (p.startR (q.etaN p.t)) (p.startY (q.etaN p.t)) p.t p.xActive
    (p.Y (q.etaN p.t)) T

theorem current_ok (h : f.tenor.Ordered) (hp : p.Fits f.tenor.m)
    (h2 : f.tenor.etaN p.t ≤ f.tenor.m) {T : ℝ} (hT0 : f.tenor.T (f.tenor.etaN p.t - 1) < T)
    (hT1 : p.t ≤ T) (hT2 : T ≤ f.tenor.T (f.tenor.etaN p.t)) :
    currentPeriodBond f p (f.tenor.etaN p.t) T p0 = .ok (curVal f.tenor p0 p T) := by
  have hl := h.2.1
  obtain ⟨he, e1, e2, e3, e4⟩ := FmmTenor.eta_spec h p.t
  rw [currentPeriodBond, at1_ok _ _ e1 (by omega) 0, ok_bind, unwrap_getD _ _ (by omega) 0, ok_bind]
  change (if p.t ≤ f.tenor.T (f.tenor.etaN p.t - 1) + 1 / 10 ^ 15 then
    backStubForwardBond f p _ T (p0Fwd p0 (f.tenor.T (f.tenor.etaN p.t - 1)) T)
      (p0Fwd p0 (f.tenor.T (f.tenor.etaN p.t - 1)) (f.tenor.T (f.tenor.etaN p.t)))
    else frontStubBond f p T (p0Fwd p0 p.t T)
      (p0Fwd p0 (f.tenor.T (f.tenor.etaN p.t - 1)) (f.tenor.T (f.tenor.etaN p.t)))) = _
  rw [curVal]
  by_cases hc : p.t ≤ f.tenor.T (f.tenor.etaN p.t - 1) + 1 / 10 ^ 15
  · rw [if_pos hc, if_pos hc, backStub_ok h hp e1 h2 hc hT0 hT2]
  · have hε : (0 : ℝ) < 1 / 10 ^ 15 := by positivity
    rw [if_neg hc, if_neg hc, frontStub_ok h hp rfl h2 (by linarith [not_le.1 hc]) hT1 hT2]

theorem foldlM_mulR {g : ℝ → ℕ → Outcome ℝ} {c : ℕ → ℝ} (l : List ℕ) (acc : ℝ)
    (h : ∀ a, ∀ k ∈ l, g a k = .ok (a * c k)) :
    l.foldlM g acc = .ok (acc * (l.map c).prod) := by
  induction l generalizing acc with
  | nil => simp [List.foldlM, pure]
  | cons k ks ih =>
    rw [List.foldlM_cons, h acc k List.mem_cons_self, ok_bind,
      ih _ (fun a j hj => h a j (List.mem_cons_of_mem _ hj)), List.map_cons, List.prod_cons,
      mul_assoc]

theorem prod_range'_Ico (c : ℕ → ℝ) (a k : ℕ) :
    ((List.range' a k).map c).prod = ∏ j ∈ Finset.Ico a (a + k), c j := by
  induction k generalizing a with
  | zero => simp
  | succ k ih =>
    rw [List.range'_succ, List.map_cons, List.prod_cons, ih, show a + (k + 1) = a + 1 + k by ring]
    rw [Finset.prod_eq_prod_Ico_succ_bot (by omega : a < a + 1 + k)]

/-- Growth over the first `k` periods. -/
noncomputable def growth (q : FmmTenor) (p : FmmPath) (k : ℕ) : ℝ :=
  ∏ j ∈ Finset.Icc 1 k, (1 + q.len j * p.R j)

theorem discBond_growth (q : FmmTenor) (p : FmmPath) (k : ℕ) :
    discBond q.len k p.R = (growth q p k)⁻¹ := by
  rw [discBond, growth, Finset.prod_inv_distrib]

theorem bond_same (h : f.tenor.Ordered) (hp : p.Fits f.tenor.m)
    (h2 : f.tenor.etaN p.t ≤ f.tenor.m) {T : ℝ} (hT0 : f.tenor.T (f.tenor.etaN p.t - 1) < T)
    (hT1 : p.t + 1 / 10 ^ 15 ≤ T) (hT2 : T ≤ f.tenor.T (f.tenor.etaN p.t)) :
    bondPrice f p T p0 = .ok (curVal f.tenor p0 p T) := by
  have hε : (0 : ℝ) < 1 / 10 ^ 15 := by positivity
  obtain ⟨he, e1, e2, e3, e4⟩ := FmmTenor.eta_spec h p.t
  have hT : f.tenor.etaN T = f.tenor.etaN p.t :=
    FmmTenor.etaN_unique h e1 e2 (fun j j1 j2 =>
      (h.mono (by omega : j ≤ f.tenor.etaN p.t - 1) (by omega)).trans_lt hT0) fun _ => hT2
  rw [bondPrice]
  rw [if_pos (by linarith), if_neg (by rw [abs_of_nonneg (by linarith)]; linarith), he, ok_bind,
    (FmmTenor.eta_spec h T).1, ok_bind, hT, if_pos ⟨rfl, e1, h2⟩]
  exact current_ok h hp h2 hT0 (by linarith) hT2

theorem bond_later (h : f.tenor.Ordered) (hp : p.Fits f.tenor.m) {k : ℕ}
    (hk : f.tenor.etaN p.t < k) (h2 : k ≤ f.tenor.m) {T : ℝ} (hT0 : f.tenor.T (k - 1) < T)
    (hT1 : p.t + 1 / 10 ^ 15 ≤ T) (hT2 : T ≤ f.tenor.T k) :
    bondPrice f p T p0 = .ok (curVal f.tenor p0 p (f.tenor.T (f.tenor.etaN p.t))
      * (∏ j ∈ Finset.Ico (f.tenor.etaN p.t + 1) k, (1 + f.tenor.len j * p.R j)⁻¹)
      * backVal f.tenor p0 k (p.R k) (p.Y k) T) := by
  have hε : (0 : ℝ) < 1 / 10 ^ 15 := by positivity
  have hl := h.2.1
  obtain ⟨he, e1, e2, e3, e4⟩ := FmmTenor.eta_spec h p.t
  have hT : f.tenor.etaN T = k :=
    FmmTenor.etaN_unique h (by omega) (by omega) (fun j j1 j2 =>
      (h.mono (by omega : j ≤ k - 1) (by omega)).trans_lt hT0) fun _ => hT2
  have hpt := e4 (by omega)
  have hlast : f.tenor.T (f.tenor.etaN p.t) ≤ f.tenor.T (k - 1) := h.mono (by omega) (by omega)
  rw [bondPrice]
  rw [if_pos (by linarith), if_neg (by rw [abs_of_nonneg (by linarith)]; linarith), he, ok_bind,
    (FmmTenor.eta_spec h T).1, ok_bind, hT, if_neg (by omega), if_pos h2,
    unwrap_getD _ _ (by omega) 0, ok_bind]
  change (currentPeriodBond f p (f.tenor.etaN p.t) (f.tenor.T (f.tenor.etaN p.t)) p0 >>= _) = _
  rw [current_ok h hp (by omega) (h.strict (by omega) (by omega)) hpt le_rfl, ok_bind,
    foldlM_mulR (c := fun j => (1 + f.tenor.len j * p.R j)⁻¹), ok_bind,
    at1_ok _ k (by omega) (by omega) 0, ok_bind, unwrap_getD _ k (by omega) 0, ok_bind]
  · change (backStubForwardBond f p k T (p0Fwd p0 (f.tenor.T (k - 1)) T)
        (p0Fwd p0 (f.tenor.T (k - 1)) (f.tenor.T k)) >>= _) = _
    rw [backStub_ok h hp (by omega) h2 (by linarith) hT0 hT2, ok_bind, prod_range'_Ico, one_mul,
      show f.tenor.etaN p.t + 1 + (k - (f.tenor.etaN p.t + 1)) = k by omega]
  · intro a j hj
    rw [List.mem_range'_1] at hj
    rw [FmmTenor.tau_ok h (by omega) (by omega), ok_bind,
      at1_ok _ j (by omega) (by rw [hp.rates]; omega) 0, ok_bind, div_eq_mul_inv]
    rfl

theorem bond_now {T : ℝ} (hT : T = p.t) : bondPrice f p T p0 = .ok 1 := by
  have hε : (0 : ℝ) < 1 / 10 ^ 15 := by positivity
  subst hT
  rw [bondPrice]
  rw [if_pos (by linarith), if_pos (by rw [sub_self, abs_zero]; exact hε)]

theorem frontVal_now {q : FmmTenor} (k : ℕ) (r0 y0 t x y : ℝ) (h0 : p0 t ≠ 0) :
    frontVal q p0 k r0 y0 t x y t = 1 := by
  rw [frontVal, p0Fwd, div_self h0, sub_self]
  simp

theorem curVal_now (h : f.tenor.Ordered) (h2 : f.tenor.etaN p.t ≤ f.tenor.m)
    (ho : OffTolerance f.tenor p.t) (h0 : p0 p.t ≠ 0) (ht : f.tenor.T (f.tenor.etaN p.t) = p.t) :
    curVal f.tenor p0 p p.t = 1 := by
  obtain ⟨he, e1, e2, e3, e4⟩ := FmmTenor.eta_spec h p.t
  have hlt : f.tenor.T (f.tenor.etaN p.t - 1) < p.t := by
    have := h.strict (i := f.tenor.etaN p.t - 1) (j := f.tenor.etaN p.t) (by omega) h2
    rwa [ht] at this
  have hfar : 1 / 10 ^ 15 < |f.tenor.T (f.tenor.etaN p.t - 1) - p.t| :=
    (ho _ (by omega)).resolve_left hlt.ne
  rw [abs_of_neg (by linarith)] at hfar
  rw [curVal]
  rw [if_neg (by linarith), frontVal_now _ _ _ _ _ _ h0]

theorem bond_eta (h : f.tenor.Ordered) (hp : p.Fits f.tenor.m)
    (h2 : f.tenor.etaN p.t ≤ f.tenor.m) (ho : OffTolerance f.tenor p.t) (h0 : p0 p.t ≠ 0) :
    bondPrice f p (f.tenor.T (f.tenor.etaN p.t)) p0
      = .ok (curVal f.tenor p0 p (f.tenor.T (f.tenor.etaN p.t))) := by
  obtain ⟨he, e1, e2, e3, e4⟩ := FmmTenor.eta_spec h p.t
  rcases ho (f.tenor.etaN p.t) h2 with heq | hfar
  · rw [bond_now heq, heq, curVal_now h h2 ho h0 heq]
  · rw [abs_of_nonneg (by linarith [e4 h2])] at hfar
    exact bond_same h hp h2 (h.strict (by omega) h2) (by linarith) le_rfl

theorem bank_ok (h : f.tenor.Ordered) (hp : p.Fits f.tenor.m)
    (h2 : f.tenor.etaN p.t ≤ f.tenor.m) (ho : OffTolerance f.tenor p.t) (h0 : p0 p.t ≠ 0) :
    bankAccount f p p0 = .ok (growth f.tenor p (f.tenor.etaN p.t)
      * curVal f.tenor p0 p (f.tenor.T (f.tenor.etaN p.t))) := by
  have hl := h.2.1
  obtain ⟨he, e1, e2, e3, e4⟩ := FmmTenor.eta_spec h p.t
  rw [bankAccount]
  rw [he, ok_bind, foldlM_mulR (c := fun j => 1 + f.tenor.len j * p.R j), ok_bind,
    if_neg (by omega), unwrap_getD _ _ (by omega) 0, ok_bind]
  · change (bondPrice f p (f.tenor.T (f.tenor.etaN p.t)) p0 >>= _) = _
    rw [bond_eta h hp h2 ho h0, ok_bind, min_eq_left h2, prod_range'_Ico, one_mul, growth,
      show 1 + f.tenor.etaN p.t = f.tenor.etaN p.t + 1 by ring]
    congr 2
  · intro a j hj
    rw [List.mem_range'_1] at hj
    rw [FmmTenor.tau_ok h (by omega) (by omega), ok_bind,
      at1_ok _ j (by omega) (by rw [hp.rates]; omega) 0, ok_bind]
    rfl

theorem bank_past (h : f.tenor.Ordered) (hp : p.Fits f.tenor.m)
    (h2 : f.tenor.m < f.tenor.etaN p.t) :
    bankAccount f p p0 = .ok (growth f.tenor p f.tenor.m) := by
  obtain ⟨he, e1, e2, e3, e4⟩ := FmmTenor.eta_spec h p.t
  rw [bankAccount]
  rw [he, ok_bind, foldlM_mulR (c := fun j => 1 + f.tenor.len j * p.R j), ok_bind,
    if_pos (by omega), min_eq_right (by omega), prod_range'_Ico, one_mul, growth,
    show 1 + f.tenor.m = f.tenor.m + 1 by ring]
  · congr 1
  · intro a j hj
    rw [List.mem_range'_1] at hj
    rw [FmmTenor.tau_ok h (by omega) (by omega), ok_bind,
      at1_ok _ j (by omega) (by rw [hp.rates]; omega) 0, ok_bind]
    rfl

/-! ## Signs -/

theorem p0Fwd_pos (hc : ∀ t, 0 < p0 t) (s T : ℝ) : 0 < p0Fwd p0 s T := div_pos (hc T) (hc s)

theorem backVal_pos {q : FmmTenor} (hc : ∀ t, 0 < p0 t) {k : ℕ} {r : ℝ} (hr : 0 < 1 + q.len k * r)
    (y T : ℝ) : 0 < backVal q p0 k r y T := by
  rw [backVal]
  have h1 := p0Fwd_pos hc (q.T (k - 1)) T
  have h2 := Real.rpow_pos_of_pos hr (-(1 - ahead q k T))
  have h3 := Real.rpow_pos_of_pos (p0Fwd_pos hc (q.T (k - 1)) (q.T k)) (-(1 - ahead q k T))
  positivity

theorem frontVal_pos {q : FmmTenor} (hc : ∀ t, 0 < p0 t) {k : ℕ} {r0 : ℝ}
    (hr : 0 < 1 + q.len k * r0) (y0 t x y T : ℝ) : 0 < frontVal q p0 k r0 y0 t x y T := by
  rw [frontVal]
  have h1 := p0Fwd_pos hc t T
  have h2 := Real.rpow_pos_of_pos hr (-(ahead q k t - ahead q k T))
  have h3 := Real.rpow_pos_of_pos (p0Fwd_pos hc (q.T (k - 1)) (q.T k))
    (-(ahead q k t - ahead q k T))
  positivity

theorem curVal_pos {q : FmmTenor} (hc : ∀ t, 0 < p0 t)
    (hr : 0 < 1 + q.len (q.etaN p.t) * p.R (q.etaN p.t))
    (hs : 0 < 1 + q.len (q.etaN p.t) * p.startR (q.etaN p.t)) (T : ℝ) :
    0 < curVal q p0 p T := by
  rw [curVal]
  split
  · exact backVal_pos hc hr _ _
  · exact frontVal_pos hc hs _ _ _ _ _

/-! ## The stubs on the grid -/

theorem backVal_end {q : FmmTenor} (h : q.Ordered) (hc : ∀ t, 0 < p0 t) {k : ℕ} (h1 : 1 ≤ k)
    (h2 : k ≤ q.m) (r y : ℝ) : backVal q p0 k r y (q.T k) = (1 + q.len k * r)⁻¹ := by
  have hpos := FmmTenor.tau_pos h h1 h2
  have hf := (p0Fwd_pos hc (q.T (k - 1)) (q.T k)).ne'
  rw [backVal, ahead_after hpos le_rfl, sub_zero, Real.rpow_neg_one, Real.rpow_neg_one, mul_zero,
    zero_mul, Real.exp_zero, mul_one]
  field_simp

theorem front_eq_back {q : FmmTenor} (h : q.Ordered) {k : ℕ} (h1 : 1 ≤ k) (h2 : k ≤ q.m)
    (r0 y0 T : ℝ) : frontVal q p0 k r0 y0 (q.T (k - 1)) 0 y0 T = backVal q p0 k r0 y0 T := by
  have hpos := FmmTenor.tau_pos h h1 h2
  rw [frontVal, backVal, ahead_before hpos le_rfl]
  have : -(1 - ahead q k T) * 0 - 1 / 2 * (1 - ahead q k T) * (1 - ahead q k T) * (y0 - y0)
      + 1 / 2 * y0 * (ahead q k T * (1 - ahead q k T) - 1 * (1 - 1))
      = 1 / 2 * (1 - ahead q k T) * ahead q k T * y0 := by ring
  rw [this]
  ring

/-! ## Discounted bonds -/

theorem growth_pos {q : FmmTenor} {n : ℕ} (hr : ∀ j, 1 ≤ j → j ≤ n → 0 < 1 + q.len j * p.R j) :
    0 < growth q p n := Finset.prod_pos fun j hj => by
  rw [Finset.mem_Icc] at hj
  exact hr j hj.1 hj.2

theorem growth_split {q : FmmTenor} {a k : ℕ} (h1 : a < k)
    (hr : ∀ j, 1 ≤ j → j < k → 0 < 1 + q.len j * p.R j) :
    (∏ j ∈ Finset.Ico (a + 1) k, (1 + q.len j * p.R j)⁻¹) / growth q p a
      = discBond q.len (k - 1) p.R := by
  obtain ⟨b, rfl⟩ : ∃ b, k = b + 1 := ⟨k - 1, by omega⟩
  rw [growth, div_eq_mul_inv, ← Finset.prod_inv_distrib, discBond, mul_comm, Nat.add_sub_cancel]
  have e1 : Finset.Icc 1 a = Finset.Ico 1 (a + 1) := by ext; simp
  have e2 : Finset.Icc 1 b = Finset.Ico 1 (b + 1) := by ext; simp
  rw [e1, e2]
  exact Finset.prod_Ico_consecutive _ (by omega) (by omega)

/-- A bond maturing after the current period in units of the bank account. -/
theorem discounted_later (h : f.tenor.Ordered) (hp : p.Fits f.tenor.m) {k : ℕ}
    (hk : f.tenor.etaN p.t < k) (h2 : k ≤ f.tenor.m) {T : ℝ} (hT0 : f.tenor.T (k - 1) < T)
    (hT1 : p.t + 1 / 10 ^ 15 ≤ T) (hT2 : T ≤ f.tenor.T k) (ho : OffTolerance f.tenor p.t)
    (hc : ∀ t, 0 < p0 t) (hr : ∀ j, 1 ≤ j → j ≤ f.tenor.m → 0 < 1 + f.tenor.len j * p.R j)
    (hs : 0 < 1 + f.tenor.len (f.tenor.etaN p.t) * p.startR (f.tenor.etaN p.t)) :
    ∃ P B, bondPrice f p T p0 = .ok P ∧ bankAccount f p p0 = .ok B ∧ 0 < P ∧ 0 < B
      ∧ P / B = discBond f.tenor.len (k - 1) p.R * backVal f.tenor p0 k (p.R k) (p.Y k) T := by
  obtain ⟨he, e1, e2, e3, e4⟩ := FmmTenor.eta_spec h p.t
  have hcur := curVal_pos (p := p) hc (hr _ e1 (by omega)) hs (f.tenor.T (f.tenor.etaN p.t))
  have hg : 0 < growth f.tenor p (f.tenor.etaN p.t) := growth_pos fun j j1 j2 => hr j j1 (by omega)
  have hb := backVal_pos (y := p.Y k) (T := T) hc (hr k (by omega) h2)
  refine ⟨_, _, bond_later h hp hk h2 hT0 hT1 hT2, bank_ok h hp (by omega) ho (hc _).ne', ?_,
    mul_pos hg hcur, ?_⟩
  · refine mul_pos (mul_pos hcur (Finset.prod_pos fun j hj => ?_)) hb
    rw [Finset.mem_Ico] at hj
    exact inv_pos.2 (hr j (by omega) (by omega))
  · rw [← growth_split hk fun j j1 j2 => hr j j1 (by omega)]
    field_simp

/-- A bond maturing on a tenor date in units of the bank account. -/
theorem discounted_tenor (h : f.tenor.Ordered) (hp : p.Fits f.tenor.m) {n : ℕ} (h1 : 1 ≤ n)
    (h2 : n ≤ f.tenor.m) (hT : p.t ≤ f.tenor.T n) (ho : OffTolerance f.tenor p.t)
    (hc : ∀ t, 0 < p0 t) (hr : ∀ j, 1 ≤ j → j ≤ f.tenor.m → 0 < 1 + f.tenor.len j * p.R j)
    (hs : 0 < 1 + f.tenor.len (f.tenor.etaN p.t) * p.startR (f.tenor.etaN p.t)) :
    ∃ P B, bondPrice f p (f.tenor.T n) p0 = .ok P ∧ bankAccount f p p0 = .ok B ∧ 0 < P ∧ 0 < B
      ∧ P / B = discBond f.tenor.len n p.R := by
  obtain ⟨he, e1, e2, e3, e4⟩ := FmmTenor.eta_spec h p.t
  have hen := (etaN_le_iff h p.t h1 h2).2 hT
  rcases hen.eq_or_lt with heq | hlt
  · have hcur := curVal_pos (p := p) hc (hr _ e1 (by omega)) hs (f.tenor.T (f.tenor.etaN p.t))
    have hg : 0 < growth f.tenor p (f.tenor.etaN p.t) :=
      growth_pos fun j j1 j2 => hr j j1 (by omega)
    have hb := bond_eta h hp (by omega) ho (hc p.t).ne'
    rw [heq] at hb
    refine ⟨_, _, hb, bank_ok h hp (by omega) ho (hc _).ne', heq ▸ hcur, mul_pos hg hcur, ?_⟩
    rw [discBond_growth, heq] at *
    field_simp
  · have hpt := e4 (by omega)
    have hlt' := h.strict hlt h2
    have hfar := (ho n h2).resolve_left (by linarith)
    rw [abs_of_nonneg (by linarith)] at hfar
    obtain ⟨P, B, a, b, c, d, e⟩ := discounted_later h hp hlt h2 (h.strict (by omega) h2)
      (by linarith) le_rfl ho hc hr hs
    refine ⟨P, B, a, b, c, d, e.trans ?_⟩
    rw [backVal_end h hc h1 h2, discBond, discBond]
    obtain ⟨b, rfl⟩ : ∃ b, n = b + 1 := ⟨n - 1, by omega⟩
    rw [Finset.prod_Icc_succ_top (by omega), Nat.add_sub_cancel]

end Verif
