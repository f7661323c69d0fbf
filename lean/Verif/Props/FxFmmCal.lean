import Verif.Spec.FxFmmCal
import Verif.Props.Calibrate
import Verif.Props.FxFmm

/-!
# C73: calibration of the FX-FMM model
-/

namespace Verif

open Classical Outcome

/-- **C73.** The discount factor is the bond maturing at the last tenor date, extrapolated with the
last rate after that date. -/
theorem C73_discount {p : FmmParams} (h : p.tenor.Ordered) (T : ℝ) :
    (T ≤ p.tenor.T p.tenor.m + 1 / 10 ^ 12 → fmmDiscount p T = .ok (lastRateBond p.tenor))
    ∧ (p.tenor.T p.tenor.m + 1 / 10 ^ 12 < T → fmmDiscount p T
        = .ok (lastRateBond p.tenor
          * Real.exp (-p.tenor.R p.tenor.m * (T - p.tenor.T p.tenor.m)))) :=
  C64_hlmm_discount (p := ⟨p.fx0, p.heston, p.tenor.toLibor, ⟨[], [], 0, 0, 0, []⟩,
    ⟨[], [], 0, 0, 0, []⟩, ⟨0, [], [], []⟩⟩) h.libor h.1 T

example : fmmDiscount exFmm 2 = .ok (lastRateBond exFmmTenor) :=
  (C73_discount (p := exFmm) exFmmTenor_ordered 2).1
    (by norm_num [exFmm, exFmmTenor, FmmTenor.T, FmmTenor.m])

theorem fmmDiscount_ok {p : FmmParams} (h : p.tenor.Ordered) (T : ℝ) :
    ∃ D, fmmDiscount p T = .ok D := by
  rcases le_or_gt T (p.tenor.T p.tenor.m + 1 / 10 ^ 12) with hT | hT
  · exact ⟨_, (C73_discount h T).1 hT⟩
  · exact ⟨_, (C73_discount h T).2 hT⟩

theorem lastRateBond_ex : lastRateBond exFmmTenor = (20 / 21) ^ 2 := lastBond_ex

theorem fmmNew_ok {p : FmmParams} (h : p.tenor.Ordered) (hv : p.Valid)
    (h0 : p.tenor.T 0 = 0 ∨ 1 / 10 ^ 12 < p.tenor.T 0) {T : ℝ} (hT : 0 < T) :
    ∃ q, FmmChf.new p T = .ok q ∧ q.params = p ∧ q.expiry = T := by
  obtain ⟨segs, hq, -⟩ := withResolution_ok h hv h0 hT (n := 1) (m := 16) one_pos (by norm_num)
  exact ⟨_, hq, rfl, rfl⟩

/-- **C73.** Before the last tenor date `price_call` discounts over the whole tenor: a call at one
year on a two-year tenor is discounted with the two-year bond. -/
theorem C73_discount_false : ∃ D, fmmDiscount exFmm 1 = .ok D
    ∧ D ≠ (1 + (exFmmTenor.T 1 - exFmmTenor.T 0) * exFmmTenor.R 1)⁻¹
    ∧ ∃ q, FmmChf.new exFmm 1 = .ok q ∧ ∀ K, 0 < K → ∃ c, (CosPricer.new q.forwardChf).call K 1 = .ok c
      ∧ fmmPriceCall exFmm 1 K = .ok ((20 / 21) ^ 2 * c) := by
  have hd : fmmDiscount exFmm 1 = .ok ((20 / 21) ^ 2) := by
    rw [← lastRateBond_ex]
    exact (C73_discount (p := exFmm) exFmmTenor_ordered 1).1
      (by norm_num [exFmm, exFmmTenor, FmmTenor.T, FmmTenor.m])
  obtain ⟨q, hq, -⟩ := fmmNew_ok (p := exFmm) exFmmTenor_ordered exFmm_valid exFmm_start (T := 1) one_pos
  refine ⟨_, hd, by norm_num [exFmmTenor, FmmTenor.T, FmmTenor.R], _, hq, fun K hK => ?_⟩
  rw [fmmPriceCall, hq, ok_bind, hd, ok_bind, CosPricer.call, CosPricer.call,
    CosPricer.priceEuropean, CosPricer.priceEuropean, if_pos hK, if_pos hK]
  exact ⟨_, rfl, by rw [one_mul]⟩

theorem fmm_valid_reify {p : FmmParams} (floor : ℝ) (x : Fin 5 → ℝ)
    (hv : p.Valid) : (fmmReify p floor x).Valid := by
  obtain ⟨h1, h2, h3⟩ := hv
  refine ⟨h1, h2, ?_⟩
  exact ⟨by
    have := abs_tanh_lt_one (x 4)
    show |Real.tanh (x 4)| ≤ _
    linarith, h3.2⟩

/-- A calibration whose objective is that of the characteristic function. -/
theorem fmm_run (initial : FmmParams) {T floor : ℝ} (hT : 0 < T) (hfl : 0 ≤ floor)
    (h : initial.tenor.Ordered)
    (h0 : initial.tenor.T 0 = 0 ∨ 1 / 10 ^ 12 < initial.tenor.T 0) (hv : initial.Valid)
    {targets : List SmileTarget} (hne : targets ≠ []) (hK : ∀ t ∈ targets, 0 < t.strike)
    (o : NmOptions) :
    ∃ fit vs ws x, fmmCalibrate initial targets T floor o = .ok fit
      ∧ fit.params = fmmReify initial floor x
      ∧ fmmImpliedVols fit.params T (targets.map (·.strike)) = .ok vs
      ∧ vs.length = targets.length
      ∧ fit.rmse = √(fitError vs targets / targets.length)
      ∧ fmmImpliedVols (fmmClip floor initial) T (targets.map (·.strike)) = .ok ws
      ∧ fitError vs targets ≤ fitError ws targets
      ∧ fit.optimiser.iterations ≤ o.maxIter := by
  obtain ⟨x0, hx0, e1, e2⟩ := hestonStart_spec initial.heston initial.correlations.xiSigma floor
  have hx0' : fmmStart initial floor = .ok x0 := hx0
  have hr0 : fmmReify initial floor x0 = fmmClip floor initial := by
    rw [fmmClip, ← e1, ← e2]; rfl
  obtain ⟨D, hD⟩ := fmmDiscount_ok h T
  have hobj : ∀ x, ∃ vs, fmmImpliedVols (fmmReify initial floor x) T (targets.map (·.strike)) = .ok vs
      ∧ vs.length = targets.length
      ∧ fmmObjective (fmmForward initial T) D (fmmReify initial floor x) T targets
        = .ok (fitError vs targets) := by
    intro x
    have hvx := fmm_valid_reify floor x hv
    obtain ⟨q, hq, -⟩ := fmmNew_ok (p := fmmReify initial floor x) h hvx h0 hT
    have hD' : fmmDiscount (fmmReify initial floor x) T = .ok D := hD
    obtain ⟨vs, c1, c2, c3⟩ := cos_objective q.forwardChf (fmmForward initial T) T D targets hK
    refine ⟨vs, ?_, c2, ?_⟩
    · rw [fmmImpliedVols, hq, ok_bind, hD', ok_bind]; exact c1
    · rw [fmmObjective, if_pos hvx, hq, ok_bind, c3]
  choose vs h1 h2 h3 using hobj
  obtain ⟨fit, r1, r2, r3, r4, r5, r6⟩ := runFit_spec (by norm_num) h3 x0 o (fmmReify initial floor)
    targets
  refine ⟨fit, vs fit.optimiser.x, vs x0, fit.optimiser.x, ?_, r2, ?_, h2 _, ?_, ?_, ?_, r6⟩
  · rw [fmmCalibrate, if_pos ⟨hT, hne, hfl⟩, hD, ok_bind, hx0', ok_bind, r1]
  · rw [r2]; exact h1 _
  · rw [r5, r3]
  · rw [← hr0]; exact h1 _
  · rw [← r3]; exact r4

/-- **C73.** The FX-FMM calibration, for parameters that pass validation: it returns, the reported
error is the root mean square difference between the quotes and the volatilities of the returned
parameters, those are valid and positive with mean reversion above the floor and a correlation
inside `(-1, 1)`, nothing but the Heston block is changed, and the error is no larger than at the
start. -/
theorem C73_fit (initial : FmmParams) {T floor : ℝ} (hT : 0 < T) (hfl : 0 ≤ floor)
    (h : initial.tenor.Ordered)
    (h0 : initial.tenor.T 0 = 0 ∨ 1 / 10 ^ 12 < initial.tenor.T 0) (hv : initial.Valid)
    {targets : List SmileTarget} (hne : targets ≠ []) (hK : ∀ t ∈ targets, 0 < t.strike)
    (o : NmOptions) :
    ∃ fit vs ws, fmmCalibrate initial targets T floor o = .ok fit
      ∧ fmmImpliedVols fit.params T (targets.map (·.strike)) = .ok vs
      ∧ vs.length = targets.length
      ∧ fit.rmse = √(fitError vs targets / targets.length)
      ∧ fit.params.Valid
      ∧ fit.params.heston.Above floor ∧ |fit.params.correlations.xiSigma| < 1
      ∧ fit.params = { initial with
          heston := fit.params.heston
          correlations := { initial.correlations with xiSigma := fit.params.correlations.xiSigma } }
      ∧ fmmImpliedVols (fmmClip floor initial) T (targets.map (·.strike)) = .ok ws
      ∧ fitError vs targets ≤ fitError ws targets
      ∧ fit.optimiser.iterations ≤ o.maxIter := by
  obtain ⟨fit, vs, ws, x, r1, r2, r3, r4, r5, r6, r7, r8⟩ := fmm_run initial hT hfl h h0 hv hne hK o
  refine ⟨fit, vs, ws, r1, r3, r4, r5, ?_, ?_, ?_, ?_, r6, r7, r8⟩
  · rw [r2]; exact fmm_valid_reify floor x hv
  · rw [r2]; exact reifyCir_above floor x
  · rw [r2]; exact abs_tanh_lt_one _
  · rw [r2]; rfl

example (o : NmOptions) : ∃ fit, fmmCalibrate exFmm [⟨13 / 10, 1 / 8⟩, ⟨7 / 5, 1 / 10⟩] 2 (1 / 4) o
    = .ok fit ∧ fit.params.Valid := by
  obtain ⟨fit, vs, ws, h, -, -, -, h5, -⟩ := C73_fit exFmm (T := 2) (floor := 1 / 4) (by norm_num)
    (by norm_num) exFmmTenor_ordered exFmm_start
    exFmm_valid (targets := [⟨13 / 10, 1 / 8⟩, ⟨7 / 5, 1 / 10⟩]) (by simp) (by simp) o
  exact ⟨fit, h, h5⟩

/-- **C73.** Calibrating to the model's own smile, starting from the parameters that made it, returns
parameters with that smile and a zero error. -/
theorem C73_exact (initial : FmmParams) {T floor : ℝ} (hT : 0 < T) (hfl : 0 ≤ floor)
    (h : initial.tenor.Ordered)
    (h0 : initial.tenor.T 0 = 0 ∨ 1 / 10 ^ 12 < initial.tenor.T 0) (hv : initial.Valid)
    (hc : fmmClip floor initial = initial)
    {targets : List SmileTarget} (hne : targets ≠ []) (hK : ∀ t ∈ targets, 0 < t.strike)
    (hown : fmmImpliedVols initial T (targets.map (·.strike)) = .ok (targets.map fun t => some t.vol))
    (o : NmOptions) :
    ∃ fit, fmmCalibrate initial targets T floor o = .ok fit ∧ fit.rmse = 0
      ∧ fmmImpliedVols fit.params T (targets.map (·.strike)) = .ok (targets.map fun t => some t.vol) := by
  obtain ⟨fit, vs, ws, r1, r2, r3, r4, -, -, -, -, r9, r10, -⟩ := C73_fit initial hT hfl h h0 hv hne hK o
  rw [hc, hown] at r9
  cases r9
  have hz : fitError (targets.map fun t => some t.vol) targets = 0 := (C64_error_zero (by simp)).2 rfl
  rw [hz] at r10
  have h0' : fitError vs targets = 0 := le_antisymm r10 (fitError_nonneg _ _)
  refine ⟨fit, r1, by rw [r4, h0', zero_div, Real.sqrt_zero], ?_⟩
  rw [r2, (C64_error_zero r3).1 h0']

/-- Parameters of the example below: a small unit of account. -/
noncomputable def smallFmm : FmmParams := { exFmm with fx0 := 1 / 10 ^ 9 }

theorem smallFmm_quote : ∃ K v, 0 < K ∧ fmmImpliedVols smallFmm 2 [K] = .ok [some v] := by
  obtain ⟨q, hq, -, -⟩ := fmmNew_ok (p := smallFmm) exFmmTenor_ordered exFmm_valid exFmm_start (T := 2)
    two_pos
  set K := Real.exp (CosPricer.new q.forwardChf).hi with hK
  have hKpos : 0 < K := Real.exp_pos _
  have hF : fmmForward smallFmm 2 = 1 / 10 ^ 9 := rfl
  have hD : fmmDiscount smallFmm 2 = .ok ((20 / 21) ^ 2) := by
    rw [← lastRateBond_ex]
    exact (C73_discount (p := smallFmm) exFmmTenor_ordered 2).1
      (by norm_num [smallFmm, exFmm, exFmmTenor, FmmTenor.T, FmmTenor.m])
  have hne : bsImpliedVol 0 (1 / 10 ^ 9) K 2 ((20 / 21) ^ 2) true ≠ none := by
    rw [C47_default, Ne, C47_none]
    have e : ∀ s : ℝ, 0 < s → 0 ≤ blackPrice true (1 / 10 ^ 9) K s 2 ((20 / 21) ^ 2)
        ∧ blackPrice true (1 / 10 ^ 9) K s 2 ((20 / 21) ^ 2) < 1 / 10 ^ 9 := by
      intro s hs
      unfold blackPrice
      rw [if_pos rfl, bsCall_core hs two_pos]
      have a := blackCore_nonneg (F := 1 / 10 ^ 9) (by norm_num) hKpos
        (show 0 < s * √2 by positivity)
      have b := blackCore_upper (F := 1 / 10 ^ 9) (K := K) (s := s * √2) (by norm_num) hKpos
      exact ⟨mul_nonneg (by norm_num) a, by nlinarith⟩
    have e1 := (e (1 / 10 ^ 8) (by norm_num)).2
    have e2 := (e 5 (by norm_num)).1
    rintro (h | h)
    · norm_num at e1 h; linarith
    · norm_num at h e2; linarith
  obtain ⟨v, hv⟩ := Option.ne_none_iff_exists'.1 hne
  refine ⟨K, v, hKpos, ?_⟩
  rw [fmmImpliedVols, hq, ok_bind, hD, ok_bind, cosVols, collectAll, cosVol, call_at_hi, ok_bind,
    ok_bind, hF, hv]
  rfl

example (o : NmOptions) : ∃ t fit, fmmCalibrate smallFmm [t] 2 (1 / 4) o = .ok fit
    ∧ fit.rmse = 0 := by
  obtain ⟨K, v, hK, h⟩ := smallFmm_quote
  have hclip : fmmClip (1 / 4) smallFmm = smallFmm := by
    norm_num [fmmClip, smallFmm, exFmm, cirClip, clipTo]
  obtain ⟨fit, h1, h2, -⟩ := C73_exact smallFmm two_pos (floor := 1 / 4) (by norm_num)
    exFmmTenor_ordered exFmm_start exFmm_valid hclip (targets := [⟨K, v⟩]) (by simp) (by simpa using hK)
    h o
  exact ⟨⟨K, v⟩, fit, h1, h2⟩

/-- **C73.** Parameters that do not pass validation for another reason than the correlation of rate
and variance are not reported: the calibration returns with the penalty as its error. -/
theorem C73_invalid (initial : FmmParams) {T floor : ℝ} (hT : 0 < T) (hfl : 0 ≤ floor)
    (h : initial.tenor.Ordered)
    (hr : |initial.correlations.xiSigma| ≤ 1) (hv : ¬ initial.Valid)
    {targets : List SmileTarget} (hne : targets ≠ []) (o : NmOptions) :
    ∃ fit, fmmCalibrate initial targets T floor o = .ok fit
      ∧ fit.rmse = √(10 ^ 6 / targets.length) ∧ ¬ fit.params.Valid := by
  obtain ⟨x0, hx0, -, -⟩ := hestonStart_spec initial.heston initial.correlations.xiSigma floor
  have hx0' : fmmStart initial floor = .ok x0 := hx0
  obtain ⟨D, hD⟩ := fmmDiscount_ok h T
  have hvx : ∀ x, ¬ (fmmReify initial floor x).Valid := by
    rintro x ⟨h1, h2, h3⟩
    exact hv ⟨h1, h2, by linarith, h3.2⟩
  have hobj : ∀ x, fmmObjective (fmmForward initial T) D (fmmReify initial floor x) T targets
      = .ok 1000000 := fun x => by rw [fmmObjective, if_neg (hvx x)]
  obtain ⟨fit, r1, r2, r3, -, r5, -⟩ := runFit_spec (e := fun _ => 1000000) (by norm_num) hobj x0 o
    (fmmReify initial floor) targets
  refine ⟨fit, ?_, ?_, ?_⟩
  · rw [fmmCalibrate, if_pos ⟨hT, hne, hfl⟩, hD, ok_bind, hx0', ok_bind, r1]
  · rw [r5, r3]; norm_num
  · rw [r2]; exact hvx _

example (o : NmOptions) : ∃ fit, fmmCalibrate { exFmm with domestic := { exSide with lambda := 0 } }
    [⟨13 / 10, 1 / 8⟩] 2 (1 / 4) o = .ok fit ∧ fit.rmse = √(10 ^ 6 / 1) := by
  obtain ⟨fit, h1, h2, -⟩ := C73_invalid
    ({ exFmm with domestic := { exSide with lambda := 0 } } : FmmParams) (T := 2) (floor := 1 / 4)
    (by norm_num) (by norm_num) exFmmTenor_ordered
    (by show |(-2 / 5 : ℝ)| ≤ 1; rw [abs_le]; norm_num)
    (fun h => lt_irrefl (0 : ℝ) h.1.2.2.2.2.1.1) (targets := [⟨13 / 10, 1 / 8⟩]) (by simp) o
  exact ⟨fit, h1, by simpa using h2⟩

/-- **C73.** The calibration panics on an expiry that is not positive, without targets and with a
negative floor. -/
theorem C73_panics (initial : FmmParams) (targets : List SmileTarget) (T floor : ℝ)
    (o : NmOptions) (h : T ≤ 0 ∨ targets = [] ∨ floor < 0) :
    fmmCalibrate initial targets T floor o = .panic := by
  rw [fmmCalibrate, if_neg]
  rintro ⟨h1, h2, h3⟩
  rcases h with h | h | h
  · linarith
  · exact h2 h
  · linarith

example (o : NmOptions) : fmmCalibrate exFmm [⟨1, 1 / 10⟩] 1 (-1) o = .panic :=
  C73_panics _ _ _ _ _ (.inr (.inr (by norm_num)))

/-- **C73.** A model volatility reprices the model's call: it is within `1e-12` of a volatility whose
Black price is within `1e-8` of `price_call`. -/
theorem C73_reprice {p : FmmParams} (hfx : 0 < p.fx0) {T D : ℝ} (hD : fmmDiscount p T = .ok D)
    {ks : List ℝ} {vs : List (Option ℝ)} (h : fmmImpliedVols p T ks = .ok vs) :
    vs.length = ks.length ∧ ∀ (i : ℕ) (hi : i < ks.length) (v : ℝ), vs[i]? = some (some v) →
      ∃ c, fmmPriceCall p T ks[i] = .ok c ∧ 1 / 10 ^ 8 ≤ v ∧ v ≤ 5
        ∧ ∃ x, 1 / 10 ^ 8 ≤ x ∧ x ≤ 5 ∧ |blackPrice true p.fx0 ks[i] x T D - c| ≤ 1 / 10 ^ 8
          ∧ |v - x| < 1 / 10 ^ 12 := by
  rw [fmmImpliedVols] at h
  obtain ⟨q, hq, h⟩ := bind_eq_ok.1 h
  rw [hD, ok_bind] at h
  obtain ⟨h1, h2⟩ := collectAll_getElem ks h
  refine ⟨h1, fun i hi v hv => ?_⟩
  have hi' : i < vs.length := by omega
  rw [List.getElem?_eq_getElem hi'] at hv
  have := h2 i hi hi'
  rw [Option.some.inj hv] at this
  obtain ⟨c, hc, rest⟩ := cosVol_some hfx this
  exact ⟨c, by rw [fmmPriceCall, hq, ok_bind, hD, ok_bind, hc], rest⟩

example {vs : List (Option ℝ)} (h : fmmImpliedVols exFmm 2 [13 / 10, 7 / 5] = .ok vs) :
    vs.length = 2 := by
  obtain ⟨D, hD⟩ := fmmDiscount_ok (p := exFmm) exFmmTenor_ordered 2
  exact (C73_reprice (by norm_num [exFmm]) hD h).1

/-- **C73.** What the COS pricer is given is consistent: expiry and start are those of the model, the
characteristic function is one at zero and the forward at `-i`. -/
theorem C73_forward {p : FmmParams} (h : p.tenor.Ordered) (hv : p.Valid)
    (hR : ∀ k, 1 ≤ k → k ≤ p.tenor.m → 0 < 1 + (p.tenor.T k - p.tenor.T (k - 1)) * p.tenor.R k)
    (h0 : p.tenor.T 0 = 0 ∨ 1 / 10 ^ 12 < p.tenor.T 0)
    (hk : 0 < p.heston.kappa) (hkg : p.heston.gamma * p.correlations.xiSigma < p.heston.kappa)
    (hfx : 0 < p.fx0) {T : ℝ} (hT : 0 < T) :
    ∃ q, FmmChf.new p T = .ok q ∧ q.forwardChf.expiry = T
      ∧ Real.exp q.forwardChf.logForward = fmmForward p T
      ∧ q.forwardChf.evaluate 0 = 1 ∧ q.forwardChf.evaluate (-Complex.I) = (fmmForward p T : ℂ) := by
  obtain ⟨q, hq, e1⟩ := C65_zero h hv hR h0 hk hT (n := 1) (m := 16) one_pos (by norm_num)
  obtain ⟨q', hq', e2⟩ := C65_martingale h hv hR h0 hk hkg hfx hT (n := 1) (m := 16) one_pos (by norm_num)
  obtain ⟨q'', hq'', e3, e4⟩ := fmmNew_ok h hv h0 hT
  have a1 : FmmChf.new p T = .ok q := hq
  have a2 : FmmChf.new p T = .ok q' := hq'
  rw [hq''] at a1 a2
  cases a1
  cases a2
  refine ⟨_, hq'', e4, ?_, ?_, ?_⟩
  · change Real.exp (Real.log _) = p.fx0
    rw [e3, Real.exp_log hfx]
  · change outcomeValue _ = _
    rw [e1]; rfl
  · change outcomeValue _ = _
    rw [e2]; rfl

example : ∃ q, FmmChf.new exFmm 2 = .ok q ∧ q.forwardChf.evaluate 0 = 1 := by
  obtain ⟨q, h, -, -, h5, -⟩ := C73_forward (p := exFmm) exFmmTenor_ordered exFmm_valid exFmmTenor_rates
    exFmm_start (by norm_num [exFmm]) (by norm_num [exFmm]) (by norm_num [exFmm]) (T := 2) (by norm_num)
  exact ⟨q, h, h5⟩

/-- **C73.** The strip calibrator fits exactly the pairs of the strip and ignores its forward. -/
theorem C73_wrapper (m : SmileStrip) (o : NmOptions) (p : FmmParams) (floor : ℝ) :
    (∀ fit, fmmCalibrate p m.targets m.expiryYf floor o = .ok fit →
      ∃ r, fmmSmileCalibrate p floor m o = .ok r ∧ r.params = fit.params ∧ r.rmse = fit.rmse
        ∧ r.optimiser = some fit.optimiser)
    ∧ ∀ f, fmmSmileCalibrate p floor { m with forward := f } o = fmmSmileCalibrate p floor m o :=
  ⟨fun fit h => ⟨fit.report, by rw [fmmSmileCalibrate, h, ok_bind], rfl, rfl, rfl⟩, fun _ => rfl⟩

example (o : NmOptions) : ∃ r, fmmSmileCalibrate exFmm (1 / 4)
    ⟨2, 13 / 10, [13 / 10, 7 / 5], [1 / 8, 1 / 10]⟩ o = .ok r := by
  obtain ⟨fit, vs, ws, h, -⟩ := C73_fit exFmm (T := 2) (floor := 1 / 4) (by norm_num)
    (by norm_num) exFmmTenor_ordered exFmm_start
    exFmm_valid (targets := [⟨13 / 10, 1 / 8⟩, ⟨7 / 5, 1 / 10⟩]) (by simp) (by simp) o
  obtain ⟨r, h, -⟩ := (C73_wrapper ⟨2, 13 / 10, [13 / 10, 7 / 5], [1 / 8, 1 / 10]⟩ o exFmm (1 / 4)).1 fit h
  exact ⟨r, h⟩

end Verif
