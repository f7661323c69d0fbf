import Verif.Lemmas.Calibrate
import Verif.Props.Options
import Verif.Props.FxVol

/-!
# C64: smile calibration
-/

namespace Verif

open Classical Outcome

/-! ## The change of variables -/

/-- **C64.** Every value the search can produce for a positive parameter is positive, and every
positive value can be produced. -/
theorem C64_softplus : (∀ x, 0 < softplus x)
    ∧ (∀ y, 0 < y → ∃ x, invSoftplus y = .ok x ∧ softplus x = y)
    ∧ ∀ y, y ≤ 0 → invSoftplus y = .panic :=
  ⟨softplus_pos, fun _ h => invSoftplus_spec h, fun y h => by rw [invSoftplus, if_neg (not_lt.2 h)]⟩

example : ∃ x, invSoftplus 40 = .ok x ∧ softplus x = 40 := C64_softplus.2.1 40 (by norm_num)

/-- **C64.** The shortcut for large arguments differs from `log (1 + eˣ)` by less than `e⁻³⁵`. -/
theorem C64_softplus_error (x : ℝ) : |softplus x - Real.log (1 + Real.exp x)| < Real.exp (-35) := by
  rw [softplus]
  split_ifs with h
  · have e : Real.log (1 + Real.exp x) = x + Real.log (1 + Real.exp (-x)) := by
      have : 1 + Real.exp x = Real.exp x * (1 + Real.exp (-x)) := by
        rw [mul_add, ← Real.exp_add, add_neg_cancel, Real.exp_zero]; ring
      rw [this, Real.log_mul (Real.exp_pos _).ne' (by positivity), Real.log_exp]
    have h1 : 0 < Real.log (1 + Real.exp (-x)) := Real.log_pos (by linarith [Real.exp_pos (-x)])
    have h2 : Real.log (1 + Real.exp (-x)) ≤ Real.exp (-x) := by
      have := Real.log_le_sub_one_of_pos (show 0 < 1 + Real.exp (-x) by positivity)
      linarith
    have h3 : Real.exp (-x) < Real.exp (-35) := Real.exp_lt_exp.2 (by linarith)
    rw [e, abs_sub_comm, add_sub_cancel_left, abs_of_pos h1]
    linarith
  · rw [sub_self, abs_zero]; exact Real.exp_pos _

/-- **C64.** The change of variables is not monotone: it drops where the shortcut begins. -/
theorem C64_softplus_monotone_false : ∃ a b : ℝ, a < b ∧ softplus b < softplus a := by
  have h1 : (35 : ℝ) < softplus 35 := by
    rw [softplus, if_neg (lt_irrefl _), Real.lt_log_iff_exp_lt (by positivity)]
    linarith
  refine ⟨35, (35 + softplus 35) / 2, by linarith, ?_⟩
  rw [softplus, if_pos (by linarith)]
  linarith

/-! ## The quality of a fit -/

/-- **C64.** If the error is below the penalty, every volatility exists and is within
`rmse · √n` of its quote. -/
theorem C64_error_bound {vs : List (Option ℝ)} {targets : List SmileTarget} {rmse : ℝ}
    (hl : vs.length = targets.length) (hne : targets ≠ [])
    (h : rmse = √(fitError vs targets / targets.length)) (hlt : fitError vs targets < 10 ^ 6)
    (i : ℕ) (hi : i < targets.length) :
    ∃ v, vs[i]? = some (some v) ∧ |v - targets[i].vol| ≤ rmse * √targets.length := by
  have hn : none ∉ vs := fun hc => by rw [fitError, if_pos hc] at hlt; exact lt_irrefl _ hlt
  have hi' : i < vs.length := by omega
  obtain ⟨v, hv⟩ : ∃ v, vs[i] = some v := by
    cases hv : vs[i] with
    | none => exact absurd (hv ▸ List.getElem_mem hi') hn
    | some v => exact ⟨v, rfl⟩
  refine ⟨v, by rw [List.getElem?_eq_getElem hi', hv], ?_⟩
  have hpos : (0 : ℝ) < targets.length := by
    exact_mod_cast List.length_pos_iff.2 hne
  rw [h, ← Real.sqrt_mul (div_nonneg (fitError_nonneg _ _) hpos.le), div_mul_cancel₀ _ hpos.ne']
  refine Real.abs_le_sqrt ?_
  rw [fitError, if_neg hn]
  have hmem : (v - targets[i].vol) ^ 2
      ∈ List.zipWith (fun (v : Option ℝ) (t : SmileTarget) => (v.getD 0 - t.vol) ^ 2) vs targets := by
    rw [List.mem_iff_getElem]
    refine ⟨i, by simp; omega, ?_⟩
    rw [List.getElem_zipWith, hv]; rfl
  refine List.single_le_sum (fun x hx => ?_) _ hmem
  rw [List.mem_iff_getElem] at hx
  obtain ⟨j, hj, rfl⟩ := hx
  rw [List.getElem_zipWith]
  positivity

example : ∃ v, [some (1 / 10 : ℝ), some (1 / 5)][1]? = some (some v)
    ∧ |v - 1 / 5| ≤ √(fitError [some (1 / 10), some (1 / 5)] [⟨1, 1 / 10⟩, ⟨2, 1 / 5⟩] / 2) * √2 := by
  have := C64_error_bound (vs := [some (1 / 10), some (1 / 5)])
    (targets := [⟨1, 1 / 10⟩, ⟨2, 1 / 5⟩]) rfl (by simp) rfl
    (by rw [fitError, if_neg (by simp)]; norm_num) 1 (by simp)
  simp at this ⊢

/-- **C64.** The error is zero exactly when every quote is met. -/
theorem C64_error_zero {vs : List (Option ℝ)} {targets : List SmileTarget}
    (hl : vs.length = targets.length) :
    fitError vs targets = 0 ↔ vs = targets.map fun t => some t.vol := by
  constructor
  · intro h
    have hn : none ∉ vs := fun hc => by rw [fitError, if_pos hc] at h; norm_num at h
    apply List.ext_getElem (by simpa using hl)
    intro i h1 h2
    have hi : i < targets.length := by omega
    have hne : targets ≠ [] := fun hc => by rw [hc] at hi; simp at hi
    obtain ⟨v, hv, hb⟩ := C64_error_bound hl hne rfl (by rw [h]; norm_num) i hi
    rw [h, zero_div, Real.sqrt_zero, zero_mul, abs_nonpos_iff, sub_eq_zero] at hb
    rw [List.getElem_map, ← hb]
    rw [List.getElem?_eq_getElem h1] at hv
    exact Option.some.inj hv
  · rintro rfl
    rw [fitError, if_neg (by simp)]
    apply List.sum_eq_zero
    intro x hx
    rw [List.mem_iff_getElem] at hx
    obtain ⟨j, hj, rfl⟩ := hx
    rw [List.getElem_zipWith, List.getElem_map, Option.getD_some, sub_self]
    norm_num

/-! ## SABR -/

theorem sabrReify_eq (beta : ℝ) (x : Fin 3 → ℝ) :
    sabrReify beta x = some ⟨softplus (x 0), beta, Real.tanh (x 1), softplus (x 2)⟩ := by
  rw [sabrReify]
  rw [if_neg (by
    have h0 := softplus_pos (x 0)
    have h2 := softplus_pos (x 2)
    rw [not_or, not_le, not_lt]; exact ⟨h0, h2.le⟩), if_neg (by
    rw [not_or, not_le, not_le]; exact ⟨Real.neg_one_lt_tanh _, Real.tanh_lt_one _⟩)]

theorem sabrStart_spec (p : Sabr) : ∃ x0, sabrStart p = .ok x0
    ∧ sabrReify p.beta x0 = some (sabrClip p) := by
  obtain ⟨a, ha, ha'⟩ := invSoftplus_spec (y := max p.alpha (1 / 10 ^ 8))
    (lt_of_lt_of_le (by norm_num) (le_max_right _ _))
  obtain ⟨c, hc, hc'⟩ := invSoftplus_spec (y := max p.nu (1 / 10 ^ 8))
    (lt_of_lt_of_le (by norm_num) (le_max_right _ _))
  refine ⟨![a, rhoStart p.rho, c], ?_, ?_⟩
  · rw [sabrStart, ha, ok_bind, hc, ok_bind]
  · rw [sabrReify_eq]
    simp only [Matrix.cons_val_zero, Matrix.cons_val_one, Matrix.cons_val]
    rw [ha', hc', tanh_rhoStart, sabrClip]

theorem sabr_vols (p : Sabr) {f T : ℝ} (hf : 0 < f) (hT : 0 < T) (targets : List SmileTarget)
    (hK : ∀ t ∈ targets, 0 < t.strike) :
    ∃ vs, sabrImpliedVols p f T (targets.map (·.strike)) = .ok vs ∧ vs.length = targets.length
      ∧ ssrLoop (sabrVol p f T) 0 targets = .ok (fitError (vs.map positiveOnly) targets) := by
  have hg : ∃ g : ℝ → ℝ, ∀ k, 0 < k → haganVol p f k T = .ok (g k) := by
    refine ⟨fun k => p.alpha / (p.fkHalf f k * p.expansionDenom f k) * zOverX p.rho (p.z f k) *
      p.timeCorrection f k T, fun k hk => ?_⟩
    rw [haganVol, if_pos ⟨hf, hk, hT⟩]
  obtain ⟨g, hg⟩ := hg
  refine ⟨targets.map fun t => g t.strike, ?_, by simp, ?_⟩
  · rw [sabrImpliedVols, mapO_ok (g := g), List.map_map]
    · rfl
    · intro k hk
      obtain ⟨t, ht, rfl⟩ := List.mem_map.1 hk
      exact hg _ (hK t ht)
  · rw [ssrLoop_fitError (g := fun k => positiveOnly (g k)), List.map_map]
    · rfl
    · intro t ht
      rw [sabrVol, hg _ (hK t ht), ok_bind, positiveOnly]
      congr 1
      by_cases h : g t.strike ≤ 0
      · rw [if_pos h, if_neg (not_lt.2 h)]
      · rw [if_neg h, if_pos (not_le.1 h)]

/-- **C64.** The SABR calibration returns for every start and every option set; the result is
admissible with the given exponent; the reported error is that of the smile the result produces; it
is not worse than the start (moved into the search region). -/
theorem C64_sabr (initial : Sabr) {f T : ℝ} (hf : 0 < f) (hT : 0 < T) {targets : List SmileTarget}
    (hne : targets ≠ []) (hK : ∀ t ∈ targets, 0 < t.strike) (o : NmOptions) :
    ∃ fit vs ws, sabrCalibrate initial f targets T o = .ok fit
      ∧ sabrImpliedVols fit.params f T (targets.map (·.strike)) = .ok vs
      ∧ vs.length = targets.length
      ∧ fit.rmse = √(fitError (vs.map positiveOnly) targets / targets.length)
      ∧ 0 < fit.params.alpha ∧ fit.params.beta = initial.beta ∧ |fit.params.rho| < 1
      ∧ 0 < fit.params.nu
      ∧ sabrImpliedVols (sabrClip initial) f T (targets.map (·.strike)) = .ok ws
      ∧ fitError (vs.map positiveOnly) targets ≤ fitError (ws.map positiveOnly) targets
      ∧ fit.optimiser.iterations ≤ o.maxIter := by
  have hobj : ∀ x, ∃ e, sabrObjective initial.beta f T targets x = .ok e := by
    intro x
    obtain ⟨vs, -, -, h⟩ := sabr_vols ⟨softplus (x 0), initial.beta, Real.tanh (x 1), softplus (x 2)⟩
      hf hT targets hK
    rw [sabrObjective, sabrReify_eq]
    exact ⟨_, h⟩
  choose e he using hobj
  obtain ⟨x0, hx0, hr0⟩ := sabrStart_spec initial
  obtain ⟨fit, h1, h2, h3, h4, h5, h6⟩ := runFit_spec (by norm_num) he x0 o
    (fun x => (sabrReify initial.beta x).getD initial) targets
  have h2' : fit.params = ⟨softplus (fit.optimiser.x 0), initial.beta,
      Real.tanh (fit.optimiser.x 1), softplus (fit.optimiser.x 2)⟩ := by
    rw [h2, sabrReify_eq, Option.getD_some]
  obtain ⟨vs, hv1, hv2, hv3⟩ := sabr_vols fit.params hf hT targets hK
  obtain ⟨ws, hw1, hw2, hw3⟩ := sabr_vols (sabrClip initial) hf hT targets hK
  have e1 : e fit.optimiser.x = fitError (vs.map positiveOnly) targets := by
    have h : sabrObjective initial.beta f T targets fit.optimiser.x
        = ssrLoop (sabrVol fit.params f T) 0 targets := by
      rw [sabrObjective, sabrReify_eq, h2']
    exact Outcome.ok.inj ((he _).symm.trans (h.trans hv3))
  have e0 : e x0 = fitError (ws.map positiveOnly) targets := by
    have h : sabrObjective initial.beta f T targets x0
        = ssrLoop (sabrVol (sabrClip initial) f T) 0 targets := by
      rw [sabrObjective, hr0]
    exact Outcome.ok.inj ((he _).symm.trans (h.trans hw3))
  refine ⟨fit, vs, ws, ?_, hv1, hv2, ?_, ?_, ?_, ?_, ?_, hw1, ?_, h6⟩
  · rw [sabrCalibrate, if_pos ⟨hf, hT, hne⟩, hx0, ok_bind, h1]
  · rw [h5, h3, e1]
  · rw [h2']; exact softplus_pos _
  · rw [h2']
  · rw [h2']; exact abs_lt.2 ⟨Real.neg_one_lt_tanh _, Real.tanh_lt_one _⟩
  · rw [h2']; exact softplus_pos _
  · rw [← e1, ← e0, ← h3]; exact h4

example : ∃ fit, sabrCalibrate ⟨1 / 10, 1, 0, 1 / 2⟩ 1 [⟨9 / 10, 1 / 8⟩, ⟨1, 1 / 10⟩] 1
    ⟨200, 1 / 10 ^ 8, 1 / 10 ^ 8, 1 / 20⟩ = .ok fit ∧ |fit.params.rho| < 1 := by
  obtain ⟨fit, vs, ws, h, -, -, -, -, -, h7, -⟩ := C64_sabr ⟨1 / 10, 1, 0, 1 / 2⟩ (f := 1) (T := 1)
    one_pos one_pos (targets := [⟨9 / 10, 1 / 8⟩, ⟨1, 1 / 10⟩]) (by simp) (by simp)
    ⟨200, 1 / 10 ^ 8, 1 / 10 ^ 8, 1 / 20⟩
  exact ⟨fit, h, h7⟩

/-- **C64.** A start that meets all quotes is kept: the reported error is zero and the result
meets all quotes. -/
theorem C64_sabr_exact (initial : Sabr) {f T : ℝ} (hf : 0 < f) (hT : 0 < T)
    {targets : List SmileTarget} (hne : targets ≠ []) (hK : ∀ t ∈ targets, 0 < t.strike)
    (o : NmOptions) (hclip : sabrClip initial = initial)
    (hfit : sabrImpliedVols initial f T (targets.map (·.strike)) = .ok (targets.map (·.vol)))
    (hpos : ∀ t ∈ targets, 0 < t.vol) :
    ∃ fit, sabrCalibrate initial f targets T o = .ok fit ∧ fit.rmse = 0
      ∧ sabrImpliedVols fit.params f T (targets.map (·.strike)) = .ok (targets.map (·.vol)) := by
  obtain ⟨fit, vs, ws, h1, h2, h3, h4, -, -, -, -, h9, h10, -⟩ :=
    C64_sabr initial hf hT hne hK o
  rw [hclip, hfit] at h9
  have hw : ws = targets.map (·.vol) := (Outcome.ok.inj h9).symm
  have hw' : ws.map positiveOnly = targets.map fun t => some t.vol := by
    rw [hw, List.map_map]
    apply List.map_congr_left
    intro t ht
    simp only [Function.comp_apply]
    rw [positiveOnly, if_pos (hpos t ht)]
  rw [(C64_error_zero (by rw [hw']; simp)).2 hw'] at h10
  have h0 := le_antisymm h10 (fitError_nonneg _ _)
  refine ⟨fit, h1, by rw [h4, h0, zero_div, Real.sqrt_zero], ?_⟩
  have hv := (C64_error_zero (by simpa using h3)).1 h0
  rw [h2]
  congr 1
  apply List.ext_getElem (by simpa using h3)
  intro i hi hi'
  have := congrArg (·[i]?) hv
  simp only [List.getElem?_map] at this
  rw [List.getElem?_eq_getElem hi, List.getElem?_eq_getElem (by simpa using hi')] at this
  simp only [Option.map_some, Option.some.injEq, positiveOnly] at this
  split_ifs at this with hc
  · simpa using this

example : ∃ fit, sabrCalibrate ⟨1 / 10, 1, 0, 1 / 10 ^ 8⟩ 1 [⟨1, haganAtm ⟨1 / 10, 1, 0, 1 / 10 ^ 8⟩ 1 1⟩] 1
    ⟨200, 1 / 10 ^ 8, 1 / 10 ^ 8, 1 / 20⟩ = .ok fit ∧ fit.rmse = 0 := by
  obtain ⟨fit, h, h', -⟩ := C64_sabr_exact ⟨1 / 10, 1, 0, 1 / 10 ^ 8⟩ (f := 1) (T := 1) one_pos one_pos
    (targets := [⟨1, haganAtm ⟨1 / 10, 1, 0, 1 / 10 ^ 8⟩ 1 1⟩]) (by simp) (by simp)
    ⟨200, 1 / 10 ^ 8, 1 / 10 ^ 8, 1 / 20⟩
    (by norm_num [sabrClip, clipTo])
    (by simp only [List.map_cons, List.map_nil]
        rw [sabrImpliedVols, collectAll, C53_atm _ _ _ one_pos one_pos]; rfl)
    (by simp; norm_num [haganAtm])
  exact ⟨fit, h, h'⟩

/-- **C64.** The calibration panics on a forward or expiry that is not positive and without
targets. -/
theorem C64_sabr_panics (initial : Sabr) (f T : ℝ) (targets : List SmileTarget) (o : NmOptions)
    (h : f ≤ 0 ∨ T ≤ 0 ∨ targets = []) : sabrCalibrate initial f targets T o = .panic := by
  rw [sabrCalibrate, if_neg]
  rintro ⟨h1, h2, h3⟩
  rcases h with h | h | h
  · linarith
  · linarith
  · exact h3 h

example (o : NmOptions) : sabrCalibrate ⟨1 / 10, 1, 0, 1 / 2⟩ 1 [] 1 o = .panic :=
  C64_sabr_panics _ _ _ _ _ (.inr (.inr rfl))

/-! ## The Heston block -/

theorem floor_add_max (k floor : ℝ) :
    floor + max (k - floor) (1 / 10 ^ 8) = max k (floor + 1 / 10 ^ 8) := by
  rw [← max_add_add_left]; congr 1; ring

theorem max_small_pos (x : ℝ) : 0 < max x (1 / 10 ^ 8) :=
  lt_of_lt_of_le (by norm_num) (le_max_right _ _)

theorem hestonStart_spec (h : Cir) (rho floor : ℝ) : ∃ x0, hestonStart h rho floor = .ok x0
    ∧ reifyCir floor x0 = cirClip floor h
    ∧ Real.tanh (x0 4) = clipTo (-(999 / 1000)) (999 / 1000) rho := by
  obtain ⟨a, ha, ha'⟩ := invSoftplus_spec (max_small_pos (h.kappa - floor))
  obtain ⟨b, hb, hb'⟩ := invSoftplus_spec (max_small_pos h.gamma)
  obtain ⟨c, hc, hc'⟩ := invSoftplus_spec (max_small_pos h.theta)
  obtain ⟨d, hd, hd'⟩ := invSoftplus_spec (max_small_pos h.sigma0)
  refine ⟨![a, b, c, d, rhoStart rho], ?_, ?_, ?_⟩
  · rw [hestonStart, ha, ok_bind, hb, ok_bind, hc, ok_bind, hd, ok_bind]
  · simp only [reifyCir, Matrix.cons_val_zero, Matrix.cons_val_one, Matrix.cons_val]
    rw [ha', hb', hc', hd', cirClip, floor_add_max]
  · simp only [Matrix.cons_val]
    exact tanh_rhoStart rho

theorem reifyCir_above (floor : ℝ) (x : Fin 5 → ℝ) : (reifyCir floor x).Above floor :=
  ⟨by have := softplus_pos (x 0); simp only [reifyCir]; linarith, softplus_pos _, softplus_pos _,
    softplus_pos _⟩

theorem abs_tanh_lt_one (x : ℝ) : |Real.tanh x| < 1 :=
  abs_lt.2 ⟨Real.neg_one_lt_tanh _, Real.tanh_lt_one _⟩

/-! ## FX-HHW -/

theorem hhw_vols {p : HhwParams} (hk : 0 < p.heston.kappa) (T : ℝ) (targets : List SmileTarget)
    (hK : ∀ t ∈ targets, 0 < t.strike) :
    ∃ vs, hhwImpliedVols p T (targets.map (·.strike)) = .ok vs ∧ vs.length = targets.length
      ∧ ∀ i : HhwParams, i.fx0 = p.fx0 → i.rd0 = p.rd0 → i.rf0 = p.rf0 →
        hhwObjective i p T targets = .ok (fitError vs targets) := by
  obtain ⟨q, hq, -, -⟩ := hhwNew_ok hk T
  obtain ⟨vs, h1, h2, h3⟩ := cos_objective q.forwardChf (hhwForward p T) T (hhwDiscount p T) targets hK
  refine ⟨vs, ?_, h2, fun i e1 e2 e3 => ?_⟩
  · rw [hhwImpliedVols, hq, ok_bind, h1]
  · have f1 : hhwForward i T = hhwForward p T := by rw [hhwForward, hhwForward, e1, e2, e3]
    have f2 : hhwDiscount i T = hhwDiscount p T := by rw [hhwDiscount, hhwDiscount, e2]
    rw [hhwObjective, hq, ok_bind, f1, f2, h3]

/-- What the two FX-HHW calibrations have in common. -/
theorem hhw_run (initial : HhwParams) {T floor : ℝ} (hfl : 0 ≤ floor)
    {targets : List SmileTarget} (hK : ∀ t ∈ targets, 0 < t.strike) (o : NmOptions)
    (reify : (Fin 5 → ℝ) → HhwParams)
    (hr : ∀ x, floor < (reify x).heston.kappa ∧ (reify x).fx0 = initial.fx0
      ∧ (reify x).rd0 = initial.rd0 ∧ (reify x).rf0 = initial.rf0) (x0 : Fin 5 → ℝ) :
    ∃ fit vs ws x, runFit (fun x => hhwObjective initial (reify x) T targets) x0 o reify targets
        = .ok fit
      ∧ fit.params = reify x
      ∧ hhwImpliedVols fit.params T (targets.map (·.strike)) = .ok vs
      ∧ vs.length = targets.length
      ∧ fit.rmse = √(fitError vs targets / targets.length)
      ∧ hhwImpliedVols (reify x0) T (targets.map (·.strike)) = .ok ws
      ∧ fitError vs targets ≤ fitError ws targets
      ∧ fit.optimiser.iterations ≤ o.maxIter := by
  have hobj : ∀ x, ∃ vs, hhwImpliedVols (reify x) T (targets.map (·.strike)) = .ok vs
      ∧ vs.length = targets.length
      ∧ hhwObjective initial (reify x) T targets = .ok (fitError vs targets) := by
    intro x
    obtain ⟨h1, h2, h3, h4⟩ := hr x
    obtain ⟨vs, hv1, hv2, hv3⟩ := hhw_vols (p := reify x) (hfl.trans_lt h1) T targets hK
    exact ⟨vs, hv1, hv2, hv3 initial h2.symm h3.symm h4.symm⟩
  choose vs h1 h2 h3 using hobj
  obtain ⟨fit, r1, r2, r3, r4, r5, r6⟩ := runFit_spec (by norm_num) h3 x0 o reify targets
  refine ⟨fit, vs fit.optimiser.x, vs x0, fit.optimiser.x, r1, r2, ?_, h2 _, ?_, h1 _, ?_, r6⟩
  · rw [r2]; exact h1 _
  · rw [r5, r3]
  · rw [← r3]; exact r4

/-- **C64.** The FX-HHW calibration returns for every start and every option set.  Only the
variance parameters and their correlation with the rate change; they make sense and the mean
reversion stays above the floor.  The reported error is that of the smile of the result, and is not
worse than that of the start (moved into the search region). -/
theorem C64_hhw (initial : HhwParams) {T floor : ℝ} (hT : 0 < T) (hfl : 0 ≤ floor)
    {targets : List SmileTarget} (hne : targets ≠ []) (hK : ∀ t ∈ targets, 0 < t.strike)
    (o : NmOptions) :
    ∃ fit vs ws, hhwCalibrate initial targets T floor o = .ok fit
      ∧ hhwImpliedVols fit.params T (targets.map (·.strike)) = .ok vs
      ∧ vs.length = targets.length
      ∧ fit.rmse = √(fitError vs targets / targets.length)
      ∧ fit.params.heston.Above floor ∧ |fit.params.correlations.xiSigma| < 1
      ∧ fit.params = { initial with
          heston := fit.params.heston
          correlations := { initial.correlations with xiSigma := fit.params.correlations.xiSigma } }
      ∧ hhwImpliedVols (hhwClip floor initial) T (targets.map (·.strike)) = .ok ws
      ∧ fitError vs targets ≤ fitError ws targets
      ∧ fit.optimiser.iterations ≤ o.maxIter := by
  obtain ⟨x0, hx0, e1, e2⟩ := hestonStart_spec initial.heston initial.correlations.xiSigma floor
  have hr0 : hhwReify initial floor x0 = hhwClip floor initial := by
    rw [hhwReify, hhwClip, e1, e2]
  obtain ⟨fit, vs, ws, x, h1, h2, h3, h4, h5, h6, h7, h8⟩ := hhw_run initial (T := T) hfl hK o
    (hhwReify initial floor) (fun x => ⟨(reifyCir_above floor x).kappa, rfl, rfl, rfl⟩) x0
  refine ⟨fit, vs, ws, ?_, h3, h4, h5, ?_, ?_, ?_, by rw [← hr0]; exact h6, h7, h8⟩
  · rw [hhwCalibrate, if_pos ⟨hT, hne, hfl⟩, hx0, ok_bind, h1]
  · rw [h2]; exact reifyCir_above floor _
  · rw [h2]; exact abs_tanh_lt_one _
  · rw [h2]; rfl

example : ∃ fit, hhwCalibrate paperHhw [⟨9 / 10, 1 / 8⟩, ⟨1, 1 / 10⟩] 1 (1 / 2)
    ⟨200, 1 / 10 ^ 8, 1 / 10 ^ 8, 1 / 20⟩ = .ok fit ∧ 1 / 2 < fit.params.heston.kappa := by
  obtain ⟨fit, vs, ws, h, -, -, -, h5, -⟩ := C64_hhw paperHhw (T := 1) (floor := 1 / 2)
    one_pos (by norm_num) (targets := [⟨9 / 10, 1 / 8⟩, ⟨1, 1 / 10⟩]) (by simp) (by simp)
    ⟨200, 1 / 10 ^ 8, 1 / 10 ^ 8, 1 / 20⟩
  exact ⟨fit, h, h5.kappa⟩

theorem sigmoid_logit {s g : ℝ} (h0 : 0 < s) (h1 : s < 1) :
    g / (1 + Real.exp (-(Real.log (s / (1 - s))))) = g * s := by
  have h2 : 0 < 1 - s := by linarith
  rw [← Real.log_inv, Real.exp_log (by positivity), inv_div]
  field_simp
  ring

theorem boundedStart_spec (h : Cir) (rho floor : ℝ) {g : ℝ} (hg : 0 < g) :
    ∃ x0, boundedStart h rho floor g = .ok x0
    ∧ { reifyCir floor x0 with gamma := g / (1 + Real.exp (-(x0 1))) }
      = { cirClip floor h with gamma := clipTo (g / 10 ^ 4) (g * (1 - 1 / 10 ^ 4)) h.gamma }
    ∧ Real.tanh (x0 4) = clipTo (-(999 / 1000)) (999 / 1000) rho := by
  obtain ⟨a, ha, ha'⟩ := invSoftplus_spec (max_small_pos (h.kappa - floor))
  obtain ⟨c, hc, hc'⟩ := invSoftplus_spec (max_small_pos h.theta)
  obtain ⟨d, hd, hd'⟩ := invSoftplus_spec (max_small_pos h.sigma0)
  set s := max (1 / 10 ^ 4) (min (h.gamma / g) (1 - 1 / 10 ^ 4)) with hs
  have s0 : 0 < s := lt_of_lt_of_le (by norm_num) (le_max_left _ _)
  have s1 : s < 1 := max_lt (by norm_num) (lt_of_le_of_lt (min_le_right _ _) (by norm_num))
  refine ⟨![a, Real.log (s / (1 - s)), c, d, rhoStart rho], ?_, ?_, ?_⟩
  · rw [boundedStart, ha, ok_bind, hc, ok_bind, hd, ok_bind]
  · simp only [reifyCir, Matrix.cons_val_zero, Matrix.cons_val_one, Matrix.cons_val]
    rw [ha', hc', hd', cirClip, floor_add_max, sigmoid_logit s0 s1, hs, mul_max_of_nonneg _ _ hg.le,
      mul_min_of_nonneg _ _ hg.le, mul_div_cancel₀ _ hg.ne', clipTo, mul_one_div]
  · simp only [Matrix.cons_val]
    exact tanh_rhoStart rho

/-- **C64.** The bounded calibration is the same with the volatility of variance strictly between
zero and its cap. -/
theorem C64_hhw_bounded (initial : HhwParams) {T floor gammaMax : ℝ} (hT : 0 < T) (hfl : 0 ≤ floor)
    (hg : 0 < gammaMax) {targets : List SmileTarget} (hne : targets ≠ [])
    (hK : ∀ t ∈ targets, 0 < t.strike) (o : NmOptions) :
    ∃ fit vs ws, hhwCalibrateBounded initial targets T floor gammaMax o = .ok fit
      ∧ hhwImpliedVols fit.params T (targets.map (·.strike)) = .ok vs
      ∧ vs.length = targets.length
      ∧ fit.rmse = √(fitError vs targets / targets.length)
      ∧ fit.params.heston.Above floor ∧ fit.params.heston.gamma < gammaMax
      ∧ |fit.params.correlations.xiSigma| < 1
      ∧ fit.params = { initial with
          heston := fit.params.heston
          correlations := { initial.correlations with xiSigma := fit.params.correlations.xiSigma } }
      ∧ hhwImpliedVols (hhwClipBounded floor gammaMax initial) T (targets.map (·.strike)) = .ok ws
      ∧ fitError vs targets ≤ fitError ws targets
      ∧ fit.optimiser.iterations ≤ o.maxIter := by
  obtain ⟨x0, hx0, e1, e2⟩ := boundedStart_spec initial.heston initial.correlations.xiSigma floor hg
  have hr0 : hhwReifyBounded initial floor gammaMax x0 = hhwClipBounded floor gammaMax initial := by
    rw [hhwReifyBounded, hhwClipBounded, hhwClip, e1, e2]
  obtain ⟨fit, vs, ws, x, h1, h2, h3, h4, h5, h6, h7, h8⟩ := hhw_run initial (T := T) hfl hK o
    (hhwReifyBounded initial floor gammaMax)
    (fun x => ⟨(reifyCir_above floor x).kappa, rfl, rfl, rfl⟩) x0
  refine ⟨fit, vs, ws, ?_, h3, h4, h5, ?_, ?_, ?_, ?_, by rw [← hr0]; exact h6, h7, h8⟩
  · rw [hhwCalibrateBounded, if_pos ⟨hT, hne, hfl, hg⟩, hx0, ok_bind, h1]
  · rw [h2]
    exact ⟨(reifyCir_above floor x).kappa, (reifyCir_above floor x).theta,
      div_pos hg (by positivity), (reifyCir_above floor x).sigma0⟩
  · rw [h2]
    show gammaMax / (1 + Real.exp (-(x 1))) < gammaMax
    rw [div_lt_iff₀ (by positivity)]
    have := mul_pos hg (Real.exp_pos (-(x 1)))
    linarith
  · rw [h2]; exact abs_tanh_lt_one _
  · rw [h2]; rfl

example : ∃ fit, hhwCalibrateBounded paperHhw [⟨9 / 10, 1 / 8⟩, ⟨1, 1 / 10⟩] 1 (1 / 2) (2 / 5)
    ⟨200, 1 / 10 ^ 8, 1 / 10 ^ 8, 1 / 20⟩ = .ok fit ∧ fit.params.heston.gamma < 2 / 5 := by
  obtain ⟨fit, vs, ws, h, -, -, -, -, h5, -⟩ := C64_hhw_bounded paperHhw (T := 1) (floor := 1 / 2)
    (gammaMax := 2 / 5) one_pos (by norm_num) (by norm_num)
    (targets := [⟨9 / 10, 1 / 8⟩, ⟨1, 1 / 10⟩]) (by simp) (by simp)
    ⟨200, 1 / 10 ^ 8, 1 / 10 ^ 8, 1 / 20⟩
  exact ⟨fit, h, h5⟩

/-- **C64.** Parameters inside the search region are not moved. -/
theorem C64_clip {floor : ℝ} (p : HhwParams) (h1 : floor + 1 / 10 ^ 8 ≤ p.heston.kappa)
    (h2 : 1 / 10 ^ 8 ≤ p.heston.theta) (h3 : 1 / 10 ^ 8 ≤ p.heston.gamma)
    (h4 : 1 / 10 ^ 8 ≤ p.heston.sigma0) (h5 : |p.correlations.xiSigma| ≤ 999 / 1000) :
    hhwClip floor p = p := by
  obtain ⟨h5, h6⟩ := abs_le.1 h5
  rw [hhwClip, cirClip, clipTo, max_eq_left h1, max_eq_left h2, max_eq_left h3, max_eq_left h4,
    min_eq_left h6, max_eq_right h5]

example : hhwClip (1 / 10) paperHhw = paperHhw :=
  C64_clip paperHhw (by norm_num [paperHhw]) (by norm_num [paperHhw]) (by norm_num [paperHhw])
    (by norm_num [paperHhw]) (by rw [abs_le]; norm_num [paperHhw])

/-- **C64.** A start inside the search region that meets all quotes is kept. -/
theorem C64_hhw_exact (initial : HhwParams) {T floor : ℝ} (hT : 0 < T) (hfl : 0 ≤ floor)
    {targets : List SmileTarget} (hne : targets ≠ []) (hK : ∀ t ∈ targets, 0 < t.strike)
    (o : NmOptions) (hclip : hhwClip floor initial = initial)
    (hfit : hhwImpliedVols initial T (targets.map (·.strike))
      = .ok (targets.map fun t => some t.vol)) :
    ∃ fit, hhwCalibrate initial targets T floor o = .ok fit ∧ fit.rmse = 0
      ∧ hhwImpliedVols fit.params T (targets.map (·.strike))
        = .ok (targets.map fun t => some t.vol) := by
  obtain ⟨fit, vs, ws, h1, h2, h3, h4, -, -, -, h9, h10, -⟩ := C64_hhw initial hT hfl hne hK o
  rw [hclip, hfit] at h9
  have hw : ws = targets.map fun t => some t.vol := (Outcome.ok.inj h9).symm
  rw [(C64_error_zero (by rw [hw]; simp)).2 hw] at h10
  have h0 := le_antisymm h10 (fitError_nonneg _ _)
  refine ⟨fit, h1, by rw [h4, h0, zero_div, Real.sqrt_zero], ?_⟩
  rw [h2, (C64_error_zero h3).1 h0]

/-- **C64.** The characteristic function handed to the pricer is the model's, its centre is the
logarithm of the forward used for the implied volatilities, and its value at the martingale
frequency is that forward. -/
theorem C64_hhw_forward (p : HhwParams) (hk : 0 < p.heston.kappa) (hfx : 0 < p.fx0) {T : ℝ}
    (hT : 0 ≤ T) :
    ∃ q, HhwChf.new p T = .ok q ∧ (∀ u, q.evaluate u = .ok (q.forwardChf.evaluate u))
      ∧ q.forwardChf.expiry = T
      ∧ q.forwardChf.logForward = Real.log (hhwForward p T)
      ∧ q.forwardChf.evaluate 0 = 1
      ∧ q.forwardChf.evaluate (-Complex.I) = (hhwForward p T : ℂ)
      ∧ hhwForward p T = p.fx0 * Real.exp ((p.rd0 - p.rf0) * T)
      ∧ hhwDiscount p T = Real.exp (-(p.rd0 * T)) := by
  obtain ⟨q, hq, hev⟩ := evaluate_eq p hk hT (m := 64) (by norm_num)
  obtain ⟨q1, hq1, hz⟩ := C62_zero p hk hT (n := 128) (by norm_num) (by norm_num)
  obtain ⟨q2, hq2, hm⟩ := C62_martingale p hk hfx hT (n := 128) (by norm_num) (by norm_num)
  obtain ⟨q3, hq3, hp, hex⟩ := hhwNew_ok hk T
  have e1 : q = q3 := Outcome.ok.inj (hq.symm.trans hq3)
  have e2 : q = q1 := Outcome.ok.inj (hq.symm.trans hq1)
  have e3 : q = q2 := Outcome.ok.inj (hq.symm.trans hq2)
  rw [← e2] at hz
  rw [← e3] at hm
  rw [← e1] at hp hex
  have hF : hhwForward p T = p.fx0 * Real.exp ((p.rd0 - p.rf0) * T) := by
    rw [hhwForward, mul_div_assoc, ← Real.exp_sub]; congr 2; ring
  refine ⟨q, hq, fun u => ?_, hex, ?_, ?_, ?_, hF, ?_⟩
  · show _ = Outcome.ok (outcomeValue (q.evaluate u))
    rw [(hev u).2]; rfl
  · show q.params.logForward q.expiry = _
    rw [hp, hex]; rfl
  · show outcomeValue (q.evaluate 0) = 1
    rw [hz]; rfl
  · show outcomeValue (q.evaluate (-Complex.I)) = _
    rw [hm, hF]; rfl
  · rw [hhwDiscount]; congr 1; ring

example : ∃ q, HhwChf.new paperHhw 1 = .ok q ∧ q.forwardChf.evaluate 0 = 1 := by
  obtain ⟨q, h, -, -, -, h5, -⟩ := C64_hhw_forward paperHhw (by norm_num [paperHhw])
    (by norm_num [paperHhw]) (T := 1) zero_le_one
  exact ⟨q, h, h5⟩

theorem collectAll_getElem {α : Type} {f : ℝ → Outcome α} (ks : List ℝ) {vs : List α}
    (h : collectAll f ks = .ok vs) : vs.length = ks.length
      ∧ ∀ (i : ℕ) (hi : i < ks.length) (hi' : i < vs.length), f ks[i] = .ok vs[i] := by
  induction ks generalizing vs with
  | nil =>
    rw [collectAll] at h
    cases h
    exact ⟨rfl, fun i hi => absurd hi (Nat.not_lt_zero _)⟩
  | cons k ks ih =>
    rw [collectAll] at h
    obtain ⟨v, hv, h⟩ := bind_eq_ok.1 h
    obtain ⟨ws, hw, h⟩ := bind_eq_ok.1 h
    cases h
    obtain ⟨h1, h2⟩ := ih hw
    refine ⟨by simp [h1], fun i hi hi' => ?_⟩
    cases i with
    | zero => exact hv
    | succ i => exact h2 i (by simpa using hi) (by simpa using hi')

theorem cosVol_some {chf : ForwardChf} {fwd T D k v : ℝ} (hF : 0 < fwd)
    (h : cosVol chf fwd T D k = .ok (some v)) :
    ∃ c, (CosPricer.new chf).call k D = .ok c ∧ 1 / 10 ^ 8 ≤ v ∧ v ≤ 5
      ∧ ∃ x, 1 / 10 ^ 8 ≤ x ∧ x ≤ 5 ∧ |blackPrice true fwd k x T D - c| ≤ 1 / 10 ^ 8
        ∧ |v - x| < 1 / 10 ^ 12 := by
  rw [cosVol] at h
  obtain ⟨c, hc, h⟩ := bind_eq_ok.1 h
  have hk : 0 < k := by
    by_contra hk
    rw [CosPricer.call, CosPricer.priceEuropean, if_neg hk] at hc
    cases hc
  obtain ⟨h1, h2, h3⟩ := C47_some true hF hk (by norm_num) (Outcome.ok.inj h)
  refine ⟨c, hc, h1, h2, ?_⟩
  rcases h3 with h3 | h3
  · exact ⟨v, h1, h2, h3.le, by rw [sub_self, abs_zero]; norm_num⟩
  · exact h3

/-- **C64.** A model volatility reprices the model's call: it is within `1e-12` of a volatility
whose Black price is within `1e-8` of `price_call`. -/
theorem C64_hhw_reprice {p : HhwParams} (hfx : 0 < p.fx0) {T : ℝ} {ks : List ℝ}
    {vs : List (Option ℝ)} (h : hhwImpliedVols p T ks = .ok vs) :
    vs.length = ks.length ∧ ∀ (i : ℕ) (hi : i < ks.length) (v : ℝ), vs[i]? = some (some v) →
      ∃ c, hhwPriceCall p T ks[i] = .ok c ∧ 1 / 10 ^ 8 ≤ v ∧ v ≤ 5
        ∧ ∃ x, 1 / 10 ^ 8 ≤ x ∧ x ≤ 5
          ∧ |blackPrice true (hhwForward p T) ks[i] x T (hhwDiscount p T) - c| ≤ 1 / 10 ^ 8
          ∧ |v - x| < 1 / 10 ^ 12 := by
  rw [hhwImpliedVols] at h
  obtain ⟨q, hq, h⟩ := bind_eq_ok.1 h
  obtain ⟨h1, h2⟩ := collectAll_getElem ks h
  refine ⟨h1, fun i hi v hv => ?_⟩
  have hi' : i < vs.length := by omega
  rw [List.getElem?_eq_getElem hi'] at hv
  have := h2 i hi hi'
  rw [Option.some.inj hv] at this
  obtain ⟨c, hc, rest⟩ := cosVol_some (by rw [hhwForward]; positivity) this
  exact ⟨c, by rw [hhwPriceCall, hq, ok_bind, hc], rest⟩

example {vs : List (Option ℝ)} (h : hhwImpliedVols paperHhw 1 [9 / 10, 1] = .ok vs) : vs.length = 2 :=
  (C64_hhw_reprice (by norm_num [paperHhw]) h).1

/-! ## An exact start -/

/-- Parameters of the example below: a small unit of account. -/
noncomputable def smallHhw : HhwParams := { paperHhw with fx0 := 1 / 10 ^ 9, rd0 := 0, rf0 := 0 }

/-- At the upper end of the range of the pricer the call is worth nothing. -/
theorem call_at_hi (p : CosPricer) (D : ℝ) : p.call (Real.exp p.hi) D = .ok 0 := by
  rw [CosPricer.call, CosPricer.priceEuropean, if_pos (Real.exp_pos _)]
  dsimp only
  rw [if_pos rfl, if_pos rfl, Real.log_exp]
  have h : ∀ k, p.term (Real.exp p.hi) p.hi p.hi true k = 0 := by
    intro k
    have h1 : chiK k p.lo p.hi p.hi p.hi = 0 := by simp [chiK]
    have h2 : psiK k p.lo p.hi p.hi p.hi = 0 := by simp [psiK]
    rw [CosPricer.term]
    rw [h1, h2]; simp
  have : ∀ l : List ℕ, l.foldl (fun t k => t + p.term (Real.exp p.hi) p.hi p.hi true k) 0 = 0 := by
    intro l
    induction l with
    | nil => rfl
    | cons k ks ih => rw [List.foldl_cons, h, add_zero, ih]
  rw [this, mul_zero]

theorem smallHhw_quote : ∃ K v, 0 < K ∧ hhwImpliedVols smallHhw 1 [K] = .ok [some v] := by
  have hk : 0 < smallHhw.heston.kappa := by norm_num [smallHhw, paperHhw]
  obtain ⟨q, hq, -, -⟩ := hhwNew_ok hk 1
  set K := Real.exp (CosPricer.new q.forwardChf).hi with hK
  have hKpos : 0 < K := Real.exp_pos _
  have hF : hhwForward smallHhw 1 = 1 / 10 ^ 9 := by
    norm_num [hhwForward, smallHhw]
  have hD : hhwDiscount smallHhw 1 = 1 := by norm_num [hhwDiscount, smallHhw]
  have hne : bsImpliedVol 0 (1 / 10 ^ 9) K 1 1 true ≠ none := by
    rw [C47_default, Ne, C47_none]
    have e : ∀ s : ℝ, 0 < s → 0 ≤ blackPrice true (1 / 10 ^ 9) K s 1 1
        ∧ blackPrice true (1 / 10 ^ 9) K s 1 1 < 1 / 10 ^ 9 := by
      intro s hs
      unfold blackPrice
      rw [if_pos rfl, bsCall_core hs one_pos, one_mul]
      exact ⟨blackCore_nonneg (by norm_num) hKpos (by positivity), blackCore_upper (by norm_num) hKpos⟩
    have e1 := (e (1 / 10 ^ 8) (by norm_num)).2
    have e2 := (e 5 (by norm_num)).1
    rintro (h | h)
    · norm_num at e1 h; linarith
    · norm_num at h; linarith
  obtain ⟨v, hv⟩ := Option.ne_none_iff_exists'.1 hne
  refine ⟨K, v, hKpos, ?_⟩
  rw [hhwImpliedVols, hq, ok_bind, cosVols, collectAll, cosVol, call_at_hi, ok_bind, ok_bind, hF, hD,
    hv]
  rfl

example (o : NmOptions) : ∃ t fit, hhwCalibrate smallHhw [t] 1 (1 / 10) o = .ok fit
    ∧ fit.rmse = 0 := by
  obtain ⟨K, v, hK, h⟩ := smallHhw_quote
  obtain ⟨fit, h1, h2, -⟩ := C64_hhw_exact smallHhw one_pos (floor := 1 / 10) (by norm_num)
    (targets := [⟨K, v⟩]) (by simp) (by simpa using hK) o
    (C64_clip smallHhw (by norm_num [smallHhw, paperHhw]) (by norm_num [smallHhw, paperHhw])
      (by norm_num [smallHhw, paperHhw]) (by norm_num [smallHhw, paperHhw])
      (by rw [abs_le]; norm_num [smallHhw, paperHhw])) h
  exact ⟨⟨K, v⟩, fit, h1, h2⟩

/-- **C64.** Both calibrations panic on an expiry that is not positive, without targets and with a
negative floor. -/
theorem C64_hhw_panics (initial : HhwParams) (targets : List SmileTarget) (T floor g : ℝ)
    (o : NmOptions) (h : T ≤ 0 ∨ targets = [] ∨ floor < 0) :
    hhwCalibrate initial targets T floor o = .panic
      ∧ hhwCalibrateBounded initial targets T floor g o = .panic := by
  have key : ¬ (0 < T ∧ targets ≠ [] ∧ 0 ≤ floor) := by
    rintro ⟨h1, h2, h3⟩
    rcases h with h | h | h
    · linarith
    · exact h2 h
    · linarith
  rw [hhwCalibrate, if_neg key, hhwCalibrateBounded, if_neg (fun hc => key ⟨hc.1, hc.2.1, hc.2.2.1⟩)]
  exact ⟨rfl, rfl⟩

example (o : NmOptions) : hhwCalibrate paperHhw [] 1 0 o = .panic :=
  (C64_hhw_panics _ _ _ _ 1 _ (.inr (.inl rfl))).1

/-! ## FX-HLMM -/

theorem liborProduct_eq {q : LiborTenor} (h : q.Ordered) : liborProduct q = .ok (lastBond q) := by
  unfold liborProduct
  have H : ∀ (l : List ℕ) (acc : ℝ), (∀ k ∈ l, 1 ≤ k ∧ k ≤ q.n) →
      l.foldlM (fun (acc : ℝ) (k : ℕ) => do
        let tau ← q.tau k
        let l ← at1 q.libors k
        Outcome.ok (acc / (1 + tau * l))) acc
        = .ok (acc * (l.map fun k => (1 + (q.T k - q.T (k - 1)) * q.L k)⁻¹).prod) := by
    intro l
    induction l with
    | nil => intro acc _; rw [List.map_nil, List.prod_nil, mul_one]; rfl
    | cons k ks ih =>
      intro acc hk
      obtain ⟨h1, h2⟩ := hk k List.mem_cons_self
      rw [List.foldlM_cons, LiborTenor.tau_ok h h1 h2, ok_bind, at1_ok _ k h1 h2 0, ok_bind, ok_bind,
        ih _ fun j hj => hk j (List.mem_cons_of_mem _ hj), List.map_cons, List.prod_cons,
        div_eq_mul_inv, mul_assoc]
      rfl
  rw [H _ 1 fun k hk => by rw [List.mem_range'_1] at hk; omega, one_mul, lastBond]
  congr 1

/-- **C64.** The discount factor is the bond maturing at the last tenor date, extrapolated with the
last Libor after that date. -/
theorem C64_hlmm_discount {p : HlmmParams} (h : p.tenor.Ordered) (hn : 0 < p.tenor.n) (T : ℝ) :
    (T ≤ p.tenor.T p.tenor.n + 1 / 10 ^ 12 → hlmmDiscount p T = .ok (lastBond p.tenor))
    ∧ (p.tenor.T p.tenor.n + 1 / 10 ^ 12 < T → hlmmDiscount p T
        = .ok (lastBond p.tenor * Real.exp (-p.tenor.L p.tenor.n * (T - p.tenor.T p.tenor.n)))) := by
  have hl := h.1
  have e : unwrap p.tenor.dates[p.tenor.n]? = .ok (p.tenor.T p.tenor.n) :=
    unwrap_getD _ _ (by omega) 0
  constructor
  · intro hT
    rw [hlmmDiscount, liborProduct_eq h, ok_bind, e, ok_bind, if_neg (not_lt.2 hT)]
  · intro hT
    rw [hlmmDiscount, liborProduct_eq h, ok_bind, e, ok_bind, if_pos hT,
      at1_ok p.tenor.libors p.tenor.n hn le_rfl 0, ok_bind]
    rfl

example : hlmmDiscount exHlmm 2 = .ok (lastBond exTenor) :=
  (C64_hlmm_discount (p := exHlmm) exTenor_ordered (by decide) 2).1
    (by norm_num [exHlmm, exTenor, LiborTenor.T, LiborTenor.n])

theorem hlmmDiscount_ok {p : HlmmParams} (h : p.tenor.Ordered) (hn : 0 < p.tenor.n) (T : ℝ) :
    ∃ D, hlmmDiscount p T = .ok D := by
  rcases le_or_gt T (p.tenor.T p.tenor.n + 1 / 10 ^ 12) with hT | hT
  · exact ⟨_, (C64_hlmm_discount h hn T).1 hT⟩
  · exact ⟨_, (C64_hlmm_discount h hn T).2 hT⟩

theorem lastBond_ex : lastBond exTenor = (20 / 21) ^ 2 := by
  have : Finset.Icc 1 exTenor.n = {1, 2} := by decide
  rw [lastBond, this, Finset.prod_pair (by norm_num)]
  norm_num [exTenor, LiborTenor.T, LiborTenor.L]

/-- **C64.** Before the last tenor date `price_call` discounts over the whole tenor: a call at one
year on a two-year tenor is discounted with the two-year bond. -/
theorem C64_hlmm_discount_false : ∃ D, hlmmDiscount exHlmm 1 = .ok D
    ∧ D ≠ (1 + (exTenor.T 1 - exTenor.T 0) * exTenor.L 1)⁻¹
    ∧ ∃ q, HlmmChf.new exHlmm 1 = .ok q ∧ ∀ K, 0 < K → ∃ c, (CosPricer.new q.forwardChf).call K 1 = .ok c
      ∧ hlmmPriceCall exHlmm 1 K = .ok ((20 / 21) ^ 2 * c) := by
  have hd : hlmmDiscount exHlmm 1 = .ok ((20 / 21) ^ 2) := by
    rw [← lastBond_ex]
    exact (C64_hlmm_discount (p := exHlmm) exTenor_ordered (by decide) 1).1
      (by norm_num [exHlmm, exTenor, LiborTenor.T, LiborTenor.n])
  obtain ⟨segs, hq, -, -⟩ := withSimpsonSteps_segments (p := exHlmm) exTenor_ordered exHlmm_valid
    (by decide) (.inl (by simp [exHlmm, exTenor, LiborTenor.T])) (T := 1) one_pos (m := 16)
    (by norm_num)
  refine ⟨_, hd, by norm_num [exTenor, LiborTenor.T, LiborTenor.L], _, hq, fun K hK => ?_⟩
  have hq' : HlmmChf.new exHlmm 1 = .ok ⟨exHlmm, 1, segs, 2 * 16⟩ := hq
  rw [hlmmPriceCall, hq', ok_bind, hd, ok_bind, CosPricer.call, CosPricer.call,
    CosPricer.priceEuropean, CosPricer.priceEuropean, if_pos hK, if_pos hK]
  exact ⟨_, rfl, by rw [one_mul]⟩

theorem hlmm_valid_reify {p : HlmmParams} (floor : ℝ) (x : Fin 5 → ℝ)
    (hv : p.Valid) : (hlmmReify p floor x).Valid := by
  obtain ⟨h1, h2, h3⟩ := hv
  refine ⟨h1, h2, ?_⟩
  exact ⟨by
    have := abs_tanh_lt_one (x 4)
    show |Real.tanh (x 4)| ≤ _
    linarith, h3.2⟩

/-- A calibration whose objective is that of the characteristic function. -/
theorem hlmm_run (initial : HlmmParams) {T floor : ℝ} (hT : 0 < T) (hfl : 0 ≤ floor)
    (h : initial.tenor.Ordered) (hn : 0 < initial.tenor.n)
    (h0 : initial.tenor.T 0 = 0 ∨ 1 / 10 ^ 12 < initial.tenor.T 0) (hv : initial.Valid)
    {targets : List SmileTarget} (hne : targets ≠ []) (hK : ∀ t ∈ targets, 0 < t.strike)
    (o : NmOptions) :
    ∃ fit vs ws x, hlmmCalibrate initial targets T floor o = .ok fit
      ∧ fit.params = hlmmReify initial floor x
      ∧ hlmmImpliedVols fit.params T (targets.map (·.strike)) = .ok vs
      ∧ vs.length = targets.length
      ∧ fit.rmse = √(fitError vs targets / targets.length)
      ∧ hlmmImpliedVols (hlmmClip floor initial) T (targets.map (·.strike)) = .ok ws
      ∧ fitError vs targets ≤ fitError ws targets
      ∧ fit.optimiser.iterations ≤ o.maxIter := by
  obtain ⟨x0, hx0, e1, e2⟩ := hestonStart_spec initial.heston initial.correlations.xiSigma floor
  have hr0 : hlmmReify initial floor x0 = hlmmClip floor initial := by
    rw [hlmmReify, hlmmClip, e1, e2]
  obtain ⟨D, hD⟩ := hlmmDiscount_ok h hn T
  have hobj : ∀ x, ∃ vs, hlmmImpliedVols (hlmmReify initial floor x) T (targets.map (·.strike)) = .ok vs
      ∧ vs.length = targets.length
      ∧ hlmmObjective (hlmmForward initial T) D (hlmmReify initial floor x) T targets
        = .ok (fitError vs targets) := by
    intro x
    have hvx := hlmm_valid_reify floor x hv
    obtain ⟨segs, hq, -, -⟩ := withSimpsonSteps_segments (p := hlmmReify initial floor x) h hvx hn h0
      hT (m := 16) (by norm_num)
    have hq' : HlmmChf.new (hlmmReify initial floor x) T
        = .ok ⟨hlmmReify initial floor x, T, segs, 2 * 16⟩ := hq
    have hD' : hlmmDiscount (hlmmReify initial floor x) T = .ok D := hD
    obtain ⟨vs, c1, c2, c3⟩ := cos_objective
      (HlmmChf.forwardChf ⟨hlmmReify initial floor x, T, segs, 2 * 16⟩) (hlmmForward initial T) T D
      targets hK
    refine ⟨vs, ?_, c2, ?_⟩
    · rw [hlmmImpliedVols, hq', ok_bind, hD', ok_bind]; exact c1
    · rw [hlmmObjective, if_pos hvx, hq', ok_bind, c3]
  choose vs h1 h2 h3 using hobj
  obtain ⟨fit, r1, r2, r3, r4, r5, r6⟩ := runFit_spec (by norm_num) h3 x0 o (hlmmReify initial floor)
    targets
  refine ⟨fit, vs fit.optimiser.x, vs x0, fit.optimiser.x, ?_, r2, ?_, h2 _, ?_, ?_, ?_, r6⟩
  · rw [hlmmCalibrate, if_pos ⟨hT, hne, hfl⟩, hD, ok_bind, hx0, ok_bind, r1]
  · rw [r2]; exact h1 _
  · rw [r5, r3]
  · rw [← hr0]; exact h1 _
  · rw [← r3]; exact r4

/-- **C64.** The FX-HLMM calibration, for parameters that pass validation: as for FX-HHW. -/
theorem C64_hlmm (initial : HlmmParams) {T floor : ℝ} (hT : 0 < T) (hfl : 0 ≤ floor)
    (h : initial.tenor.Ordered) (hn : 0 < initial.tenor.n)
    (h0 : initial.tenor.T 0 = 0 ∨ 1 / 10 ^ 12 < initial.tenor.T 0) (hv : initial.Valid)
    {targets : List SmileTarget} (hne : targets ≠ []) (hK : ∀ t ∈ targets, 0 < t.strike)
    (o : NmOptions) :
    ∃ fit vs ws, hlmmCalibrate initial targets T floor o = .ok fit
      ∧ hlmmImpliedVols fit.params T (targets.map (·.strike)) = .ok vs
      ∧ vs.length = targets.length
      ∧ fit.rmse = √(fitError vs targets / targets.length)
      ∧ fit.params.Valid
      ∧ fit.params.heston.Above floor ∧ |fit.params.correlations.xiSigma| < 1
      ∧ fit.params = { initial with
          heston := fit.params.heston
          correlations := { initial.correlations with xiSigma := fit.params.correlations.xiSigma } }
      ∧ hlmmImpliedVols (hlmmClip floor initial) T (targets.map (·.strike)) = .ok ws
      ∧ fitError vs targets ≤ fitError ws targets
      ∧ fit.optimiser.iterations ≤ o.maxIter := by
  obtain ⟨fit, vs, ws, x, r1, r2, r3, r4, r5, r6, r7, r8⟩ := hlmm_run initial hT hfl h hn h0 hv hne hK o
  refine ⟨fit, vs, ws, r1, r3, r4, r5, ?_, ?_, ?_, ?_, r6, r7, r8⟩
  · rw [r2]; exact hlmm_valid_reify floor x hv
  · rw [r2]; exact reifyCir_above floor x
  · rw [r2]; exact abs_tanh_lt_one _
  · rw [r2]; rfl

example (o : NmOptions) : ∃ fit, hlmmCalibrate exHlmm [⟨13 / 10, 1 / 8⟩, ⟨7 / 5, 1 / 10⟩] 2 (1 / 4) o
    = .ok fit ∧ fit.params.Valid := by
  obtain ⟨fit, vs, ws, h, -, -, -, h5, -⟩ := C64_hlmm exHlmm (T := 2) (floor := 1 / 4) (by norm_num)
    (by norm_num) exTenor_ordered (by decide) (.inl (by simp [exHlmm, exTenor, LiborTenor.T]))
    exHlmm_valid (targets := [⟨13 / 10, 1 / 8⟩, ⟨7 / 5, 1 / 10⟩]) (by simp) (by simp) o
  exact ⟨fit, h, h5⟩

/-- **C64.** Parameters that do not pass validation for another reason than the correlation of rate
and variance are not reported: the calibration returns with the penalty as its error. -/
theorem C64_hlmm_invalid (initial : HlmmParams) {T floor : ℝ} (hT : 0 < T) (hfl : 0 ≤ floor)
    (h : initial.tenor.Ordered) (hn : 0 < initial.tenor.n)
    (hr : |initial.correlations.xiSigma| ≤ 1) (hv : ¬ initial.Valid)
    {targets : List SmileTarget} (hne : targets ≠ []) (o : NmOptions) :
    ∃ fit, hlmmCalibrate initial targets T floor o = .ok fit
      ∧ fit.rmse = √(10 ^ 6 / targets.length) ∧ ¬ fit.params.Valid := by
  obtain ⟨x0, hx0, -, -⟩ := hestonStart_spec initial.heston initial.correlations.xiSigma floor
  obtain ⟨D, hD⟩ := hlmmDiscount_ok h hn T
  have hvx : ∀ x, ¬ (hlmmReify initial floor x).Valid := by
    rintro x ⟨h1, h2, h3⟩
    exact hv ⟨h1, h2, by linarith, h3.2⟩
  have hobj : ∀ x, hlmmObjective (hlmmForward initial T) D (hlmmReify initial floor x) T targets
      = .ok 1000000 := fun x => by rw [hlmmObjective, if_neg (hvx x)]
  obtain ⟨fit, r1, r2, r3, -, r5, -⟩ := runFit_spec (e := fun _ => 1000000) (by norm_num) hobj x0 o
    (hlmmReify initial floor) targets
  refine ⟨fit, ?_, ?_, ?_⟩
  · rw [hlmmCalibrate, if_pos ⟨hT, hne, hfl⟩, hD, ok_bind, hx0, ok_bind, r1]
  · rw [r5, r3]; norm_num
  · rw [r2]; exact hvx _

example (o : NmOptions) : ∃ fit, hlmmCalibrate { exHlmm with domestic := { exLmm with lambda := 0 } }
    [⟨13 / 10, 1 / 8⟩] 2 (1 / 4) o = .ok fit ∧ fit.rmse = √(10 ^ 6 / 1) := by
  obtain ⟨fit, h1, h2, -⟩ := C64_hlmm_invalid
    ({ exHlmm with domestic := { exLmm with lambda := 0 } } : HlmmParams) (T := 2) (floor := 1 / 4)
    (by norm_num) (by norm_num) exTenor_ordered (by decide)
    (by show |(-2 / 5 : ℝ)| ≤ 1; rw [abs_le]; norm_num)
    (fun h => lt_irrefl (0 : ℝ) h.1.2.2.2.2.2.1) (targets := [⟨13 / 10, 1 / 8⟩]) (by simp) o
  exact ⟨fit, h1, by simpa using h2⟩

/-- **C64.** The FX-HLMM calibration panics on an expiry that is not positive, without targets and
with a negative floor. -/
theorem C64_hlmm_panics (initial : HlmmParams) (targets : List SmileTarget) (T floor : ℝ)
    (o : NmOptions) (h : T ≤ 0 ∨ targets = [] ∨ floor < 0) :
    hlmmCalibrate initial targets T floor o = .panic := by
  rw [hlmmCalibrate, if_neg]
  rintro ⟨h1, h2, h3⟩
  rcases h with h | h | h
  · linarith
  · exact h2 h
  · linarith

example (o : NmOptions) : hlmmCalibrate exHlmm [⟨1, 1 / 10⟩] 1 (-1) o = .panic :=
  C64_hlmm_panics _ _ _ _ _ (.inr (.inr (by norm_num)))

/-- **C64.** A model volatility of FX-HLMM reprices the model's call. -/
theorem C64_hlmm_reprice {p : HlmmParams} (hfx : 0 < p.fx0) {T D : ℝ} (hD : hlmmDiscount p T = .ok D)
    {ks : List ℝ} {vs : List (Option ℝ)} (h : hlmmImpliedVols p T ks = .ok vs) :
    vs.length = ks.length ∧ ∀ (i : ℕ) (hi : i < ks.length) (v : ℝ), vs[i]? = some (some v) →
      ∃ c, hlmmPriceCall p T ks[i] = .ok c ∧ 1 / 10 ^ 8 ≤ v ∧ v ≤ 5
        ∧ ∃ x, 1 / 10 ^ 8 ≤ x ∧ x ≤ 5 ∧ |blackPrice true p.fx0 ks[i] x T D - c| ≤ 1 / 10 ^ 8
          ∧ |v - x| < 1 / 10 ^ 12 := by
  rw [hlmmImpliedVols] at h
  obtain ⟨q, hq, h⟩ := bind_eq_ok.1 h
  rw [hD, ok_bind] at h
  obtain ⟨h1, h2⟩ := collectAll_getElem ks h
  refine ⟨h1, fun i hi v hv => ?_⟩
  have hi' : i < vs.length := by omega
  rw [List.getElem?_eq_getElem hi'] at hv
  have := h2 i hi hi'
  rw [Option.some.inj hv] at this
  obtain ⟨c, hc, rest⟩ := cosVol_some hfx this
  exact ⟨c, by rw [hlmmPriceCall, hq, ok_bind, hD, ok_bind, hc], rest⟩

example {vs : List (Option ℝ)} (h : hlmmImpliedVols exHlmm 2 [13 / 10, 7 / 5] = .ok vs) :
    vs.length = 2 := by
  obtain ⟨D, hD⟩ := hlmmDiscount_ok (p := exHlmm) exTenor_ordered (by decide) 2
  exact (C64_hlmm_reprice (by norm_num [exHlmm]) hD h).1

/-! ## The market smile -/

/-- **C64.** Targets built from two grids pair the grids; grids of different length panic. -/
theorem C64_grid (ks vs : List ℝ) :
    (ks.length = vs.length → ∃ ts, targetsFromGrid ks vs = .ok ts ∧ ts.map (·.strike) = ks
      ∧ ts.map (·.vol) = vs) ∧ (ks.length ≠ vs.length → targetsFromGrid ks vs = .panic) := by
  constructor
  · intro h
    refine ⟨_, by rw [targetsFromGrid, if_pos h], ?_, ?_⟩
    · rw [List.map_map]; exact List.map_fst_zip h.le
    · rw [List.map_map]; exact List.map_snd_zip h.ge
  · intro h; rw [targetsFromGrid, if_neg h]

example : ∃ ts, targetsFromGrid [1, 2] [1 / 10, 1 / 8] = .ok ts ∧ ts.map (·.strike) = [1, 2] := by
  obtain ⟨ts, h1, h2, -⟩ := (C64_grid [1, 2] [1 / 10, 1 / 8]).1 rfl
  exact ⟨ts, h1, h2⟩

/-- **C64.** A strip taken from a surface has the given strikes and forward, the expiry in years of
365 days, and at each strike the volatility of the surface; its targets are those pairs. -/
theorem C64_strip {ks : KeySearch} {s : FxVolSurface} {valuation expiry : Int} {f : ℝ}
    {strikes : List ℝ} {m : SmileStrip} (h : smileStrip ks s valuation expiry f strikes = .ok m) :
    strikes ≠ [] ∧ m.strikes = strikes ∧ m.forward = f
      ∧ m.expiryYf = ((expiry - valuation : Int) : ℝ) / 365
      ∧ m.targets.map (·.strike) = strikes ∧ m.targets.map (·.vol) = m.vols
      ∧ m.pillar = ⟨m.expiryYf, f, strikes, m.vols⟩
      ∧ ∀ t ∈ m.targets, s.volatility ks expiry t.strike = .ok t.vol := by
  rw [smileStrip] at h
  by_cases hne : strikes = []
  · rw [if_pos hne] at h; cases h
  rw [if_neg hne] at h
  obtain ⟨vols, hv, h⟩ := bind_eq_ok.1 h
  cases h
  obtain ⟨h1, h2⟩ := collectAll_getElem strikes hv
  refine ⟨hne, rfl, rfl, rfl, ?_, ?_, rfl, ?_⟩
  · rw [SmileStrip.targets, List.map_map]; exact List.map_fst_zip h1.ge
  · rw [SmileStrip.targets, List.map_map]; exact List.map_snd_zip h1.le
  · intro t ht
    rw [SmileStrip.targets, List.mem_map] at ht
    obtain ⟨⟨a, b⟩, hab, rfl⟩ := ht
    obtain ⟨i, hi, he⟩ := List.mem_iff_getElem.1 hab
    rw [List.getElem_zip] at he
    have hi1 : i < strikes.length := by simp at hi; omega
    have hi2 : i < vols.length := by simp at hi; omega
    have := h2 i hi1 hi2
    cases he
    exact this

/-- **C64.** A surface gives a strip at every expiry after its valuation date and all positive
strikes; without strikes the code panics, and a strike that is not positive is an error. -/
theorem C64_strip_total (ks : KeySearch) {s : FxVolSurface} {val valuation expiry : Int}
    {ps : List VolPillar} (h : FxVolSurface.new val ps = .ok s) (f : ℝ) (strikes : List ℝ) :
    (strikes ≠ [] → val < expiry → (∀ k ∈ strikes, 0 < k) →
      ∃ m, smileStrip ks s valuation expiry f strikes = .ok m)
    ∧ smileStrip ks s valuation expiry f [] = .panic
    ∧ ∀ k, k ≤ 0 → smileStrip ks s valuation expiry f (k :: strikes) = .fail .invalidData := by
  refine ⟨fun hne he hk => ?_, by rw [smileStrip, if_pos rfl], fun k hk => ?_⟩
  · have h' : ∀ k ∈ strikes, s.volatility ks expiry k = .ok
        (match s.volatility ks expiry k with
          | .ok v => v
          | _ => 0) := by
      intro k hm
      obtain ⟨v, hv⟩ := C35_answered ks h (hk k hm) he
      rw [hv]
    rw [smileStrip, if_neg hne, mapO_ok (g := fun k => match s.volatility ks expiry k with
          | .ok v => v
          | _ => 0) strikes h', ok_bind]
    exact ⟨_, rfl⟩
  · rw [smileStrip, if_neg (by simp), collectAll, C35_strike_error ks s expiry hk, fail_bind,
      fail_bind]

example : ∃ s m, FxVolSurface.new 0 [samplePillar 365, samplePillar 100] = .ok s
    ∧ smileStrip KeySearch.std s 0 200 (11 / 10) [1, 6 / 5] = .ok m
    ∧ m.targets.map (·.strike) = [1, 6 / 5] := by
  obtain ⟨s, lo, hi, h, -, -, -⟩ := sampleSurface
  obtain ⟨m, hm⟩ := (C64_strip_total KeySearch.std (valuation := 0) (expiry := 200) h (11 / 10)
    [1, 6 / 5]).1 (by simp) (by norm_num) (by simp)
  exact ⟨s, m, h, hm, (C64_strip hm).2.2.2.2.1⟩

/-- **C64.** The strip calibrators fit exactly the pairs of the strip.  The forward of the strip
enters the SABR fit; the FX-HHW and FX-HLMM fits use the forward of their own parameters. -/
theorem C64_wrappers (m : SmileStrip) (o : NmOptions) :
    (∀ p fit, sabrCalibrate p m.forward m.targets m.expiryYf o = .ok fit →
      ∃ r, sabrSmileCalibrate p m o = .ok r ∧ r.params = fit.params ∧ r.rmse = fit.rmse
        ∧ r.optimiser = some fit.optimiser)
    ∧ (∀ p floor fit, hhwCalibrate p m.targets m.expiryYf floor o = .ok fit →
      ∃ r, hhwSmileCalibrate p floor none m o = .ok r ∧ r.params = fit.params ∧ r.rmse = fit.rmse
        ∧ r.optimiser = some fit.optimiser)
    ∧ (∀ p floor g fit, hhwCalibrateBounded p m.targets m.expiryYf floor g o = .ok fit →
      ∃ r, hhwSmileCalibrate p floor (some g) m o = .ok r ∧ r.params = fit.params
        ∧ r.rmse = fit.rmse ∧ r.optimiser = some fit.optimiser)
    ∧ (∀ p floor fit, hlmmCalibrate p m.targets m.expiryYf floor o = .ok fit →
      ∃ r, hlmmSmileCalibrate p floor m o = .ok r ∧ r.params = fit.params ∧ r.rmse = fit.rmse
        ∧ r.optimiser = some fit.optimiser) := by
  refine ⟨fun p fit h => ?_, fun p floor fit h => ?_, fun p floor g fit h => ?_,
    fun p floor fit h => ?_⟩
  · exact ⟨fit.report, by rw [sabrSmileCalibrate, h, ok_bind], rfl, rfl, rfl⟩
  · exact ⟨fit.report, by rw [hhwSmileCalibrate]; dsimp only; rw [h, ok_bind], rfl, rfl, rfl⟩
  · exact ⟨fit.report, by rw [hhwSmileCalibrate]; dsimp only; rw [h, ok_bind], rfl, rfl, rfl⟩
  · exact ⟨fit.report, by rw [hlmmSmileCalibrate, h, ok_bind], rfl, rfl, rfl⟩

/-- **C64.** Two strips that differ in the forward only give the same FX-HHW and FX-HLMM fits. -/
theorem C64_forward_unused (m : SmileStrip) (f : ℝ) (o : NmOptions) :
    (∀ p floor g, hhwSmileCalibrate p floor g { m with forward := f } o
      = hhwSmileCalibrate p floor g m o)
    ∧ ∀ p floor, hlmmSmileCalibrate p floor { m with forward := f } o
      = hlmmSmileCalibrate p floor m o := ⟨fun _ _ _ => rfl, fun _ _ => rfl⟩

example (o : NmOptions) : ∃ r, sabrSmileCalibrate ⟨1 / 10, 1, 0, 1 / 2⟩ ⟨1, 1, [9 / 10, 1], [1 / 8, 1 / 10]⟩ o
    = .ok r := by
  obtain ⟨fit, vs, ws, h, -⟩ := C64_sabr ⟨1 / 10, 1, 0, 1 / 2⟩ (f := 1) (T := 1)
    one_pos one_pos (targets := [⟨9 / 10, 1 / 8⟩, ⟨1, 1 / 10⟩]) (by simp) (by simp) o
  obtain ⟨r, h, -⟩ := (C64_wrappers ⟨1, 1, [9 / 10, 1], [1 / 8, 1 / 10]⟩ o).1 _ fit h
  exact ⟨r, h⟩

/-- **C64.** From a surface to fitted SABR parameters: for every expiry after the valuation date and
all positive strikes, the fit exists and is admissible. -/
theorem C64_surface_to_sabr (ks : KeySearch) {s : FxVolSurface} {val expiry : Int}
    {ps : List VolPillar} (h : FxVolSurface.new val ps = .ok s) (he : val < expiry) {f : ℝ}
    (hf : 0 < f) {strikes : List ℝ} (hne : strikes ≠ []) (hk : ∀ k ∈ strikes, 0 < k)
    (initial : Sabr) (o : NmOptions) :
    ∃ m r, smileStrip ks s val expiry f strikes = .ok m ∧ sabrSmileCalibrate initial m o = .ok r
      ∧ 0 < r.params.alpha ∧ r.params.beta = initial.beta ∧ |r.params.rho| < 1
      ∧ 0 < r.params.nu := by
  obtain ⟨m, hm⟩ := (C64_strip_total ks (valuation := val) h f strikes).1 hne he hk
  obtain ⟨-, h2, h3, h4, h5, -⟩ := C64_strip hm
  have hT : 0 < m.expiryYf := by
    rw [h4]
    have : (0 : ℝ) < ((expiry - val : Int) : ℝ) := by exact_mod_cast (by omega : 0 < expiry - val)
    positivity
  have hne' : m.targets ≠ [] := fun hc => by rw [hc] at h5; exact hne h5.symm
  obtain ⟨fit, vs, ws, r1, -, -, -, r5, r6, r7, r8, -⟩ := C64_sabr initial (f := m.forward)
    (by rw [h3]; exact hf) hT hne'
    (fun t ht => hk _ (by rw [← h5]; exact List.mem_map_of_mem ht)) o
  obtain ⟨r, q1, q2, -⟩ := (C64_wrappers m o).1 initial fit r1
  exact ⟨m, r, hm, q1, by rw [q2]; exact ⟨r5, r6, r7, r8⟩⟩

example (o : NmOptions) : ∃ s m r, FxVolSurface.new 0 [samplePillar 365, samplePillar 100] = .ok s
    ∧ smileStrip KeySearch.std s 0 200 (11 / 10) [1, 6 / 5] = .ok m
    ∧ sabrSmileCalibrate ⟨1 / 10, 1, 0, 1 / 2⟩ m o = .ok r ∧ 0 < r.params.nu := by
  obtain ⟨s, lo, hi, h, -, -, -⟩ := sampleSurface
  obtain ⟨m, r, h1, h2, -, -, -, h6⟩ := C64_surface_to_sabr KeySearch.std h (expiry := 200)
    (by norm_num) (f := 11 / 10) (by norm_num) (strikes := [1, 6 / 5]) (by simp) (by simp)
    ⟨1 / 10, 1, 0, 1 / 2⟩ o
  exact ⟨s, m, r, h, h1, h2, h6⟩

end Verif
