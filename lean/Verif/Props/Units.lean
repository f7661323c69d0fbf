import Verif.Lemmas.Units
import Verif.Lemmas.UnitPaths
import Verif.Props.Options
import Verif.Props.Calibrate
import Verif.Props.FxFmmCal
import Verif.Props.HhwStock
import Verif.Props.CosBlack

/-!
# C94: the unit of the domestic currency

Counting the domestic currency in units `c` times smaller multiplies every quotation by `c` and changes
nothing else.  Prices and simulated paths follow (`C94_black`, `C94_cos`, `C94_hhw`, `C94_hlmm`,
`C94_fmm`, `C94_paths`, `C94_sabr_paths`, `C94_td_paths`).  Implied volatilities follow only when the
tolerance is scaled too (`C94_implied`): the default tolerance is an absolute price, so that in small
units every quote has the implied volatility 2.500000005 (`C94_small_unit`, `C94_hhw_vols_false`) while
in large ones the right volatility is found (`C94_large_unit`).
-/

namespace Verif

open Outcome Classical

variable {c : ℝ}

/-! ## Prices -/

/-- **C94.** Black prices are amounts of domestic currency. -/
theorem C94_black (hc : 0 < c) (F K D : ℝ) :
    (∀ V ot, blackScholes (c * F) (c * K) V D ot = c * blackScholes F K V D ot)
    ∧ (∀ sg t, bsCallForward (c * F) (c * K) sg t D = c * bsCallForward F K sg t D)
    ∧ ∀ sg t, bsPutForward (c * F) (c * K) sg t D = c * bsPutForward F K sg t D :=
  ⟨fun V ot => blackScholes_unit hc F K V D ot, fun sg t => bsCall_unit hc F K sg t D,
    fun sg t => bsPut_unit hc F K sg t D⟩

example : blackScholes 13500 14000 (1 / 25) 1 .call = 100 * blackScholes 135 140 (1 / 25) 1 .call := by
  have := (C94_black (c := 100) (by norm_num) 135 140 1).1 (1 / 25) .call
  norm_num at this ⊢
  exact this

/-- **C94.** COS prices are amounts of domestic currency: the pricer whose log-forward is shifted by
`log c`, with its range, returns `c` times the price, and panics exactly when the first does. -/
theorem C94_cos (hc : 0 < c) {p q : CosPricer} (hn : q.nTerms = p.nTerms)
    (h1 : q.lo = p.lo + Real.log c) (h2 : q.hi = p.hi + Real.log c)
    (h : ∀ u : ℝ, q.chf.evaluate u = p.chf.evaluate u * Complex.exp (Complex.I * u * Real.log c))
    (K D : ℝ) :
    q.call (c * K) D = (c * ·) <$> p.call K D ∧ q.put (c * K) D = (c * ·) <$> p.put K D :=
  ⟨priceEuropean_unit hc hn h1 h2 h K D true, priceEuropean_unit hc hn h1 h2 h K D false⟩

/-- The degenerate law at the log-forward, in two units. -/
example (K D : ℝ) :
    let chf (x : ℝ) : ForwardChf := ⟨fun u => Complex.exp (Complex.I * u * x), 1, x, 1 / 25⟩
    (CosPricer.new (chf (1 + Real.log 100))).call (100 * K) D =
      (100 * ·) <$> (CosPricer.new (chf 1)).call K D := by
  intro chf
  refine (C94_cos (p := CosPricer.new (chf 1)) (q := CosPricer.new (chf (1 + Real.log 100)))
    (by norm_num) ?_ ?_ ?_ ?_ K D).1
  · unfold CosPricer.new; rfl
  · show 1 + Real.log 100 - _ = 1 - _ + Real.log 100; ring
  · show 1 + Real.log 100 + _ = 1 + _ + Real.log 100; ring
  · intro u
    show Complex.exp (Complex.I * u * ((1 + Real.log 100 : ℝ) : ℂ)) =
      Complex.exp (Complex.I * u * ((1 : ℝ) : ℂ)) * _
    rw [← Complex.exp_add]; congr 1; push_cast; ring

/-- **C94.** FX-HHW prices are amounts of domestic currency. -/
theorem C94_hhw (hc : 0 < c) {p : HhwParams} (hp : 0 < p.fx0) (T K : ℝ) :
    hhwPriceCall (p.inUnit c) T (c * K) = (c * ·) <$> hhwPriceCall p T K :=
  hhw_price_unit hc hp T K

/-- The prices exist. -/
example : ∃ v, hhwPriceCall paperHhw 1 (7 / 5) = .ok v
    ∧ hhwPriceCall (paperHhw.inUnit 100) 1 (100 * (7 / 5)) = .ok (100 * v) := by
  obtain ⟨q, hq, -, -⟩ := hhwNew_ok (p := paperHhw) (by norm_num [paperHhw]) 1
  obtain ⟨v, hv⟩ : ∃ v, hhwPriceCall paperHhw 1 (7 / 5) = .ok v := by
    rw [hhwPriceCall, hq, ok_bind, CosPricer.call, CosPricer.priceEuropean, if_pos (by norm_num)]
    exact ⟨_, rfl⟩
  refine ⟨v, hv, ?_⟩
  rw [C94_hhw (by norm_num) (by norm_num [paperHhw]), hv, map_ok]

/-- **C94.** FX-HLMM prices are amounts of domestic currency. -/
theorem C94_hlmm (hc : 0 < c) {p : HlmmParams} (hp : 0 < p.fx0) (h : p.tenor.Ordered)
    (hn : 0 < p.tenor.n)
    (hL : ∀ k, 1 ≤ k → k ≤ p.tenor.n → 0 < 1 + (p.tenor.T k - p.tenor.T (k - 1)) * p.tenor.L k)
    (T K : ℝ) :
    hlmmPriceCall (p.inUnit c) T (c * K) = (c * ·) <$> hlmmPriceCall p T K :=
  hlmm_price_unit hc hp h hn hL T K

example : ∃ v, hlmmPriceCall exHlmm 1 (7 / 5) = .ok v
    ∧ hlmmPriceCall (exHlmm.inUnit 100) 1 (100 * (7 / 5)) = .ok (100 * v) := by
  obtain ⟨D, -, -, q, -, h⟩ := C64_hlmm_discount_false
  obtain ⟨v, -, hv⟩ := h (7 / 5) (by norm_num)
  refine ⟨_, hv, ?_⟩
  rw [C94_hlmm (by norm_num) (by norm_num [exHlmm]) exTenor_ordered (by decide) ?_, hv, map_ok]
  intro k h1 h2
  have : exHlmm.tenor.n = 2 := rfl
  obtain rfl | rfl : k = 1 ∨ k = 2 := by omega
  · norm_num [exHlmm, exTenor, LiborTenor.T, LiborTenor.L]
  · norm_num [exHlmm, exTenor, LiborTenor.T, LiborTenor.L]

/-- **C94.** FX-FMM prices are amounts of domestic currency. -/
theorem C94_fmm (hc : 0 < c) {p : FmmParams} (hp : 0 < p.fx0) (h : p.tenor.Ordered)
    (hR : ∀ k, 1 ≤ k → k ≤ p.tenor.m → 0 < 1 + (p.tenor.T k - p.tenor.T (k - 1)) * p.tenor.R k)
    (T K : ℝ) :
    fmmPriceCall (p.inUnit c) T (c * K) = (c * ·) <$> fmmPriceCall p T K :=
  fmm_price_unit hc hp h hR T K

example : ∃ v, fmmPriceCall exFmm 1 (7 / 5) = .ok v
    ∧ fmmPriceCall (exFmm.inUnit 100) 1 (100 * (7 / 5)) = .ok (100 * v) := by
  obtain ⟨D, -, -, q, -, h⟩ := C73_discount_false
  obtain ⟨v, -, hv⟩ := h (7 / 5) (by norm_num)
  refine ⟨_, hv, ?_⟩
  rw [C94_fmm (by norm_num) (by norm_num [exFmm]) exFmmTenor_ordered ?_, hv, map_ok]
  intro k h1 h2
  have : exFmm.tenor.m = 2 := rfl
  obtain rfl | rfl : k = 1 ∨ k = 2 := by omega
  · norm_num [exFmm, exFmmTenor, FmmTenor.T, FmmTenor.R]
  · norm_num [exFmm, exFmmTenor, FmmTenor.T, FmmTenor.R]

/-! ## Paths -/

/-- **C94.** On the same draws the three FX simulators produce the same paths in the new unit. -/
theorem C94_paths (hc : 0 < c) (T : ℝ) (m n : ℕ) :
    (∀ (q : HhwSim) draws, 0 < q.params.fx0 →
      HhwSim.simulate { q with params := q.params.inUnit c } draws T m n =
        List.map (HhwState.inUnit c) <$> q.simulate draws T m n)
    ∧ (∀ (q : HhwStockSim) draws, 0 < q.params.fx0 →
      HhwStockSim.simulate { q with params := q.params.inUnit c } draws T m n =
        List.map (HhwStockState.inUnit c) <$> q.simulate draws T m n)
    ∧ ∀ (s : FxFmmSim) (draws : ℕ → Fin s.size → ℝ), 0 < s.params.fx0 →
      FxFmmSim.simulateTerminal { s with params := s.params.inUnit c } draws T m n =
        List.map (FxFmmState.inUnit c) <$> s.simulateTerminal draws T m n :=
  ⟨fun q draws hp => hhw_simulate_unit hc q hp draws T m n,
    fun q draws hp => stock_simulate_unit hc q hp draws T m n,
    fun s draws hp => fxfmm_simulate_unit hc s hp draws T m n⟩

/-- The simulators themselves are built alike in either unit. -/
theorem C94_simulators (p : HhwParams) (s : ForeignStock) (f : FmmParams) (c : ℝ) :
    HhwSim.new (p.inUnit c) =
      (fun q : HhwSim => { q with params := q.params.inUnit c }) <$> HhwSim.new p
    ∧ HhwStockSim.new (p.inUnit c) s =
      (fun q : HhwStockSim => { q with params := q.params.inUnit c }) <$> HhwStockSim.new p s
    ∧ FxFmmSim.new (f.inUnit c) =
      (fun q : FxFmmSim => { q with params := q.params.inUnit c }) <$> FxFmmSim.new f := by
  refine ⟨?_, ?_, ?_⟩
  · unfold HhwSim.new
    have e : (p.inUnit c).correlations = p.correlations := rfl
    rw [e]
    cases p.correlations.cholesky <;> rfl
  · unfold HhwStockSim.new
    have e : (p.inUnit c).correlations = p.correlations := rfl
    rw [e]
    cases p.correlations.cholesky with
    | none => rfl
    | some l =>
      dsimp only
      by_cases h1 : 1 < |s.rhoXiSf|
      · rw [if_pos h1, if_pos h1]; rfl
      · rw [if_neg h1, if_neg h1]
        by_cases h2 : 1 < |s.rhoSfOmega|
        · rw [if_pos h2, if_pos h2]; rfl
        · rw [if_neg h2, if_neg h2]; rfl
  · unfold FxFmmSim.new
    have e : jointCorr (f.inUnit c) = jointCorr f := rfl
    have et : (f.inUnit c).tenor = f.tenor := rfl
    by_cases h : f.Valid
    · have h' : (f.inUnit c).Valid := h
      rw [if_pos h, if_pos h', e, et]
      cases cholesky (2 + 2 * f.tenor.m) (jointCorr f) <;> rfl
    · have h' : ¬ (f.inUnit c).Valid := h
      rw [if_neg h, if_neg h']; rfl

/-- One step of one path, in two units. -/
example (draws : ℕ → Fin 4 → ℝ) : ∃ s : HhwState,
    (HhwSim.mk paperHhw (fun _ _ => 0) fun _ => (0, 0)).simulate draws 1 1 1 = .ok [s]
    ∧ (HhwSim.mk (paperHhw.inUnit 100) (fun _ _ => 0) fun _ => (0, 0)).simulate draws 1 1 1 =
      .ok [s.inUnit 100] := by
  set q : HhwSim := HhwSim.mk paperHhw (fun _ _ => 0) fun _ => (0, 0) with hq
  obtain ⟨s, hs⟩ : ∃ s, q.simulate draws 1 1 1 = .ok [s] := by
    refine ⟨q.euler (HhwState.initial q.params) 1 q.params.thetaD q.params.thetaF (draws 0), ?_⟩
    rw [HhwSim.simulate, if_pos (by norm_num)]
    simp [HhwSim.pathsLoop, HhwSim.pathLoop, HhwSim.step, HhwSim.stepAtTime]
  refine ⟨s, hs, ?_⟩
  have := (C94_paths (c := 100) (by norm_num) 1 1 1).1 q draws (by norm_num [hq, paperHhw])
  rw [hs] at this
  exact this

/-- **C94.** SABR paths, with `alpha` counted in units of the power `1 - beta` of the currency
(compare `C53_scaling` for the volatility formula). -/
theorem C94_sabr_paths (hc : 0 < c) (p : Sabr) (f : ℝ) (draws : ℕ → Fin 2 → ℝ) (T : ℝ) (m n : ℕ) :
    (p.inUnit c).simulate (c * f) draws T m n =
      List.map (SabrState.inUnit p.beta c) <$> p.simulate f draws T m n :=
  sabr_simulate_unit hc p f draws T m n

/-- **C94.** The same with parameters depending on time. -/
theorem C94_td_paths (hc : 0 < c) (p : TdSabr) (draws : ℕ → Fin 2 → ℝ) (T : ℝ) (m n : ℕ) :
    (p.inUnit c).simulate draws T m n =
      List.map (SabrState.inUnit p.beta c) <$> p.simulate draws T m n :=
  td_simulate_unit hc p draws T m n

/-- A normal SABR path from 1.35 and from 135: the volatility parameter is scaled too. -/
example (draws : ℕ → Fin 2 → ℝ) : ∃ s : SabrState,
    (Sabr.mk (1 / 5) 0 0 0).simulate (27 / 20) draws 1 1 1 = .ok [s]
    ∧ (Sabr.mk 20 0 0 0).simulate 135 draws 1 1 1 = .ok [⟨100 * s.forward, 100 * s.vol⟩] := by
  have h := C94_sabr_paths (c := 100) (by norm_num) (Sabr.mk (1 / 5) 0 0 0) (27 / 20) draws 1 1 1
  have e1 : (Sabr.mk (1 / 5) 0 0 0).inUnit 100 = Sabr.mk 20 0 0 0 := by
    unfold Sabr.inUnit; norm_num
  rw [e1] at h
  obtain ⟨s, hs⟩ : ∃ s, (Sabr.mk (1 / 5) 0 0 0).simulate (27 / 20) draws 1 1 1 = .ok [s] := by
    rw [Sabr.simulate, if_pos (by norm_num)]
    simp [Sabr.pathsLoop, Sabr.pathLoop, Sabr.step]
  refine ⟨s, hs, ?_⟩
  rw [hs] at h
  norm_num [SabrState.inUnit] at h
  exact h

/-! ## Implied volatilities -/

/-- **C94.** The implied volatility does not depend on the unit if the tolerance is an amount in that
unit. -/
theorem C94_implied (hc : 0 < c) (target F K t D : ℝ) (isCall : Bool) (tol : ℝ) :
    bsImpliedVolTol (c * target) (c * F) (c * K) t D isCall (c * tol) =
      bsImpliedVolTol target F K t D isCall tol :=
  impliedVol_unit hc target F K t D isCall tol

/-- With the default tolerance, changing the unit amounts to changing the tolerance. -/
theorem C94_default_tolerance (hc : 0 < c) (target F K t D : ℝ) (isCall : Bool) :
    bsImpliedVol (c * target) (c * F) (c * K) t D isCall =
      bsImpliedVolTol target F K t D isCall (1 / 10 ^ 8 / c) := by
  rw [C47_default, ← C94_implied hc target F K t D isCall (1 / 10 ^ 8 / c), mul_div_cancel₀ _ hc.ne']

theorem call_bounds {F K D : ℝ} (hF : 0 < F) (hK : 0 < K) (hD : 0 ≤ D) {s : ℝ} (hs : 0 < s) (t : ℝ) :
    0 ≤ blackPrice true F K s t D ∧ blackPrice true F K s t D ≤ F * D := by
  unfold blackPrice
  rw [if_pos rfl]
  rcases le_or_gt t 0 with ht | ht
  · unfold bsCallForward
    rw [if_pos (.inr ht)]
    have h1 : 0 ≤ max (F - K) 0 := le_max_right _ _
    have h2 : max (F - K) 0 ≤ F := max_le (by linarith) hF.le
    exact ⟨mul_nonneg hD h1, by nlinarith⟩
  · rw [bsCall_core hs ht]
    have hq : 0 < s * √t := mul_pos hs (Real.sqrt_pos.2 ht)
    have h1 := blackCore_nonneg hF hK hq
    have h2 := (blackCore_upper (s := s * √t) hF hK).le
    exact ⟨mul_nonneg hD h1, by nlinarith⟩

/-- **C94.** In a unit where the discounted forward and the price together are
below 1e-8, every price has the same implied volatility, the first midpoint of the search. -/
theorem C94_small_unit {target F K t D : ℝ} (hF : 0 < F) (hK : 0 < K) (hD : 0 ≤ D)
    (h : F * D + |target| < 1 / 10 ^ 8) :
    bsImpliedVol target F K t D true = some (1 / 2 * (1 / 10 ^ 8 + 5)) := by
  have key : ∀ s : ℝ, 0 < s → |blackPrice true F K s t D - target| < 1 / 10 ^ 8 := by
    intro s hs
    obtain ⟨h1, h2⟩ := call_bounds hF hK hD hs t
    have := neg_abs_le target
    have := le_abs_self target
    rw [abs_lt]
    constructor <;> linarith
  rw [C47_default, impliedVol_eq, if_neg]
  · congr 1
    have e : bisectVol (fun sg => blackPrice true F K sg t D) target (1 / 10 ^ 8) 200 (1 / 10 ^ 8) 5 =
      bisectVol (fun sg => blackPrice true F K sg t D) target (1 / 10 ^ 8) (199 + 1) (1 / 10 ^ 8) 5 :=
      rfl
    rw [e, bisectVol]
    dsimp only
    rw [if_neg (by norm_num), if_pos (key _ (by norm_num))]
  · rw [not_or, not_lt, gt_iff_lt, not_lt]
    have k1 := abs_lt.1 (key (1 / 10 ^ 8) (by norm_num))
    have k2 := abs_lt.1 (key 5 (by norm_num))
    constructor <;> linarith

/-- The price of a bitcoin-denominated dong is of that size; a price above the forward is accepted. -/
example : bsImpliedVol (2 / 10 ^ 9) (1 / 10 ^ 9) (1 / 10 ^ 9) 1 1 true =
    some (1 / 2 * (1 / 10 ^ 8 + 5)) :=
  C94_small_unit (by norm_num) (by norm_num) (by norm_num) (by rw [abs_of_pos] <;> norm_num)

/-- **C94.** In large units the volatility behind a price is found to within 1e-12 and as little more
as one likes. -/
theorem C94_large_unit (isCall : Bool) {F K t D sg e : ℝ} (hF : 0 < F) (hK : 0 < K) (ht : 0 < t)
    (hD : 0 < D) (h1 : 1 / 10 ^ 8 ≤ sg) (h2 : sg ≤ 5) (he : 0 < e) :
    ∃ c0, ∀ c, c0 ≤ c → ∃ s,
      bsImpliedVol (c * blackPrice isCall F K sg t D) (c * F) (c * K) t D isCall = some s
      ∧ |s - sg| < e + 1 / 10 ^ 12 := by
  set f := fun x => blackPrice isCall F K x t D with hf
  have hs0 : 0 < sg := lt_of_lt_of_le (by norm_num) h1
  have hq := Real.sqrt_pos.2 ht
  have mono : StrictMonoOn f (Set.Ioi 0) := by
    intro a ha b hb hab
    have ha' : 0 < a := ha
    have hb' : 0 < b := hb
    have p1 : 0 < a * √t := mul_pos ha' hq
    have p2 : 0 < b * √t := mul_pos hb' hq
    have hab' : a * √t < b * √t := mul_lt_mul_of_pos_right hab hq
    show blackPrice isCall F K a t D < blackPrice isCall F K b t D
    unfold blackPrice
    cases isCall
    · simp only [Bool.false_eq_true, if_false]
      rw [bsPut_core hF hK ha' ht, bsPut_core hF hK hb' ht]
      exact mul_lt_mul_of_pos_left (blackCore_strictMono hK hF p1 p2 hab') hD
    · simp only [if_true]
      rw [bsCall_core ha' ht, bsCall_core hb' ht]
      exact mul_lt_mul_of_pos_left (blackCore_strictMono hF hK p1 p2 hab') hD
  set w := max (sg - e) (sg / 2) with hw
  have hw0 : 0 < w := lt_of_lt_of_le (by linarith) (le_max_right _ _)
  have hwl : w < sg := max_lt (by linarith) (by linarith)
  have d1 : 0 < f (sg + e) - f sg :=
    sub_pos.2 (mono (Set.mem_Ioi.2 hs0) (Set.mem_Ioi.2 (by linarith)) (by linarith))
  have d2 : 0 < f sg - f w := sub_pos.2 (mono (Set.mem_Ioi.2 hw0) (Set.mem_Ioi.2 hs0) hwl)
  set δ := min (f (sg + e) - f sg) (f sg - f w) with hδ
  have hδ0 : 0 < δ := lt_min d1 d2
  have near : ∀ x, 0 < x → |f x - f sg| < δ → |x - sg| < e := by
    intro x hx h
    obtain ⟨ha, hb⟩ := abs_lt.1 h
    have := min_le_left (f (sg + e) - f sg) (f sg - f w)
    have := min_le_right (f (sg + e) - f sg) (f sg - f w)
    rw [abs_lt]
    constructor
    · by_contra hc
      have hle : x ≤ w := le_trans (by linarith) (le_max_left _ _)
      have := mono.monotoneOn (Set.mem_Ioi.2 hx) (Set.mem_Ioi.2 hw0) hle
      linarith
    · by_contra hc
      have hle : sg + e ≤ x := by linarith
      have := mono.monotoneOn (Set.mem_Ioi.2 (show 0 < sg + e by linarith)) (Set.mem_Ioi.2 hx) hle
      linarith
  refine ⟨2 / 10 ^ 8 / δ, fun c hcl => ?_⟩
  have hc : 0 < c := lt_of_lt_of_le (by positivity) hcl
  have htol : 1 / 10 ^ 8 / c < δ := by
    rw [div_lt_iff₀ hc]
    have := (div_le_iff₀ hδ0).1 hcl
    rw [mul_comm] at this
    have h0 : (1 : ℝ) / 10 ^ 8 < 2 / 10 ^ 8 := by norm_num
    linarith
  have htol0 : 0 ≤ 1 / 10 ^ 8 / c := by positivity
  obtain ⟨s, hs⟩ := C47_round_trip (t := t) isCall hF hK hD.le htol0 h1 h2
  refine ⟨s, by rw [C94_default_tolerance hc, hs], ?_⟩
  obtain ⟨hs1, hs2, h | ⟨x, hx1, hx2, hx, hsx⟩⟩ := C47_some isCall hF hK htol0 hs
  · have := near s (lt_of_lt_of_le (by norm_num) hs1) (h.trans htol)
    linarith [show (0 : ℝ) < 1 / 10 ^ 12 by norm_num]
  · have := near x (lt_of_lt_of_le (by norm_num) hx1) (lt_of_le_of_lt hx htol)
    have e3 := abs_sub_le s x sg
    linarith

/-- **C94 (false).** The volatility implied by the same quote depends on the unit. -/
theorem C94_implied_false {F K t D sg : ℝ} (hF : 0 < F) (hK : 0 < K) (ht : 0 < t)
    (hD : 0 < D) (h1 : 1 / 10 ^ 8 ≤ sg) (h2 : sg ≤ 2) :
    ∃ c c', 0 < c ∧ 0 < c' ∧
      bsImpliedVol (c * bsCallForward F K sg t D) (c * F) (c * K) t D true ≠
      bsImpliedVol (c' * bsCallForward F K sg t D) (c' * F) (c' * K) t D true := by
  obtain ⟨c0, h0⟩ := C94_large_unit true hF hK ht hD h1 (by linarith) (e := 1 / 10) (by norm_num)
  obtain ⟨s, hs, hd⟩ := h0 (max c0 1) (le_max_left _ _)
  have eB : blackPrice true F K sg t D = bsCallForward F K sg t D := rfl
  rw [eB] at hs
  set B := bsCallForward F K sg t D with hB
  have hpos : 0 < F * D + |B| := add_pos_of_pos_of_nonneg (mul_pos hF hD) (abs_nonneg _)
  set c' := 1 / 10 ^ 9 / (F * D + |B|) with hc'
  have hc0 : 0 < c' := by positivity
  refine ⟨max c0 1, c', lt_of_lt_of_le one_pos (le_max_right _ _), hc0, ?_⟩
  have hsum : c' * F * D + |c' * B| = 1 / 10 ^ 9 := by
    rw [abs_mul, abs_of_pos hc0, mul_assoc, ← mul_add, hc', div_mul_cancel₀ _ hpos.ne']
  rw [hs, C94_small_unit (mul_pos hc0 hF) (mul_pos hc0 hK) hD.le (by rw [hsum]; norm_num)]
  intro h
  have h := Option.some.inj h
  have := (abs_lt.1 hd).2
  rw [h] at this
  norm_num at this
  linarith

example : ∃ c c', 0 < c ∧ 0 < c' ∧
    bsImpliedVol (c * bsCallForward 100 105 (1 / 5) 1 1) (c * 100) (c * 105) 1 1 true ≠
    bsImpliedVol (c' * bsCallForward 100 105 (1 / 5) 1 1) (c' * 100) (c' * 105) 1 1 true :=
  C94_implied_false (by norm_num) (by norm_num) (by norm_num) (by norm_num) (by norm_num) (by norm_num)

/-- **C94 (false).** The volatilities implied by the FX-HHW model depend on the unit: whatever the
parameters, in small units all of them are 2.500000005. -/
theorem C94_hhw_vols_false {p : HhwParams} (hp : 0 < p.fx0) (hk : 0 < p.heston.kappa) (T : ℝ)
    (strikes : List ℝ) (hK : ∀ K ∈ strikes, 0 < K) :
    ∃ c0, 0 < c0 ∧ ∀ c, 0 < c → c < c0 →
      hhwImpliedVols (p.inUnit c) T (strikes.map (c * ·)) =
        .ok (strikes.map fun _ => some (1 / 2 * (1 / 10 ^ 8 + 5))) := by
  have price : ∀ K, 0 < K → ∃ v, hhwPriceCall p T K = .ok v := by
    intro K h
    obtain ⟨q, hq, -, -⟩ := hhwNew_ok hk T
    rw [hhwPriceCall, hq, ok_bind, CosPricer.call, CosPricer.priceEuropean, if_pos h]
    exact ⟨_, rfl⟩
  obtain ⟨M, hM0, hM⟩ : ∃ M, 0 ≤ M ∧ ∀ K ∈ strikes, ∀ v, hhwPriceCall p T K = .ok v → |v| ≤ M := by
    clear hK
    induction strikes with
    | nil => exact ⟨0, le_rfl, by simp⟩
    | cons K l ih =>
      obtain ⟨M, h0, h⟩ := ih
      by_cases hv : ∃ v, hhwPriceCall p T K = .ok v
      · obtain ⟨v, hv⟩ := hv
        refine ⟨max M |v|, le_trans h0 (le_max_left _ _), ?_⟩
        intro K' hK' w hw
        rcases List.mem_cons.1 hK' with rfl | hK'
        · rw [hv] at hw; cases hw; exact le_max_right _ _
        · exact (h K' hK' w hw).trans (le_max_left _ _)
      · refine ⟨M, h0, ?_⟩
        intro K' hK' w hw
        rcases List.mem_cons.1 hK' with rfl | hK'
        · exact absurd ⟨w, hw⟩ hv
        · exact h K' hK' w hw
  have hFp : 0 < hhwForward p T := by unfold hhwForward; positivity
  have hDp : 0 < hhwDiscount p T := Real.exp_pos _
  set S := hhwForward p T * hhwDiscount p T + M with hS
  have hS0 : 0 < S := add_pos_of_pos_of_nonneg (mul_pos hFp hDp) hM0
  refine ⟨1 / 10 ^ 8 / S, by positivity, fun c hc hlt => ?_⟩
  have hcS : c * S < 1 / 10 ^ 8 := (lt_div_iff₀ hS0).1 hlt
  obtain ⟨q, hq, -, -⟩ := hhwNew_ok (p := p.inUnit c) hk T
  rw [hhwImpliedVols, hq, ok_bind, cosVols,
    mapO_ok (g := fun _ => some (1 / 2 * (1 / 10 ^ 8 + 5))) _ ?_, List.map_map]
  · rfl
  intro k hk'
  obtain ⟨K, hKm, rfl⟩ := List.mem_map.1 hk'
  obtain ⟨v, hv⟩ := price K (hK K hKm)
  have hp' : hhwPriceCall (p.inUnit c) T (c * K) = .ok (c * v) := by rw [C94_hhw hc hp, hv, map_ok]
  have hDu : hhwDiscount (p.inUnit c) T = hhwDiscount p T := rfl
  have hFu : hhwForward (p.inUnit c) T = c * hhwForward p T := by
    show c * p.fx0 * _ / _ = c * (p.fx0 * _ / _)
    rw [mul_assoc, mul_div_assoc]; rfl
  rw [hhwPriceCall, hq, ok_bind] at hp'
  rw [cosVol, hp', ok_bind, hFu, hDu, C94_small_unit (mul_pos hc hFp) (mul_pos hc (hK K hKm)) hDp.le]
  rw [abs_mul, abs_of_pos hc, mul_assoc, ← mul_add]
  have hv' := hM K hKm v hv
  have : c * (hhwForward p T * hhwDiscount p T + |v|) ≤ c * S :=
    mul_le_mul_of_nonneg_left (by rw [hS]; linarith) hc.le
  linarith

example : ∃ c, 0 < c ∧ hhwImpliedVols (paperHhw.inUnit c) 1 [c * (13 / 10), c * (7 / 5)] =
    .ok [some (1 / 2 * (1 / 10 ^ 8 + 5)), some (1 / 2 * (1 / 10 ^ 8 + 5))] := by
  obtain ⟨c0, h0, h⟩ := C94_hhw_vols_false (p := paperHhw) (by norm_num [paperHhw])
    (by norm_num [paperHhw]) 1 [13 / 10, 7 / 5] (by
      intro K hK; simp only [List.mem_cons, List.not_mem_nil, or_false] at hK
      rcases hK with rfl | rfl <;> norm_num)
  exact ⟨c0 / 2, by linarith, h (c0 / 2) (by linarith) (by linarith)⟩

end Verif
