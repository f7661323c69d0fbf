import Verif.Lemmas.MarketContext
import Verif.Props.FxVol
import Verif.Props.Forwards
import Verif.Props.CurveStrip
import Verif.Props.CapletSurface

/-!
# C78: market contexts
-/

namespace Verif

open Classical Outcome

variable {solve : RateSolver} {val : Int} {spot : ℝ} {pair : Ccy × Ccy} {dom frn : CurveData}
  {fwd : List FwdQuote} {pillars : List VolPillar} {x : FxContext}

/-! ### Building the FX context -/

/-- C78: a context is built from raw quotes exactly when both curves strip and the surface builds,
and it holds these, each as of the valuation date. -/
theorem C78_fx_raw :
    FxContext.fromRawQuotes solve val spot pair dom frn fwd pillars = .ok x ↔
      ∃ d f s, strippedCurve solve dom.valuation dom.cash dom.futures dom.swaps = .ok d ∧
        strippedCurve solve frn.valuation frn.cash frn.futures frn.swaps = .ok f ∧
        FxVolSurface.new val pillars = .ok s ∧
        x.valuation = val ∧ x.spot = spot ∧ x.pair = pair ∧ x.domestic = ⟨val, d⟩ ∧
        x.foreign = ⟨val, f⟩ ∧ x.surface = s ∧ x.forwards.valuation = val ∧
        x.forwards.spotLag = 2 ∧ x.forwards.quotes = fwd := by
  unfold FxContext.fromRawQuotes CurveData.stripped
  simp only [bind_eq_ok, ok.injEq]
  constructor
  · rintro ⟨d, hd, f, hf, s, hs, rfl⟩
    exact ⟨d, f, s, hd, hf, hs, rfl, rfl, rfl, rfl, rfl, rfl, rfl, rfl, rfl⟩
  · rintro ⟨d, f, s, hd, hf, hs, h1, h2, h3, h4, h5, h6, h7, h8, h9⟩
    refine ⟨d, hd, f, hf, s, hs, ?_⟩
    obtain ⟨v, sp, pr, dc, fc, ⟨fv, fl, fq⟩, sf⟩ := x
    simp only at h1 h2 h3 h4 h5 h6 h7 h8 h9
    subst h1 h2 h3 h4 h5 h6 h7 h8 h9
    rfl

/-- C78: the first part that cannot be built decides the error: domestic curve, foreign curve,
surface. -/
theorem C78_fx_error {e : Err} :
    FxContext.fromRawQuotes solve val spot pair dom frn fwd pillars = .fail e ↔
      dom.stripped solve = .fail e ∨
      (∃ d, dom.stripped solve = .ok d) ∧ frn.stripped solve = .fail e ∨
      (∃ d, dom.stripped solve = .ok d) ∧ (∃ f, frn.stripped solve = .ok f) ∧
        FxVolSurface.new val pillars = .fail e := by
  unfold FxContext.fromRawQuotes
  rcases hd : dom.stripped solve with d | e' | _
  · rw [ok_bind]
    rcases hf : frn.stripped solve with f | e' | _
    · rw [ok_bind]
      rcases hs : FxVolSurface.new val pillars with s | e' | _
      · rw [ok_bind]; simp
      · rw [fail_bind]; simp
      · rw [panic_bind]; simp
    · rw [fail_bind]; simp
    · rw [panic_bind]; simp
  · rw [fail_bind]; simp
  · rw [panic_bind]; simp

/-! ### Lookups reproduce the quotes -/

/-- C78: the context answers the forward points quoted for a settlement date. -/
theorem C78_quoted_points {ops : SliceOps} {c : Cal} {l : List (Int × ℝ)} {t : Int} {v : ℝ}
    (h : FxContext.fromRawQuotes solve val spot pair dom frn fwd pillars = .ok x)
    (hd : List.Forall₂ (fun (q : FwdQuote) (p : Int × ℝ) =>
      settlementDateWithLag q.tenor val c 2 = .ok p.1 ∧ p.2 = q.value) fwd l)
    (ht : val < t) (hl : 2 ≤ fwd.length) (hv : (t, v) ∈ l) (hu : ∀ w, (t, w) ∈ l → w = v) :
    x.forwardAt ops t c = .ok v := by
  obtain ⟨-, -, -, -, -, -, -, -, -, -, -, -, h1, h2, h3⟩ := C78_fx_raw.1 h
  have hd' : Dated x.forwards c l := by
    unfold Dated
    rw [h1, h2, h3]
    exact hd
  unfold FxContext.forwardAt
  rw [C30_exact hd' (by rw [h1]; exact ht) (by rw [h3]; exact hl) hv hu, ok_bind]

/-- C78: outside the quoted span the context refuses, and it never panics for lack of a quote. -/
theorem C78_outside {ops : SliceOps} {c : Cal} {l : List (Int × ℝ)} {t : Int}
    (hd : Dated x.forwards c l) (ho : t ≤ x.forwards.valuation ∨ x.forwards.quotes.length < 2 ∨
      (∀ q ∈ l, q.1 < t) ∨ ∀ q ∈ l, t < q.1) : x.forwardAt ops t c = .fail .invalidData := by
  have : getForward ops x.forwards t c = .ok none := by
    rcases ho with ho | ho | ho
    · exact C30_none_before ho
    · exact C30_none_few hd ho
    · exact C30_none_outside hd ho
  unfold FxContext.forwardAt
  rw [this, ok_bind]

/-- C78: the at-the-money volatility quoted for a pillar is the implied volatility at the
delta-neutral strike of that pillar. -/
theorem C78_atm (ks : KeySearch) {p : VolPillar} {v K : ℝ}
    (h : FxContext.fromRawQuotes solve val spot pair dom frn fwd pillars = .ok x)
    (hn : (pillars.map VolPillar.expiry).Nodup) (hp : p ∈ pillars) (hsep : DeltasSeparated p.quotes)
    (hv : .atm v ∈ p.quotes) (h0 : 0 < v) (hK : IsAtmStrike v p.forward (yf365 val p.expiry) K) :
    x.impliedVol ks p.expiry K = .ok v := by
  obtain ⟨-, -, s, -, -, hs, -, -, -, -, -, rfl, -, -, -⟩ := C78_fx_raw.1 h
  obtain ⟨sm, hsm, hf⟩ := (surface_mem hs).2 p hp
  have he := (fromPillar_dates hf).2.1
  unfold FxContext.impliedVol
  rw [← he, C35_pillar ks hs hn hK.1 hsm, C34_atm hf hsep hv h0 hK]

/-- C78: and the quoted call and put volatilities are those at the strikes of their deltas. -/
theorem C78_call_put (ks : KeySearch) {p : VolPillar} {v δ c q Kc Kp : ℝ}
    (h : FxContext.fromRawQuotes solve val spot pair dom frn fwd pillars = .ok x)
    (hn : (pillars.map VolPillar.expiry).Nodup) (hp : p ∈ pillars) (hsep : DeltasSeparated p.quotes)
    (hv : .atm v ∈ p.quotes) (h0 : 0 < v) (hcall : lastCall δ p.quotes = some c)
    (hput : lastPut δ p.quotes = some q) (hc : 0 < c) (hq : 0 < q)
    (hKc : IsCallStrike δ c p.forward (yf365 val p.expiry) Kc)
    (hKp : IsPutStrike δ q p.forward (yf365 val p.expiry) Kp) :
    x.impliedVol ks p.expiry Kc = .ok c ∧ x.impliedVol ks p.expiry Kp = .ok q := by
  obtain ⟨-, -, s, -, -, hs, -, -, -, -, -, rfl, -, -, -⟩ := C78_fx_raw.1 h
  obtain ⟨sm, hsm, hf⟩ := (surface_mem hs).2 p hp
  have he := (fromPillar_dates hf).2.1
  obtain ⟨a, b⟩ := C34_call_put hf hsep hv h0 hcall hput hc hq hKc hKp
  unfold FxContext.impliedVol
  rw [← he, C35_pillar ks hs hn hKc.1 hsm, C35_pillar ks hs hn hKp.1 hsm, a, b]
  exact ⟨rfl, rfl⟩

/-! ### Flat volatility -/

/-- C78: when all quotes of all pillars express one volatility, every expiry after the valuation
date and every strike has that volatility. -/
theorem C78_flat (ks : KeySearch) {s : FxVolSurface} {v : ℝ} (h : FxVolSurface.new val pillars = .ok s)
    (hq : ∀ p ∈ pillars, FlatQuotes v p.quotes) (h0 : 0 < v) {e : Int} {K : ℝ} (he : val < e)
    (hK : 0 < K) : s.volatility ks e K = .ok v := by
  have hfl : ∀ sm ∈ s.smiles, sm.volatility K = v := by
    intro sm hsm
    obtain ⟨p, hp, hf⟩ := (surface_mem h).1 sm hsm
    exact smile_flat hf (hq p hp) h0.ne' K
  rcases surface_cases ks (surface_new h).2.2.2.1 (surface_new h).2.1 hK (surface_pos h he) with
    ⟨sm, h1, -, h2⟩ | ⟨sm, post, h1, -, h2⟩ | ⟨pre, sm, h1, -, h2⟩ | ⟨pre, lo, hi, post, h1, h2, h3, h4⟩
  · rw [h2, hfl sm h1]
  · rw [h2, hfl sm (by rw [h1]; simp)]
  · rw [h2, hfl sm (by rw [h1]; simp)]
  · have hlo : lo ∈ s.smiles := by rw [h1]; simp
    have hhi : hi ∈ s.smiles := by rw [h1]; simp
    have y1 := ((surface_new h).2.2.2.2 lo hlo).2
    have y2 := ((surface_new h).2.2.2.2 hi hhi).2
    have hlt : lo.yearFraction < hi.yearFraction := by
      rw [y1, y2]; exact yf365_lt (h2.trans h3)
    have hne : hi.yearFraction - lo.yearFraction ≠ 0 := by linarith
    have hye := (surface_pos h he).ne'
    rw [h4]
    refine congrArg Outcome.ok ?_
    unfold Smile.totalVar
    rw [hfl lo hlo, hfl hi hhi]
    have : (v ^ 2 * lo.yearFraction + (yf365 s.valuation e - lo.yearFraction) /
        (hi.yearFraction - lo.yearFraction) * (v ^ 2 * hi.yearFraction - v ^ 2 * lo.yearFraction)) /
        yf365 s.valuation e = v ^ 2 := by
      field_simp
      ring
    rw [this, Real.sqrt_sq h0.le]

theorem trivialPillar_normalised (e : Int) :
    normaliseQuotes (trivialPillar e).quotes = .ok (1 / 10, [⟨1 / 4, 1 / 10, 1 / 10⟩]) := by
  have hval : validateDelta (1 / 4) = .ok () := validateDelta_ok.2 (by norm_num)
  unfold normaliseQuotes trivialPillar
  dsimp only
  rw [collectQuotes, if_neg (by simp), collectQuotes, hval, ok_bind, collectQuotes, hval, ok_bind,
    collectQuotes, ok_bind]
  rw [bucketUpdate, bucketUpdate, if_pos (by norm_num)]
  dsimp only
  rw [resolveAll, resolveAll]
  simp [resolvePartial, sortPairs]

theorem trivialPillar_flat (e : Int) : FlatQuotes (1 / 10) (trivialPillar e).quotes := by
  intro q hq
  simp only [trivialPillar, List.mem_cons, List.not_mem_nil, or_false] at hq
  rcases hq with rfl | rfl | rfl <;> rfl

theorem trivialSurface_built {e : Int} (h : val < e) :
    ∃ s, FxVolSurface.new val [trivialPillar e] = .ok s := by
  obtain ⟨a, ha⟩ := fromPillar_single (trivialPillar_normalised e) (yf365_after h)
    (by norm_num [trivialPillar]) (by norm_num) (by norm_num) (by norm_num) (by norm_num)
    (by norm_num) (by norm_num)
  refine ⟨⟨val, [a]⟩, ?_⟩
  unfold FxVolSurface.new
  dsimp only
  rw [buildSmiles, show (trivialPillar e).expiry = e from rfl, ha, ok_bind, buildSmiles, ok_bind,
    ok_bind, List.mergeSort_singleton]

/-- C78: the context for linear products exists whenever the day 365 days on exists; it holds the
curves and forwards it was given, and its volatility is 10% everywhere. -/
theorem C78_for_linear (ks : KeySearch) (spot : ℝ) (pair : Ccy × Ccy) (dom frn : Curve)
    (forwards : FwdHelper) (hv : Valid (val + 365)) :
    ∃ x, FxContext.forLinear val spot pair dom frn forwards = .ok x ∧ x.valuation = val ∧
      x.spot = spot ∧ x.pair = pair ∧ x.domestic = dom ∧ x.foreign = frn ∧ x.forwards = forwards ∧
      ∀ e K, val < e → 0 < K → x.impliedVol ks e K = .ok (1 / 10) := by
  obtain ⟨s, hs⟩ := trivialSurface_built (val := val) (e := val + 365) (by omega)
  refine ⟨⟨val, spot, pair, dom, frn, forwards, s⟩, ?_, rfl, rfl, rfl, rfl, rfl, rfl, ?_⟩
  · unfold FxContext.forLinear trivialVolSurface addDays
    rw [if_pos hv, ok_bind, hs, ok_bind]
  · intro e K he hK
    refine C78_flat ks hs ?_ (by norm_num) he hK
    intro p hp
    rw [List.mem_singleton] at hp
    subst hp
    exact trivialPillar_flat _

/-- C78: within a year of the last date it panics. -/
theorem C78_for_linear_panic (spot : ℝ) (pair : Ccy × Ccy) (dom frn : Curve) (forwards : FwdHelper)
    (hv : ¬ Valid (val + 365)) : FxContext.forLinear val spot pair dom frn forwards = .panic := by
  unfold FxContext.forLinear trivialVolSurface addDays
  rw [if_neg hv, panic_bind, panic_bind]

/-! ### What the documentation says about forwards -/

/-- C78: what the context calls the outright forward are the forward points; the outright forward of
the pricers is the spot plus these points divided by the converter of the pair. -/
theorem C78_forward_points (ops : SliceOps) (p : Pair) {t : Int} {v : ℝ}
    (h : x.forwardAt ops t p.calendar = .ok v) :
    outright ops p x.market t = .ok (x.spot + v / ((p.converter : Int) : ℝ)) := by
  unfold FxContext.forwardAt at h
  rw [bind_eq_ok] at h
  obtain ⟨o, ho, h⟩ := h
  unfold outright
  rw [show x.market.forwards = x.forwards from rfl, ho, ok_bind]
  cases o with
  | none => cases h
  | some w => obtain rfl := ok.inj h; rfl

/-- Quotes without curves: spot at 0 points and one week at 14 points, valued on Monday 16 October
2023, with a flat surface. -/
theorem sampleContext (spot : ℝ) (pair : Ccy × Ccy) : ∃ x,
    FxContext.fromRawQuotes (fun _ => .panic) (ymd 2023 10 16) spot pair ⟨ymd 2023 10 16, [], [], []⟩
      ⟨ymd 2023 10 16, [], [], []⟩ [⟨.weeks 1, 14⟩, ⟨.spot, 0⟩] [trivialPillar (ymd 2024 10 16)] =
        .ok x := by
  obtain ⟨s, hs⟩ := trivialSurface_built (val := ymd 2023 10 16) (e := ymd 2024 10 16) (by decide)
  unfold FxContext.fromRawQuotes CurveData.stripped strippedCurve
  simp only [cashMaturities, ok_bind, List.mergeSort_nil, cashPillars, addFutures, addSwaps, hs]
  exact ⟨_, rfl⟩

/-- C78: `forward_at` is documented as the outright forward `S + points`, but it ignores the spot:
with spot 1.10 and 14 points for one week it returns 14. -/
theorem C78_forward_false :
    (∀ (ops : SliceOps) (x : FxContext) (s : ℝ) (t : Int) (c : Cal),
      { x with spot := s }.forwardAt ops t c = x.forwardAt ops t c) ∧
    ∃ x, FxContext.fromRawQuotes (fun _ => .panic) (ymd 2023 10 16) (11 / 10) (.usd, .eur)
        ⟨ymd 2023 10 16, [], [], []⟩ ⟨ymd 2023 10 16, [], [], []⟩ [⟨.weeks 1, 14⟩, ⟨.spot, 0⟩]
        [trivialPillar (ymd 2024 10 16)] = .ok x ∧
      x.forwardAt SliceOps.std (ymd 2023 10 25) Pair.eurusd.calendar = .ok 14 ∧
      outright SliceOps.std .eurusd x.market (ymd 2023 10 25) = .ok (11014 / 10000) := by
  refine ⟨fun _ _ _ _ _ => rfl, ?_⟩
  obtain ⟨x, hx⟩ := sampleContext (11 / 10) (.usd, .eur)
  have h14 : x.forwardAt SliceOps.std (ymd 2023 10 25) Pair.eurusd.calendar = .ok 14 := by
    refine C78_quoted_points (l := [(ymd 2023 10 25, 14), (ymd 2023 10 18, 0)]) hx
      (.cons ⟨by decide +kernel, rfl⟩ (.cons ⟨by decide +kernel, rfl⟩ .nil)) (by decide) (by simp)
      (by simp) ?_
    intro w hw
    simp only [List.mem_cons, Prod.mk.injEq, true_and, List.not_mem_nil, or_false] at hw
    rcases hw with rfl | ⟨e, -⟩
    · rfl
    · exact absurd e (by decide)
  refine ⟨x, hx, h14, ?_⟩
  rw [C78_forward_points _ .eurusd h14]
  obtain ⟨-, -, -, -, -, -, -, e, -⟩ := C78_fx_raw.1 hx
  rw [e]
  norm_num [Pair.converter]

/-- C78: a context from raw quotes dates the forwards two days from spot whatever the pair.  For
USDCAD, which settles after one day, the quote for spot is not found on the spot date, where the
pair's own helper has it. -/
theorem C78_lag_false : ∃ x,
    FxContext.fromRawQuotes (fun _ => .panic) (ymd 2023 10 16) (11 / 10) (.cad, .usd)
        ⟨ymd 2023 10 16, [], [], []⟩ ⟨ymd 2023 10 16, [], [], []⟩ [⟨.weeks 1, 14⟩, ⟨.spot, 0⟩]
        [trivialPillar (ymd 2024 10 16)] = .ok x ∧
      Pair.usdcad.settlementDate .spot (ymd 2023 10 16) = .ok (ymd 2023 10 17) ∧
      x.forwardAt SliceOps.std (ymd 2023 10 17) Pair.usdcad.calendar = .fail .invalidData ∧
      getForward SliceOps.std (Pair.usdcad.forwardHelper (ymd 2023 10 16) [⟨.weeks 1, 14⟩, ⟨.spot, 0⟩])
        (ymd 2023 10 17) Pair.usdcad.calendar = .ok (some 0) := by
  obtain ⟨x, hx⟩ := sampleContext (11 / 10) (.cad, .usd)
  obtain ⟨-, -, -, -, -, -, -, -, -, -, -, -, e1, e2, e3⟩ := C78_fx_raw.1 hx
  refine ⟨x, hx, by decide +kernel, ?_, ?_⟩
  · refine C78_outside (l := [(ymd 2023 10 25, 14), (ymd 2023 10 18, 0)]) ?_ (.inr (.inr (.inr ?_)))
    · unfold Dated
      rw [e1, e2, e3]
      exact .cons ⟨by decide +kernel, rfl⟩ (.cons ⟨by decide +kernel, rfl⟩ .nil)
    · intro q hq
      simp only [List.mem_cons, List.not_mem_nil, or_false] at hq
      rcases hq with rfl | rfl <;> decide
  · refine C30_exact (l := [(ymd 2023 10 24, 14), (ymd 2023 10 17, 0)])
      (.cons ⟨by decide +kernel, rfl⟩ (.cons ⟨by decide +kernel, rfl⟩ .nil)) (by decide) (by simp [Pair.forwardHelper])
      (by simp) ?_
    intro w hw
    simp only [List.mem_cons, Prod.mk.injEq, true_and, List.not_mem_nil, or_false] at hw
    rcases hw with ⟨e, -⟩ | rfl
    · exact absurd e (by decide)
    · rfl

theorem single_discount {p : Pillar} (hp : p.hidden = false) {d : Int} (hd : Valid (d + 1)) :
    (Curve.mk val [p]).zeroRate d = .ok p.zeroRate ∧
    (Curve.mk val [p]).discount d = .ok (Real.exp (-p.zeroRate * yf365 val d)) := by
  have htf : trueFirst p [p] = p := by simp [trueFirst, hp]
  have hz : (Curve.mk val [p]).zeroRate d = .ok p.zeroRate := by
    have := zeroRate_of_eq (cv := ⟨val, [p]⟩) (d := d) (p0 := p) (rest := []) rfl hd
      (s := (scanPillars (d + 1) p [p]).2) (f := (scanPillars (d + 1) p [p]).1) Prod.mk.eta.symm (by
        rw [htf, scanPillars]
        by_cases hc : d + 1 ≤ p.date ∧ p.hidden = false
        · rw [if_pos hc]; rfl
        · rw [if_neg hc]; rfl)
    rw [this, htf]
  refine ⟨hz, ?_⟩
  unfold Curve.discount
  rw [hz, ok_bind]

/-- C78: curves and forwards of a context are independent, so that the parity `F = S · P_f / P_d`
which the documentation ascribes to it need not hold: with both rates zero the one-week forward is
still 14 points above spot. -/
theorem C78_parity_false : ∃ (x : FxContext) (F Pd Pf : ℝ), FxContext.forLinear (ymd 2023 10 16) (11 / 10)
      (.usd, .eur) ⟨ymd 2023 10 16, [⟨ymd 2023 10 16, ymd 2024 10 16, 0, 0, 1, .ois, false⟩]⟩
      ⟨ymd 2023 10 16, [⟨ymd 2023 10 16, ymd 2024 10 16, 0, 0, 1, .ois, false⟩]⟩
      (Pair.eurusd.forwardHelper (ymd 2023 10 16) [⟨.weeks 1, 14⟩, ⟨.spot, 0⟩]) = .ok x ∧
    outright SliceOps.std .eurusd x.market (ymd 2023 10 25) = .ok F ∧
    x.discountD (ymd 2023 10 25) = .ok Pd ∧ x.discountF (ymd 2023 10 25) = .ok Pf ∧
    ¬ ParityAt x.spot F Pd Pf := by
  obtain ⟨x, hx, -, e2, -, e4, e5, e6, -⟩ := C78_for_linear KeySearch.std (val := ymd 2023 10 16)
    (11 / 10) (.usd, .eur) ⟨ymd 2023 10 16, [⟨ymd 2023 10 16, ymd 2024 10 16, 0, 0, 1, .ois, false⟩]⟩
    ⟨ymd 2023 10 16, [⟨ymd 2023 10 16, ymd 2024 10 16, 0, 0, 1, .ois, false⟩]⟩
    (Pair.eurusd.forwardHelper (ymd 2023 10 16) [⟨.weeks 1, 14⟩, ⟨.spot, 0⟩]) (by decide)
  have h14 : x.forwardAt SliceOps.std (ymd 2023 10 25) Pair.eurusd.calendar = .ok 14 := by
    unfold FxContext.forwardAt
    have hg : getForward SliceOps.std
        (Pair.eurusd.forwardHelper (ymd 2023 10 16) [⟨.weeks 1, 14⟩, ⟨.spot, 0⟩]) (ymd 2023 10 25)
        Pair.eurusd.calendar = .ok (some 14) := by
      refine C30_exact (l := [(ymd 2023 10 25, 14), (ymd 2023 10 18, 0)])
        (.cons ⟨by decide +kernel, rfl⟩ (.cons ⟨by decide +kernel, rfl⟩ .nil)) (by decide)
        (by simp [Pair.forwardHelper]) (by simp) ?_
      intro w hw
      simp only [List.mem_cons, Prod.mk.injEq, true_and, List.not_mem_nil, or_false] at hw
      rcases hw with rfl | ⟨e, -⟩
      · rfl
      · exact absurd e (by decide)
    rw [e6, hg, ok_bind]
  refine ⟨x, 11014 / 10000, 1, 1, hx, ?_, ?_, ?_, ?_⟩
  · rw [C78_forward_points _ .eurusd h14, e2]
    norm_num [Pair.converter]
  · unfold FxContext.discountD
    rw [e4, (single_discount rfl (by decide)).2]
    simp
  · unfold FxContext.discountF
    rw [e5, (single_discount rfl (by decide)).2]
    simp
  · unfold ParityAt
    rw [e2]
    norm_num

/-! ### Rates and discount factors -/

/-- C78: the rates and discount factors of each currency come from the curve stripped from that
currency's quotes, and a discount factor is the exponential of its own rate over the time from the
valuation date; forwards are valued on the domestic curve. -/
theorem C78_fx_rates (h : FxContext.fromRawQuotes solve val spot pair dom frn fwd pillars = .ok x) :
    ∃ d f, strippedCurve solve dom.valuation dom.cash dom.futures dom.swaps = .ok d ∧
      strippedCurve solve frn.valuation frn.cash frn.futures frn.swaps = .ok f ∧
      (∀ t, x.rateD t = (⟨val, d⟩ : Curve).zeroRate t ∧ x.rateF t = (⟨val, f⟩ : Curve).zeroRate t) ∧
      (∀ t z, x.rateD t = .ok z → x.discountD t = .ok (Real.exp (-z * yf365 val t))) ∧
      (∀ t z, x.rateF t = .ok z → x.discountF t = .ok (Real.exp (-z * yf365 val t))) ∧
      x.market.domestic = ⟨val, d⟩ ∧ x.market.valuation = val ∧ x.market.spot = spot := by
  obtain ⟨d, f, s, hd, hf, -, h1, h2, -, h4, h5, -, -, -, -⟩ := C78_fx_raw.1 h
  refine ⟨d, f, hd, hf, fun t => ?_, fun t z hz => ?_, fun t z hz => ?_, h4, h1, h2⟩
  · unfold FxContext.rateD FxContext.rateF
    rw [h4, h5]
    exact ⟨rfl, rfl⟩
  · unfold FxContext.rateD at hz
    unfold FxContext.discountD Curve.discount
    rw [hz, ok_bind, h4]
  · unfold FxContext.rateF at hz
    unfold FxContext.discountF Curve.discount
    rw [hz, ok_bind, h5]

/-! ### The interest rate context -/

variable {solveVol : RootFinder} {ccy : Ccy} {data : CurveData} {y : IrContext}

/-- C78: without cap quotes the context exists exactly when the curve strips; it answers rates and
discount factors from that curve and refuses every volatility, so that caps cannot be valued. -/
theorem C78_ir_linear :
    IrContext.fromRawQuotes solve solveVol val ccy data none = .ok y ↔
      ∃ ps, strippedCurve solve data.valuation data.cash data.futures data.swaps = .ok ps ∧
        y = ⟨val, ccy, ⟨val, ps⟩, none⟩ := by
  unfold IrContext.fromRawQuotes CurveData.stripped
  simp only [bind_eq_ok, ok.injEq]
  constructor
  · rintro ⟨ps, h, rfl⟩; exact ⟨ps, h, rfl⟩
  · rintro ⟨ps, h, rfl⟩; exact ⟨ps, h, rfl⟩

/-- C78: with or without cap quotes the context keeps its date and currency and answers from the
stripped curve; a discount factor is the exponential of its own rate over the time from the valuation
date. -/
theorem C78_ir_rates {caps : Option CapData}
    (h : IrContext.fromRawQuotes solve solveVol val ccy data caps = .ok y) :
    ∃ ps, strippedCurve solve data.valuation data.cash data.futures data.swaps = .ok ps ∧
      y.valuation = val ∧ y.currency = ccy ∧ (∀ t, y.rate t = (⟨val, ps⟩ : Curve).zeroRate t) ∧
      ∀ t z, y.rate t = .ok z → y.discount t = .ok (Real.exp (-z * yf365 val t)) := by
  unfold IrContext.fromRawQuotes CurveData.stripped at h
  rw [bind_eq_ok] at h
  obtain ⟨ps, hps, h⟩ := h
  have key : y.valuation = val ∧ y.currency = ccy ∧ y.curve = ⟨val, ps⟩ := by
    cases caps with
    | none => obtain rfl := ok.inj h; exact ⟨rfl, rfl, rfl⟩
    | some md =>
      dsimp only at h
      rw [bind_eq_ok] at h
      obtain ⟨vs, -, h⟩ := h
      obtain rfl := ok.inj h
      exact ⟨rfl, rfl, rfl⟩
  obtain ⟨k1, k2, k3⟩ := key
  refine ⟨ps, hps, k1, k2, fun t => ?_, fun t z hz => ?_⟩
  · unfold IrContext.rate
    rw [k3]
  · unfold IrContext.rate at hz
    unfold IrContext.discount Curve.discount
    rw [hz, ok_bind, k3]

theorem C78_ir_refuses (h : IrContext.fromRawQuotes solve solveVol val ccy data none = .ok y) :
    (∀ e k, y.capletVol e k = .fail .invalidData) ∧
    ∀ c : CapFloor, c.mtm y.curve y.capSurface = .fail .invalidData := by
  obtain ⟨ps, -, rfl⟩ := C78_ir_linear.1 h
  exact ⟨fun _ _ => rfl, fun _ => rfl⟩

/-- C78: with cap quotes at every strike for every last fixing, each quoted cap is worth its quote
in the context, within the tolerance of the root finder. -/
theorem C78_ir_reprices {md : CapData} {eps : ℝ} {lastFixing : CapQuote → Int}
    (h : IrContext.fromRawQuotes solve solveVol val ccy data (some md) = .ok y)
    (hq : RectangularQuotes md.quotes lastFixing) (hs : SolvesWithin solveVol eps) :
    ∀ q ∈ md.quotes, ∃ pv, (q.toTrade md.valuation).mtm y.curve y.capSurface = .ok ⟨q.currency, pv⟩ ∧
      |pv - q.marketNpv| ≤ eps := by
  unfold IrContext.fromRawQuotes at h
  rw [bind_eq_ok] at h
  obtain ⟨ps, -, h⟩ := h
  dsimp only at h
  rw [bind_eq_ok] at h
  obtain ⟨vs, hvs, h⟩ := h
  obtain rfl := ok.inj h
  intro q hqm
  obtain ⟨pv, h1, h2⟩ := C55_reprices hq hs hvs q hqm
  refine ⟨pv, ?_, h2⟩
  unfold CapFloor.mtm unpackSurface
  dsimp only
  rw [ok_bind, h1, ok_bind]
  rfl

/-- C78: the volatility of a context with caps lies between two stripped volatilities of one pillar,
for every expiry and strike, unless nothing was stripped. -/
theorem C78_ir_vol {md : CapData}
    (h : IrContext.fromRawQuotes solve solveVol val ccy data (some md) = .ok y) :
    ∃ vs, y.capSurface = some vs ∧ (vs ≠ [] → ∀ e k, ∃ v p n n', y.capletVol e k = .ok v ∧ p ∈ vs ∧
      n ∈ p.nodes ∧ n' ∈ p.nodes ∧ n.2 ≤ v ∧ v ≤ n'.2) := by
  unfold IrContext.fromRawQuotes at h
  rw [bind_eq_ok] at h
  obtain ⟨ps, -, h⟩ := h
  dsimp only at h
  rw [bind_eq_ok] at h
  obtain ⟨vs, hvs, h⟩ := h
  obtain rfl := ok.inj h
  exact ⟨vs, rfl, fun hne e k => C54_total hvs hne e k⟩

/-- C78: curve data of another day are taken without complaint: for one visible cash quote with a
rate other than zero the discount factor at its maturity is then not the one of the quote's own
valuation date. -/
theorem C78_stale_false {q : OisRate} {p : Pillar} {d : Int} (hq : q.pillar d = .ok p)
    (hh : p.hidden = false) (hz : p.zeroRate ≠ 0) (hd : Valid (p.date + 1)) (hne : val ≠ d) :
    ∃ stale fresh a b,
      IrContext.fromRawQuotes solve solveVol val ccy ⟨d, [q], [], []⟩ none = .ok stale ∧
      IrContext.fromRawQuotes solve solveVol d ccy ⟨d, [q], [], []⟩ none = .ok fresh ∧
      stale.discount p.date = .ok a ∧ fresh.discount p.date = .ok b ∧ a ≠ b := by
  have hs : strippedCurve solve d [q] [] [] = .ok [p] := by
    have m1 := (cash_pillar hq).2.1
    unfold strippedCurve
    simp [cashMaturities, m1, unwrapResult, cashPillars, cashAt, hq, addFutures, addSwaps]
  refine ⟨_, _, _, _, C78_ir_linear.2 ⟨_, hs, rfl⟩, C78_ir_linear.2 ⟨_, hs, rfl⟩,
    (single_discount hh hd).2, (single_discount hh hd).2, ?_⟩
  intro he
  have he := Real.exp_injective he
  rw [mul_right_inj' (neg_ne_zero.2 hz)] at he
  unfold yf365 at he
  rw [div_left_inj' (by norm_num)] at he
  have : p.date - val = p.date - d := by exact_mod_cast he
  omega

/-! ### Examples -/

/-- The sample context at its pillar and elsewhere. -/
example : ∃ x, FxContext.fromRawQuotes (fun _ => .panic) (ymd 2023 10 16) 1 (.usd, .eur)
      ⟨ymd 2023 10 16, [], [], []⟩ ⟨ymd 2023 10 16, [], [], []⟩ [⟨.weeks 1, 14⟩, ⟨.spot, 0⟩]
      [trivialPillar (ymd 2024 10 16)] = .ok x ∧
    x.impliedVol KeySearch.std (ymd 2024 4 16) 2 = .ok (1 / 10) ∧
    x.impliedVol KeySearch.std (ymd 2024 10 16) (Real.exp (1 / 2 * (1 / 10) ^ 2 * (366 / 365))) =
      .ok (1 / 10) := by
  obtain ⟨x, hx⟩ := sampleContext 1 (.usd, .eur)
  refine ⟨x, hx, ?_, ?_⟩
  · obtain ⟨-, -, s, -, -, hs, -, -, -, -, -, rfl, -, -, -⟩ := C78_fx_raw.1 hx
    refine C78_flat _ hs ?_ (by norm_num) (by decide) (by norm_num)
    intro p hp
    rw [List.mem_singleton] at hp
    subst hp
    exact trivialPillar_flat _
  · refine C78_atm (p := trivialPillar (ymd 2024 10 16)) _ hx (by simp) (by simp) ?_
      (by simp [trivialPillar]) (by norm_num) ?_
    · intro q hq r hr a b ha hb
      left
      simp only [trivialPillar, List.mem_cons, List.not_mem_nil, or_false] at hq hr
      rcases hq with rfl | rfl | rfl <;> rcases hr with rfl | rfl | rfl <;>
        simp only [FxVolQuote.delta?, Option.some.injEq, reduceCtorEq] at ha hb <;> rw [← ha, ← hb]
    · refine ⟨by positivity, ?_⟩
      have hy : yf365 (ymd 2023 10 16) (ymd 2024 10 16) = 366 / 365 := by
        have : ymd 2024 10 16 - ymd 2023 10 16 = 366 := by decide
        simp only [yf365, this]
        norm_num
      simp only [trivialPillar, hy]
      rw [one_div, Real.log_inv, Real.log_exp,
        show -(1 / 2 * (1 / 10 : ℝ) ^ 2 * (366 / 365)) + (1 / 10) ^ 2 * (366 / 365) / 2 = 0 by ring,
        zero_div, neg_zero]

/-- The quarter-delta strikes of the sample context. -/
example : ∃ x Kc Kp, FxContext.fromRawQuotes (fun _ => .panic) (ymd 2023 10 16) 1 (.usd, .eur)
      ⟨ymd 2023 10 16, [], [], []⟩ ⟨ymd 2023 10 16, [], [], []⟩ [⟨.weeks 1, 14⟩, ⟨.spot, 0⟩]
      [trivialPillar (ymd 2024 10 16)] = .ok x ∧
    IsCallStrike (1 / 4) (1 / 10) 1 (yf365 (ymd 2023 10 16) (ymd 2024 10 16)) Kc ∧
    IsPutStrike (1 / 4) (1 / 10) 1 (yf365 (ymd 2023 10 16) (ymd 2024 10 16)) Kp ∧
    x.impliedVol KeySearch.std (ymd 2024 10 16) Kc = .ok (1 / 10) ∧
    x.impliedVol KeySearch.std (ymd 2024 10 16) Kp = .ok (1 / 10) := by
  obtain ⟨x, hx⟩ := sampleContext 1 (.usd, .eur)
  obtain ⟨b, hb⟩ := exists_quantile (p := 1 / 4) (by norm_num) (by norm_num)
  set T := yf365 (ymd 2023 10 16) (ymd 2024 10 16) with hT
  have hT0 : 0 < T := yf365_after (by decide)
  have hr : √T ≠ 0 := (Real.sqrt_pos.2 hT0).ne'
  have hc : IsCallStrike (1 / 4) (1 / 10) 1 T
      (Real.exp (1 / 2 * (1 / 10) ^ 2 * T - b * (1 / 10) * √T)) := by
    refine ⟨Real.exp_pos _, ?_⟩
    rw [one_div (Real.exp _), Real.log_inv, Real.log_exp, ← hb]
    congr 1
    field_simp
    ring
  have hp : IsPutStrike (1 / 4) (1 / 10) 1 T
      (Real.exp (1 / 2 * (1 / 10) ^ 2 * T + b * (1 / 10) * √T)) := by
    refine ⟨Real.exp_pos _, ?_⟩
    rw [one_div (Real.exp _), Real.log_inv, Real.log_exp, ← hb]
    congr 1
    field_simp
    ring
  refine ⟨x, _, _, hx, hc, hp, ?_⟩
  refine C78_call_put (p := trivialPillar (ymd 2024 10 16)) (v := 1 / 10) (δ := 1 / 4) _ hx (by simp)
    (by simp) ?_ (by simp [trivialPillar]) (by norm_num) (by simp [trivialPillar, lastCall])
    (by simp [trivialPillar, lastPut]) (by norm_num) (by norm_num) hc hp
  intro q hq r hr a b ha hb
  left
  simp only [trivialPillar, List.mem_cons, List.not_mem_nil, or_false] at hq hr
  rcases hq with rfl | rfl | rfl <;> rcases hr with rfl | rfl | rfl <;>
    simp only [FxVolQuote.delta?, Option.some.injEq, reduceCtorEq] at ha hb <;> rw [← ha, ← hb]

/-- A deposit of a thousand days at zero. -/
noncomputable def zeroDeposit : OisRate :=
  ⟨0, ⟨.days 1000, 0, fun _ => .ok true, .unadjusted, fun a b => .ok (((b - a : Int) : ℝ) / 360), false⟩⟩

theorem zeroDeposit_strips : strippedCurve solve 0 [zeroDeposit] [] [] = .ok zeroCurve.pillars := by
  have h1 : zeroDeposit.settleDate 0 = .ok 0 := by
    unfold zeroDeposit OisRate.settleDate; decide +kernel
  have h2 : zeroDeposit.maturityDate 0 = .ok 1000 := by
    unfold OisRate.maturityDate
    rw [h1, ok_bind]
    unfold zeroDeposit; decide +kernel
  have h3 : zeroDeposit.index.yearFraction 0 1000 = .ok (((1000 - 0 : Int) : ℝ) / 360) := rfl
  have h4 : zeroDeposit.zeroRate 0 = .ok 0 := by
    rw [ois_zeroRate h1 h2 h3]
    simp [zeroDeposit]
  have hp : zeroDeposit.pillar 0 = .ok ⟨0, 1000, 0, 0, 1, .ois, false⟩ := by
    unfold OisRate.pillar
    rw [h1, ok_bind, h2, ok_bind, h4, ok_bind]
    unfold OisRate.discount
    rw [h4, ok_bind, h2, ok_bind, ok_bind]
    simp [zeroDeposit, isOneWeek]
  unfold strippedCurve
  simp [cashMaturities, h2, unwrapResult, cashPillars, cashAt, hp, addFutures, addSwaps, zeroCurve]

/-- A context with the four caps of C55: each is worth its quote. -/
example : ∃ y, IrContext.fromRawQuotes (fun _ => .panic) tryTwo 0 .eur ⟨0, [zeroDeposit], [], []⟩
      (some ⟨0, gridQuotes⟩) = .ok y ∧
    (∀ q ∈ gridQuotes, ∃ pv, (q.toTrade 0).mtm y.curve y.capSurface = .ok ⟨q.currency, pv⟩ ∧
      |pv - q.marketNpv| ≤ 0) ∧
    ∃ vs, y.capSurface = some vs ∧ vs.length = 2 ∧ ∀ e k, ∃ v p n n', y.capletVol e k = .ok v ∧ p ∈ vs ∧
      n ∈ p.nodes ∧ n' ∈ p.nodes ∧ n.2 ≤ v ∧ v ≤ n'.2 := by
  obtain ⟨lastFixing, vs, hr, hs, hv, hl⟩ := gridQuotes_strips
  have hy : IrContext.fromRawQuotes (fun _ => .panic) tryTwo 0 .eur ⟨0, [zeroDeposit], [], []⟩
      (some ⟨0, gridQuotes⟩) = .ok ⟨0, .eur, zeroCurve, some vs⟩ := by
    unfold IrContext.fromRawQuotes CurveData.stripped
    rw [zeroDeposit_strips, ok_bind]
    change (stripCapletVols tryTwo zeroCurve 0 gridQuotes).bind _ = _
    rw [hv]
    rfl
  refine ⟨_, hy, C78_ir_reprices hy hr hs, vs, rfl, hl, ?_⟩
  obtain ⟨vs', h1, h2⟩ := C78_ir_vol hy
  obtain rfl := Option.some.inj h1
  exact h2 (by intro h; rw [h] at hl; simp at hl)

/-- The deposit of C31 and a context one day later. -/
example : ∃ p : Pillar, ∃ stale fresh a b,
    IrContext.fromRawQuotes (fun _ => .panic) (fun _ => .panic) (ymd 2023 10 17) .eur
      ⟨ymd 2023 10 16, [sampleDeposit], [], []⟩ none = .ok stale ∧
    IrContext.fromRawQuotes (fun _ => .panic) (fun _ => .panic) (ymd 2023 10 16) .eur
      ⟨ymd 2023 10 16, [sampleDeposit], [], []⟩ none = .ok fresh ∧
    stale.discount p.date = .ok a ∧ fresh.discount p.date = .ok b ∧ a ≠ b := by
  obtain ⟨p, hp⟩ := sampleDeposit_pillar
  obtain ⟨c1, c2, c3, -, -, -, c7⟩ := cash_pillar hp
  have h1 : sampleDeposit.settleDate (ymd 2023 10 16) = .ok (ymd 2023 10 16) := by
    unfold sampleDeposit OisRate.settleDate; decide +kernel
  have h2 : sampleDeposit.maturityDate (ymd 2023 10 16) = .ok (ymd 2024 1 16) := by
    unfold OisRate.maturityDate
    rw [h1, ok_bind]
    unfold sampleDeposit; decide +kernel
  have h3 : sampleDeposit.index.yearFraction (ymd 2023 10 16) (ymd 2024 1 16) = .ok (92 / 360) := by
    have : (ymd 2024 1 16 - ymd 2023 10 16 : Int) = 92 := by decide
    simp only [sampleDeposit, this]
    norm_num
  have hz := ok.inj (c3.symm.trans (ois_zeroRate h1 h2 h3))
  have hm := ok.inj (c2.symm.trans h2)
  refine ⟨p, C78_stale_false hp ?_ ?_ (by rw [hm]; decide) (by decide)⟩
  · rcases hb : p.hidden with _ | _
    · rfl
    · exact absurd (c7.1 hb) (by simp [sampleDeposit])
  · rw [hz]
    have hl : Real.log (1 / (1 + 92 / 360 * sampleDeposit.value)) < 0 := by
      simp only [sampleDeposit]
      exact Real.log_neg (by norm_num) (by norm_num)
    have hy : 0 < yf365 (ymd 2023 10 16) (ymd 2024 1 16) := yf365_after (by decide)
    have : 0 < -Real.log (1 / (1 + 92 / 360 * sampleDeposit.value)) := by linarith
    positivity

end Verif
