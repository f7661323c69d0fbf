import Verif.Model.CapRisk
import Verif.Spec.CapRisk
import Verif.Lemmas.Cap
import Verif.Lemmas.Options
import Verif.Props.Options
import Verif.Props.Cap
import Mathlib.Analysis.Calculus.ContDiff.Operations
import Mathlib.Analysis.Calculus.LHopital

/-!
# Lemmas for the risk figures of caps
-/

namespace Verif

open Outcome Classical

/-! ### Values as functions of the shifts -/

/-- What the curve, the surface and the day counter give for one period. -/
structure CapletData where
  tau : ℝ
  ds : ℝ
  de : ℝ
  dp : ℝ
  sigma : ℝ

/-- The lookups of one period succeed with the given data. -/
def CapletData.Of (q : CapletData) (c : CapFloor) (cv : Curve) (vs : List CapletPillar)
    (p : SchedPeriod) : Prop :=
  c.yearFraction p.start p.fin = .ok q.tau ∧ cv.discount p.start = .ok q.ds ∧
    cv.discount p.fin = .ok q.de ∧ cv.discount p.pay = .ok q.dp ∧
    capletVolatility vs p.start c.strike = .ok q.sigma

/-- The market inputs of a period with given data under shifts. -/
noncomputable def CapletData.market (q : CapletData) (c : CapFloor) (cv : Curve) (p : SchedPeriod)
    (r v : ℝ) : CapletMarket :=
  ⟨q.tau, q.dp * Real.exp (-r * (1 / 10000) * yf365 cv.valuation p.pay),
    (q.ds * Real.exp (-r * (1 / 10000) * yf365 cv.valuation p.start) /
      (q.de * Real.exp (-r * (1 / 10000) * yf365 cv.valuation p.fin)) - 1) / q.tau,
    capletTotalVariance c.style (q.sigma + v * (1 / 10000)) (yf365 c.valuation p.start)
      (yf365 c.valuation p.fin)⟩

theorem shiftedDiscount_ok {cv : Curve} {d : Int} {r y : ℝ} :
    cv.shiftedDiscount d r = .ok y ↔ ∃ x, cv.discount d = .ok x ∧
      y = x * Real.exp (-r * (1 / 10000) * yf365 cv.valuation d) := by
  unfold Curve.shiftedDiscount
  simp only [bind_eq_ok, ok.injEq, eq_comm (a := y)]

theorem data_of_market {c : CapFloor} {p : SchedPeriod} {cv : Curve} {vs : List CapletPillar}
    {r v : ℝ} {m : CapletMarket} (h : c.market p cv vs r v = .ok m) :
    ∃ q : CapletData, q.Of c cv vs p := by
  obtain ⟨tau, ds, de, dp, s, h1, h2, h3, h4, h5, -⟩ := market_ok.1 h
  obtain ⟨a, ha, -⟩ := shiftedDiscount_ok.1 h2
  obtain ⟨b, hb, -⟩ := shiftedDiscount_ok.1 h3
  obtain ⟨e, he, -⟩ := shiftedDiscount_ok.1 h4
  exact ⟨⟨tau, a, b, e, s⟩, h1, ha, hb, he, h5⟩

theorem market_of_data {c : CapFloor} {p : SchedPeriod} {cv : Curve} {vs : List CapletPillar}
    {q : CapletData} (h : q.Of c cv vs p) (r v : ℝ) :
    c.market p cv vs r v = .ok (q.market c cv p r v) := by
  obtain ⟨h1, h2, h3, h4, h5⟩ := h
  exact market_ok.2 ⟨_, _, _, _, _, h1, shiftedDiscount_ok.2 ⟨_, h2, rfl⟩,
    shiftedDiscount_ok.2 ⟨_, h3, rfl⟩, shiftedDiscount_ok.2 ⟨_, h4, rfl⟩, h5, rfl⟩

/-- The value of one caplet under shifts. -/
noncomputable def CapletData.value (q : CapletData) (c : CapFloor) (cv : Curve) (p : SchedPeriod)
    (r v : ℝ) : ℝ :=
  let m := q.market c cv p r v
  c.direction.sign * c.notional * m.tau * m.dfPay * optionValue c.kind c.strike m

/-- The loop values of a list of periods. -/
theorem pv_data {c : CapFloor} {cv : Curve} {vs : List CapletPillar} {r v x : ℝ}
    (h : c.pv cv vs r v = .ok x) :
    ∃ l : List (SchedPeriod × CapletData), l.map Prod.fst = c.schedule ∧
      (∀ e ∈ l, e.2.Of c cv vs e.1) ∧
      ∀ r v, c.pv cv vs r v = .ok (l.map fun e => e.2.value c cv e.1 r v).sum := by
  obtain ⟨ms, hms, -⟩ := pv_ok.1 h
  have key : ∀ ps ms, List.Forall₂ (fun p m => c.market p cv vs r v = .ok m) ps ms →
      ∃ l : List (SchedPeriod × CapletData), l.map Prod.fst = ps ∧ ∀ e ∈ l, e.2.Of c cv vs e.1 := by
    intro ps ms h
    induction h with
    | nil => exact ⟨[], rfl, by simp⟩
    | cons hm _ ih =>
      obtain ⟨q, hq⟩ := data_of_market hm
      obtain ⟨l, hl, hl'⟩ := ih
      refine ⟨(_, q) :: l, by rw [List.map_cons, hl], ?_⟩
      intro e he
      rcases List.mem_cons.1 he with rfl | he
      · exact hq
      · exact hl' e he
  obtain ⟨l, hl, hl'⟩ := key _ _ hms
  refine ⟨l, hl, hl', fun r v => pv_ok.2 ⟨l.map fun e => e.2.market c cv e.1 r v, ?_, ?_⟩⟩
  · rw [← hl]
    clear hl hms h key
    induction l with
    | nil => exact List.Forall₂.nil
    | cons e l ih =>
      exact List.Forall₂.cons (market_of_data (hl' e (by simp)) r v)
        (ih fun e he => hl' e (List.mem_cons_of_mem _ he))
  · rw [List.map_map]; rfl

/-- The derivative of a sum over a list. -/
theorem hasDerivAt_list_sum {α : Type*} {f : α → ℝ → ℝ} {f' : α → ℝ} {x : ℝ} {l : List α}
    (h : ∀ a ∈ l, HasDerivAt (f a) (f' a) x) :
    HasDerivAt (fun y => (l.map fun a => f a y).sum) (l.map f').sum x := by
  induction l with
  | nil => simpa using hasDerivAt_const x (0 : ℝ)
  | cons a l ih =>
    simp only [List.map_cons, List.sum_cons]
    exact (h a (by simp)).add (ih fun b hb => h b (List.mem_cons_of_mem _ hb))

/-! ### Variance and vega -/

/-- The variance is the squared volatility times a time. -/
theorem totalVariance_eq (style : CapStyle) (sigma s e : ℝ) :
    capletTotalVariance style sigma s e = sigma ^ 2 * (if e ≤ 0 then 0 else capletTimeVar style s e) := by
  unfold capletTotalVariance capletTimeVar
  by_cases h1 : e ≤ 0
  · rw [if_pos h1, if_pos h1]; ring
  · rw [if_neg h1, if_neg h1]
    cases style with
    | forwardLooking => ring
    | backwardCompounded =>
      by_cases h2 : 0 ≤ s
      · simp only [if_pos h2]; ring
      · simp only [if_neg h2]; ring

/-- The variance time is not negative. -/
theorem timeVar_nonneg (style : CapStyle) (s e : ℝ) :
    0 ≤ (if e ≤ 0 then 0 else capletTimeVar style s e) := by
  have := C44_nonneg style 1 s e
  rw [totalVariance_eq] at this
  simpa using this

/-- The density falls away from zero. -/
theorem normPdf_le_of_sq {x y : ℝ} (h : y ^ 2 ≤ x ^ 2) : normPdf x ≤ normPdf y := by
  rw [normPdf_eq, normPdf_eq]
  exact div_le_div_of_nonneg_right (Real.exp_le_exp.2 (by linarith)) (Real.sqrt_nonneg _)

/-- The option value under a volatility with variance time `T`. -/
noncomputable def volValue (kind : CapKind) (F K T sigma : ℝ) : ℝ :=
  match kind with
  | .cap => bachelierCall F K (sigma ^ 2 * T)
  | .floor => bachelierPut F K (sigma ^ 2 * T)

/-- Its derivative in the volatility. -/
noncomputable def volVega (F K T sigma : ℝ) : ℝ := √T * normPdf ((F - K) / (sigma * √T))

theorem volValue_call {F K T sigma : ℝ} (hT : 0 < T) (hs : 0 < sigma) :
    volValue .cap F K T sigma = (sigma * √T) * bachCore ((F - K) / (sigma * √T)) := by
  have e : √(sigma ^ 2 * T) = sigma * √T := by
    rw [Real.sqrt_mul (sq_nonneg _), Real.sqrt_sq hs.le]
  unfold volValue
  simp only
  rw [bachelierCall_eq (by positivity), e]

theorem volValue_put {F K T sigma : ℝ} (hT : 0 < T) (hs : 0 < sigma) :
    volValue .floor F K T sigma = (sigma * √T) * bachCore ((K - F) / (sigma * √T)) := by
  have e : √(sigma ^ 2 * T) = sigma * √T := by
    rw [Real.sqrt_mul (sq_nonneg _), Real.sqrt_sq hs.le]
  unfold volValue
  simp only
  rw [bachelierPut_eq (by positivity), e]

theorem hasDerivAt_volValue (kind : CapKind) {F K T sigma : ℝ} (hT : 0 ≤ T) (hs : 0 < sigma) :
    HasDerivAt (volValue kind F K T) (volVega F K T sigma) sigma := by
  rcases hT.eq_or_lt with rfl | hT
  · have e : volValue kind F K 0 = fun _ => volValue kind F K 0 0 := by
      funext s; unfold volValue; simp
    rw [e]
    refine (hasDerivAt_const sigma _).congr_deriv ?_
    simp [volVega]
  · have hq : 0 < √T := Real.sqrt_pos.2 hT
    have core : ∀ x, HasDerivAt (fun s : ℝ => (s * √T) * bachCore (x / (s * √T)))
        (√T * normPdf (x / (sigma * √T))) sigma := by
      intro x
      have h1 : HasDerivAt (fun s : ℝ => s * √T) √T sigma := by
        simpa using (hasDerivAt_id sigma).mul_const √T
      have h2 := (hasDerivAt_bach_s (x := x) (s := sigma * √T) (by positivity)).comp sigma h1
      refine h2.congr_deriv ?_
      ring
    have near : ∀ᶠ s in nhds sigma, 0 < s := lt_mem_nhds hs
    cases kind with
    | cap =>
      refine (core (F - K)).congr_of_eventuallyEq ?_
      filter_upwards [near] with s h
      exact volValue_call hT h
    | floor =>
      refine ((core (K - F)).congr_of_eventuallyEq ?_).congr_deriv ?_
      · filter_upwards [near] with s h
        exact volValue_put hT h
      · unfold volVega
        rw [show (K - F) / (sigma * √T) = -((F - K) / (sigma * √T)) by ring, normPdf_neg]

theorem volVega_mono {F K T s s' : ℝ} (hs : 0 < s) (h : s ≤ s') :
    volVega F K T s ≤ volVega F K T s' := by
  unfold volVega
  refine mul_le_mul_of_nonneg_left (normPdf_le_of_sq ?_) (Real.sqrt_nonneg _)
  rw [div_pow, div_pow]
  rcases (Real.sqrt_nonneg T).eq_or_lt with h0 | h0
  · rw [← h0]; simp
  · gcongr

theorem volVega_nonneg (F K T s : ℝ) : 0 ≤ volVega F K T s :=
  mul_nonneg (Real.sqrt_nonneg _) (normPdf_pos _).le

/-- The value is convex in the volatility. -/
theorem volValue_bracket (kind : CapKind) {F K T s d : ℝ} (hT : 0 ≤ T) (hs : 0 < s) (hd : 0 ≤ d) :
    d * volVega F K T s ≤ volValue kind F K T (s + d) - volValue kind F K T s ∧
    volValue kind F K T (s + d) - volValue kind F K T s ≤ d * volVega F K T (s + d) := by
  rcases hd.eq_or_lt with rfl | hd
  · simp
  obtain ⟨x, hx, hx'⟩ := exists_hasDerivAt_eq_slope (volValue kind F K T) (volVega F K T)
    (show s < s + d by linarith)
    (fun y hy => (hasDerivAt_volValue kind hT (by linarith [hy.1])).continuousAt.continuousWithinAt)
    (fun y hy => hasDerivAt_volValue kind hT (by linarith [hy.1]))
  have e : s + d - s = d := by ring
  rw [e, eq_div_iff hd.ne'] at hx'
  have h1 := volVega_mono (F := F) (K := K) (T := T) hs hx.1.le
  have h2 := volVega_mono (F := F) (K := K) (T := T) (hs.trans hx.1) hx.2.le
  constructor <;> nlinarith

/-- The closed form for one caplet. -/
theorem vegaVariance_eq {F K T sigma : ℝ} (hT : 0 < T) (hs : 0 < sigma) :
    bachelierVegaVariance F K (sigma ^ 2 * T) * (2 * sigma * T) = volVega F K T sigma := by
  have e : √(sigma ^ 2 * T) = sigma * √T := by
    rw [Real.sqrt_mul (sq_nonneg _), Real.sqrt_sq hs.le]
  have hq : 0 < √T := Real.sqrt_pos.2 hT
  unfold bachelierVegaVariance volVega
  rw [if_neg (not_le.2 (by positivity))]
  simp only
  rw [e]
  have := Real.mul_self_sqrt hT.le
  generalize normPdf _ = φ
  rw [div_mul_eq_mul_div, div_eq_iff (by positivity)]
  calc φ * (2 * sigma * T) = φ * (2 * sigma * (√T * √T)) := by rw [this]
    _ = _ := by ring

/-! ### Rates -/

/-- The second difference quotient tends to the second derivative. -/
theorem second_difference {f : ℝ → ℝ} (hf : ContDiff ℝ 2 f) :
    Filter.Tendsto (fun h => (f h + f (-h) - 2 * f 0) / h ^ 2) (nhdsWithin 0 {0}ᶜ)
      (nhds (deriv (deriv f) 0)) := by
  have hd : Differentiable ℝ f := hf.differentiable (by norm_num)
  have hf1 : ContDiff ℝ 1 (deriv f) := ((contDiff_succ_iff_deriv (n := 1)).1 hf).2.2
  have hd' : Differentiable ℝ (deriv f) := hf1.differentiable (by norm_num)
  have d1 : ∀ h, HasDerivAt (fun h => f h + f (-h) - 2 * f 0) (deriv f h - deriv f (-h)) h := by
    intro h
    have a := (hd h).hasDerivAt
    have b := ((hd (-h)).hasDerivAt).comp h (hasDerivAt_neg h)
    refine ((a.add b).sub_const _).congr_deriv ?_
    ring
  have d2 : ∀ h : ℝ, HasDerivAt (fun h : ℝ => h ^ 2) (2 * h) h := by
    intro h; simpa using hasDerivAt_pow 2 h
  have hs : Filter.Tendsto (fun h => (deriv f h - deriv f (-h)) / (2 * h)) (nhdsWithin 0 {0}ᶜ)
      (nhds (deriv (deriv f) 0)) := by
    have k : HasDerivAt (fun h => deriv f h - deriv f (-h)) (2 * deriv (deriv f) 0) 0 := by
      have a := (hd' 0).hasDerivAt
      have b : HasDerivAt (fun h => deriv f (-h)) (deriv (deriv f) 0 * -1) 0 := by
        have e := (hd' (-0)).hasDerivAt.comp (0 : ℝ) (hasDerivAt_neg (0 : ℝ))
        rwa [neg_zero] at e
      refine (a.sub b).congr_deriv ?_
      ring
    have t := (hasDerivAt_iff_tendsto_slope.1 k).div_const 2
    rw [mul_div_cancel_left₀ _ (two_ne_zero)] at t
    refine t.congr fun h => ?_
    rw [slope_def_field]
    simp only [sub_zero, neg_zero, sub_self]
    rw [div_div, mul_comm]
  refine HasDerivAt.lhopital_zero_nhdsNE (f' := fun h => deriv f h - deriv f (-h))
    (g' := fun h => 2 * h) (Filter.Eventually.of_forall d1) (Filter.Eventually.of_forall d2) ?_ ?_ ?_ hs
  · filter_upwards [self_mem_nhdsWithin] with h hh
    simpa using hh
  · have := ((d1 0).continuousAt.tendsto).mono_left (nhdsWithin_le_nhds (s := {0}ᶜ))
    simpa [two_mul] using this
  · have := ((d2 0).continuousAt.tendsto).mono_left (nhdsWithin_le_nhds (s := {0}ᶜ))
    simpa using this

theorem contDiff_normPdf : ContDiff ℝ 2 normPdf := by
  have e : normPdf = fun x => Real.exp (-(1 / 2) * x ^ 2) / √(2 * Real.pi) := by
    funext x; exact normPdf_eq x
  rw [e]
  fun_prop

theorem contDiff_bachCore : ContDiff ℝ 2 bachCore := by
  have h1 : ContDiff ℝ 1 normCdf := by
    rw [show (1 : WithTop ℕ∞) = 0 + 1 from rfl, contDiff_succ_iff_deriv]
    refine ⟨fun x => (hasDerivAt_normCdf x).differentiableAt, by simp, ?_⟩
    have : deriv normCdf = normPdf := by funext x; exact (hasDerivAt_normCdf x).deriv
    rw [this]
    exact contDiff_normPdf.of_le (by norm_num)
  rw [show (2 : WithTop ℕ∞) = 1 + 1 from rfl, contDiff_succ_iff_deriv]
  refine ⟨fun x => (hasDerivAt_bachCore x).differentiableAt, by simp, ?_⟩
  have : deriv bachCore = normCdf := by funext x; exact (hasDerivAt_bachCore x).deriv
  rw [this]
  exact h1

/-- The delta of one option with respect to its forward. -/
noncomputable def forwardDelta (kind : CapKind) (F K V : ℝ) : ℝ :=
  match kind with
  | .cap => normCdf ((F - K) / √V)
  | .floor => -normCdf ((K - F) / √V)

/-- The option value as a function of the forward. -/
noncomputable def forwardValue (kind : CapKind) (K V F : ℝ) : ℝ :=
  match kind with
  | .cap => bachelierCall F K V
  | .floor => bachelierPut F K V

theorem hasDerivAt_forwardValue (kind : CapKind) {F K V : ℝ} (hV : 0 < V) :
    HasDerivAt (forwardValue kind K V) (forwardDelta kind F K V) F := by
  have hq : √V ≠ 0 := (Real.sqrt_pos.2 hV).ne'
  cases kind with
  | cap =>
    have e : forwardValue .cap K V = fun F => √V * bachCore ((F - K) / √V) := by
      funext F; exact bachelierCall_eq hV
    rw [e]
    have h1 : HasDerivAt (fun F : ℝ => (F - K) / √V) (1 / √V) F :=
      ((hasDerivAt_id F).sub_const K).div_const _
    refine (((hasDerivAt_bachCore _).comp F h1).const_mul √V).congr_deriv ?_
    unfold forwardDelta
    simp only
    field_simp
  | floor =>
    have e : forwardValue .floor K V = fun F => √V * bachCore ((K - F) / √V) := by
      funext F; exact bachelierPut_eq hV
    rw [e]
    have h1 : HasDerivAt (fun F : ℝ => (K - F) / √V) (-1 / √V) F :=
      ((hasDerivAt_id F).const_sub K).div_const _
    refine (((hasDerivAt_bachCore _).comp F h1).const_mul √V).congr_deriv ?_
    unfold forwardDelta
    simp only
    field_simp

theorem contDiff_forwardValue (kind : CapKind) {K V : ℝ} (hV : 0 < V) :
    ContDiff ℝ 2 (forwardValue kind K V) := by
  cases kind with
  | cap =>
    have e : forwardValue .cap K V = fun F => √V * bachCore ((F - K) / √V) := by
      funext F; exact bachelierCall_eq hV
    rw [e]
    exact contDiff_const.mul (contDiff_bachCore.comp (by fun_prop))
  | floor =>
    have e : forwardValue .floor K V = fun F => √V * bachCore ((K - F) / √V) := by
      funext F; exact bachelierPut_eq hV
    rw [e]
    exact contDiff_const.mul (contDiff_bachCore.comp (by fun_prop))

/-! ### Volatility shifts -/

theorem scanNodes_raise (v k fb : ℝ) (ns : List (ℝ × ℝ)) :
    scanNodes k (fb + v) (ns.map fun n => (n.1, n.2 + v)) = scanNodes k fb ns + v := by
  induction ns with
  | nil => rfl
  | cons a ns ih =>
    cases ns with
    | nil => rfl
    | cons b ns =>
      simp only [List.map_cons, scanNodes] at ih ⊢
      by_cases h : a.1 ≤ k ∧ k ≤ b.1
      · rw [if_pos h, if_pos h]; ring
      · rw [if_neg h, if_neg h, ih]

theorem interpolateNodes_raise (v k : ℝ) (ns : List (ℝ × ℝ)) :
    interpolateNodes (ns.map fun n => (n.1, n.2 + v)) k = (fun s => s + v) <$> interpolateNodes ns k := by
  match ns with
  | [] => rfl
  | [n] => rfl
  | a :: b :: rest =>
    have hl : (((b :: rest).map fun n : ℝ × ℝ => (n.1, n.2 + v)).getLast (by simp))
        = (((b :: rest).getLast (by simp)).1, ((b :: rest).getLast (by simp)).2 + v) :=
      List.getLast_map ..
    simp only [List.map_cons] at hl
    simp only [interpolateNodes, List.map_cons]
    rw [hl]
    by_cases h1 : k ≤ a.1
    · rw [if_pos h1, if_pos h1]; rfl
    · rw [if_neg h1, if_neg h1]
      by_cases h2 : ((b :: rest).getLast (by simp)).1 ≤ k
      · rw [if_pos h2, if_pos h2]; rfl
      · rw [if_neg h2, if_neg h2]
        have := scanNodes_raise v k ((b :: rest).getLast (by simp)).2 (a :: b :: rest)
        simp only [List.map_cons] at this
        rw [this]; rfl

theorem capletVolatility_raise (vs : List CapletPillar) (v : ℝ) (d : Int) (k : ℝ) :
    capletVolatility (raiseVols vs v) d k = (fun s => s + v * (1 / 10000)) <$> capletVolatility vs d k := by
  have hp : pickPillar d (raiseVols vs v) = (pickPillar d vs).map fun p =>
      (⟨p.expiry, p.nodes.map fun n => (n.1, n.2 + v * (1 / 10000))⟩ : CapletPillar) := by
    unfold pickPillar raiseVols
    rw [List.find?_map, List.getLast?_map]
    have : ((fun p : CapletPillar => decide (d ≤ p.expiry)) ∘ fun p : CapletPillar =>
      (⟨p.expiry, p.nodes.map fun n => (n.1, n.2 + v * (1 / 10000))⟩ : CapletPillar))
        = fun p => decide (d ≤ p.expiry) := rfl
    rw [this]
    cases vs.find? fun p => decide (d ≤ p.expiry) <;> rfl
  unfold capletVolatility
  rw [hp]
  cases pickPillar d vs with
  | none => rfl
  | some p => exact interpolateNodes_raise _ _ _

/-- The time over which a caplet accumulates variance. -/
noncomputable def varTime (c : CapFloor) (p : SchedPeriod) : ℝ :=
  if yf365 c.valuation p.fin ≤ 0 then 0
  else capletTimeVar c.style (yf365 c.valuation p.start) (yf365 c.valuation p.fin)

theorem varTime_nonneg (c : CapFloor) (p : SchedPeriod) : 0 ≤ varTime c p := timeVar_nonneg _ _ _

theorem value_eq_vol (q : CapletData) (c : CapFloor) (cv : Curve) (p : SchedPeriod) (r v : ℝ) :
    q.value c cv p r v = c.direction.sign * c.notional * q.tau * (q.market c cv p r 0).dfPay *
      volValue c.kind (q.market c cv p r 0).forward c.strike (varTime c p)
        (q.sigma + v * (1 / 10000)) := by
  unfold CapletData.value optionValue volValue varTime
  rw [← totalVariance_eq]
  rfl

/-- The closed-form vega of one caplet. -/
noncomputable def CapletData.vega (q : CapletData) (c : CapFloor) (cv : Curve) (p : SchedPeriod)
    (sigma : ℝ) : ℝ :=
  c.direction.sign * c.notional * q.tau * (q.market c cv p 0 0).dfPay *
    volVega (q.market c cv p 0 0).forward c.strike (varTime c p) sigma * (1 / 10000)

theorem addVegas_data {c : CapFloor} {cv : Curve} {vs : List CapletPillar}
    {l : List (SchedPeriod × CapletData)} (hl : ∀ e ∈ l, e.2.Of c cv vs e.1)
    (hs : ∀ e ∈ l, 0 < e.2.sigma) (acc : ℝ) :
    c.addVegas cv vs (l.map Prod.fst) acc
      = .ok (acc + (l.map fun e => e.2.vega c cv e.1 e.2.sigma).sum) := by
  induction l generalizing acc with
  | nil => simp [CapFloor.addVegas]
  | cons e l ih =>
    have he := hl e (by simp)
    have hse := hs e (by simp)
    have ih' := ih (fun e he => hl e (List.mem_cons_of_mem _ he))
      (fun e he => hs e (List.mem_cons_of_mem _ he))
    have hv : (e.2.market c cv e.1 0 0).variance = e.2.sigma ^ 2 * varTime c e.1 := by
      unfold CapletData.market varTime
      simp only
      rw [totalVariance_eq]
      norm_num
    rw [List.map_cons, CapFloor.addVegas, market_of_data he, ok_bind]
    rcases (varTime_nonneg c e.1).eq_or_lt with h0 | h0
    · rw [if_pos (by rw [hv, ← h0]; simp), ih', List.map_cons, List.sum_cons]
      have : e.2.vega c cv e.1 e.2.sigma = 0 := by
        unfold CapletData.vega volVega
        rw [← h0]; simp
      rw [this, zero_add]
    · have hfin : ¬ yf365 c.valuation e.1.fin ≤ 0 := by
        intro h
        unfold varTime at h0
        rw [if_pos h] at h0
        exact lt_irrefl _ h0
      have ht : varTime c e.1
          = capletTimeVar c.style (yf365 c.valuation e.1.start) (yf365 c.valuation e.1.fin) := by
        unfold varTime
        rw [if_neg hfin]
      rw [if_neg (by rw [hv]; exact not_le.2 (by positivity)), he.2.2.2.2, ok_bind,
        if_neg (not_le.2 hse), ih', List.map_cons, List.sum_cons, ← add_assoc]
      refine congrArg Outcome.ok ?_
      congr 2
      unfold CapletData.vega
      rw [← vegaVariance_eq h0 hse, hv, ← ht]
      simp only [CapletData.market]
      ring

/-! ### Rate shifts -/

/-- The forward of a period under a rate shift. -/
noncomputable def CapletData.fwd (q : CapletData) (cv : Curve) (p : SchedPeriod) (r : ℝ) : ℝ :=
  (q.ds * Real.exp (-r * (1 / 10000) * yf365 cv.valuation p.start) /
      (q.de * Real.exp (-r * (1 / 10000) * yf365 cv.valuation p.fin)) - 1) / q.tau

theorem fwd_eq {q : CapletData} (cv : Curve) (p : SchedPeriod) (r : ℝ) :
    q.fwd cv p r = (q.ds / q.de * Real.exp (r * (1 / 10000) *
      (yf365 cv.valuation p.fin - yf365 cv.valuation p.start)) - 1) / q.tau := by
  unfold CapletData.fwd
  rw [mul_div_mul_comm, ← Real.exp_sub]
  congr 4
  ring

theorem value_eq_rate (q : CapletData) (c : CapFloor) (cv : Curve) (p : SchedPeriod) (r v : ℝ) :
    q.value c cv p r v = c.direction.sign * c.notional * q.tau *
      (q.dp * Real.exp (-r * (1 / 10000) * yf365 cv.valuation p.pay)) *
      forwardValue c.kind c.strike (q.market c cv p 0 v).variance (q.fwd cv p r) := by
  unfold CapletData.value optionValue forwardValue
  rfl

theorem contDiff_value {q : CapletData} {c : CapFloor} {cv : Curve} {p : SchedPeriod} {v : ℝ}
    (hV : 0 < (q.market c cv p 0 v).variance) : ContDiff ℝ 2 fun r => q.value c cv p r v := by
  simp only [value_eq_rate, fwd_eq]
  refine ContDiff.mul (by fun_prop) ((contDiff_forwardValue _ hV).comp (by fun_prop))

theorem forwardValue_eq (kind : CapKind) {F K V : ℝ} (hV : 0 < V) :
    forwardValue kind K V F = normalOption kind F K V := by
  cases kind with
  | cap =>
    unfold forwardValue normalOption bachelierCall
    simp only
    rw [if_neg (not_le.2 hV)]
  | floor =>
    unfold forwardValue normalOption bachelierPut
    simp only
    rw [if_neg (not_le.2 hV), show (K - F) / √V = -((F - K) / √V) by ring]

theorem hasDerivAt_value {q : CapletData} {c : CapFloor} {cv : Curve} {p : SchedPeriod} {v : ℝ}
    {D : Int → ℝ} (hde : q.de ≠ 0) (ht : q.tau ≠ 0) (h1 : q.ds = D p.start) (h2 : q.de = D p.fin)
    (h3 : q.dp = D p.pay) (hV : 0 < (q.market c cv p 0 v).variance) :
    HasDerivAt (fun r => q.value c cv p r v) (c.direction.sign * c.notional *
      periodDelta c.kind cv.valuation D q.tau c.strike (q.market c cv p 0 v).variance p) 0 := by
  set V := (q.market c cv p 0 v).variance with hVdef
  have e : (fun r => q.value c cv p r v) = fun r => c.direction.sign * c.notional * q.tau *
      (q.dp * Real.exp (-r * (1 / 10000) * yf365 cv.valuation p.pay)) *
      forwardValue c.kind c.strike V (q.fwd cv p r) := by
    funext r; rw [value_eq_rate]
  rw [e]
  have hF0 : q.fwd cv p 0 = periodForward D q.tau p := by
    rw [fwd_eq, periodForward, ← h1, ← h2]; simp
  have hF : HasDerivAt (q.fwd cv p) (1 / 10000 * ((yf365 cv.valuation p.fin
      - yf365 cv.valuation p.start) * (1 + q.tau * periodForward D q.tau p) / q.tau)) 0 := by
    have : q.fwd cv p = fun r => (q.ds / q.de * Real.exp (r * (1 / 10000) *
        (yf365 cv.valuation p.fin - yf365 cv.valuation p.start)) - 1) / q.tau := by
      funext r; exact fwd_eq cv p r
    rw [this]
    have a : HasDerivAt (fun r : ℝ => r * (1 / 10000) * (yf365 cv.valuation p.fin
        - yf365 cv.valuation p.start)) (1 * (1 / 10000) * (yf365 cv.valuation p.fin
        - yf365 cv.valuation p.start)) 0 := ((hasDerivAt_id (0 : ℝ)).mul_const _).mul_const _
    refine (((a.exp.const_mul (q.ds / q.de)).sub_const 1).div_const q.tau).congr_deriv ?_
    rw [periodForward, ← h1, ← h2]
    simp only [zero_mul, Real.exp_zero]
    field_simp
    ring
  have hE : HasDerivAt (fun r : ℝ => q.dp * Real.exp (-r * (1 / 10000) * yf365 cv.valuation p.pay))
      (q.dp * (-1 * (1 / 10000) * yf365 cv.valuation p.pay)) 0 := by
    have a : HasDerivAt (fun r : ℝ => -r * (1 / 10000) * yf365 cv.valuation p.pay)
        (-1 * (1 / 10000) * yf365 cv.valuation p.pay) 0 :=
      ((hasDerivAt_neg (0 : ℝ)).mul_const _).mul_const _
    refine (a.exp.const_mul q.dp).congr_deriv ?_
    simp
  have hG := (hasDerivAt_forwardValue c.kind (K := c.strike) (F := q.fwd cv p 0) hV).comp 0 hF
  have hd : forwardDelta c.kind (q.fwd cv p 0) c.strike V
      = normalDelta c.kind (q.fwd cv p 0) c.strike V := rfl
  refine ((hE.const_mul (c.direction.sign * c.notional * q.tau)).mul hG).congr_deriv ?_
  rw [hd]
  simp only [Function.comp_apply]
  rw [forwardValue_eq _ hV, hF0, h3]
  unfold periodDelta
  simp only [neg_zero, zero_mul, Real.exp_zero]
  field_simp

theorem contDiff_list_sum {α : Type*} {f : α → ℝ → ℝ} {l : List α}
    (h : ∀ a ∈ l, ContDiff ℝ 2 (f a)) : ContDiff ℝ 2 fun y => (l.map fun a => f a y).sum := by
  induction l with
  | nil => simpa using contDiff_const
  | cons a l ih =>
    simp only [List.map_cons, List.sum_cons]
    exact (h a (by simp)).add (ih fun b hb => h b (List.mem_cons_of_mem _ hb))

/-- A put falls when its forward rises. -/
theorem bachelierPut_antitone {F F' K V : ℝ} (h : F ≤ F') :
    bachelierPut F' K V ≤ bachelierPut F K V := by
  rcases le_or_gt V 0 with hV | hV
  · unfold bachelierPut
    rw [if_pos hV, if_pos hV]
    exact max_le_max (by linarith) le_rfl
  · have hm : Monotone bachCore := monotone_of_deriv_nonneg
      (fun x => (hasDerivAt_bachCore x).differentiableAt) fun x => by
        rw [(hasDerivAt_bachCore x).deriv]; exact normCdf_nonneg x
    rw [bachelierPut_eq hV, bachelierPut_eq hV]
    have := Real.sqrt_nonneg V
    refine mul_le_mul_of_nonneg_left (hm ?_) this
    gcongr

end Verif
