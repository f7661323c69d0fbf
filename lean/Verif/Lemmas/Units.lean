import Verif.Spec.Units
import Verif.Lemmas.HlmmChf
import Verif.Lemmas.FxFmmChf
import Verif.Lemmas.ImpliedVol
import Verif.Model.FxFmmCal

namespace Verif
open Outcome Classical

variable {c : ℝ}

/-! ## Black -/

theorem unit_quotient (hc : 0 < c) (F K : ℝ) : c * F / (c * K) = F / K :=
  mul_div_mul_left _ _ hc.ne'

theorem unit_max (hc : 0 < c) (x : ℝ) : max (c * x) 0 = c * max x 0 := by
  rw [mul_max_of_nonneg _ _ hc.le, mul_zero]

theorem bsCall_unit (hc : 0 < c) (F K sg t D : ℝ) :
    bsCallForward (c * F) (c * K) sg t D = c * bsCallForward F K sg t D := by
  unfold bsCallForward
  by_cases h : sg ≤ 0 ∨ t ≤ 0
  · rw [if_pos h, if_pos h, ← mul_sub, unit_max hc]; ring
  · rw [if_neg h, if_neg h]; dsimp only; rw [unit_quotient hc]; ring

theorem bsPut_unit (hc : 0 < c) (F K sg t D : ℝ) :
    bsPutForward (c * F) (c * K) sg t D = c * bsPutForward F K sg t D := by
  unfold bsPutForward
  by_cases h : sg ≤ 0 ∨ t ≤ 0
  · rw [if_pos h, if_pos h, ← mul_sub, unit_max hc]; ring
  · rw [if_neg h, if_neg h]; dsimp only; rw [unit_quotient hc]; ring

theorem blackScholes_unit (hc : 0 < c) (F K V D : ℝ) (ot : OptionType) :
    blackScholes (c * F) (c * K) V D ot = c * blackScholes F K V D ot := by
  unfold blackScholes
  by_cases h : V ≤ 0
  · rw [if_pos h, if_pos h]
    cases ot <;> dsimp only <;> rw [← mul_sub, unit_max hc] <;> ring
  · rw [if_neg h, if_neg h]; dsimp only; rw [unit_quotient hc]; ring

theorem unit_tol (hc : 0 < c) (x y tol : ℝ) : |c * x - c * y| < c * tol ↔ |x - y| < tol := by
  rw [← mul_sub, abs_mul, abs_of_pos hc]; exact mul_lt_mul_iff_right₀ hc

theorem bisectVol_unit (hc : 0 < c) (f : ℝ → ℝ) (target tol : ℝ) (n : ℕ) :
    ∀ lo hi, bisectVol (fun s => c * f s) (c * target) (c * tol) n lo hi =
      bisectVol f target tol n lo hi := by
  induction n with
  | zero => intro lo hi; rfl
  | succ n ih =>
    intro lo hi
    rw [bisectVol, bisectVol]
    dsimp only
    rw [ih, ih]
    by_cases h1 : hi - lo < 1 / 10 ^ 12
    · rw [if_pos h1, if_pos h1]
    rw [if_neg h1, if_neg h1]
    by_cases h2 : |f (1 / 2 * (lo + hi)) - target| < tol
    · rw [if_pos h2, if_pos ((unit_tol hc _ _ _).2 h2)]
    rw [if_neg h2, if_neg (fun h => h2 ((unit_tol hc _ _ _).1 h))]
    by_cases h3 : f (1 / 2 * (lo + hi)) < target
    · rw [if_pos h3, if_pos (mul_lt_mul_of_pos_left h3 hc)]
    · rw [if_neg h3, if_neg (fun h => h3 (lt_of_mul_lt_mul_left h hc.le))]

theorem blackPrice_unit (hc : 0 < c) (isCall : Bool) (F K sg t D : ℝ) :
    blackPrice isCall (c * F) (c * K) sg t D = c * blackPrice isCall F K sg t D := by
  cases isCall
  · exact bsPut_unit hc _ _ _ _ _
  · exact bsCall_unit hc _ _ _ _ _

theorem impliedVol_unit (hc : 0 < c) (target F K t D : ℝ) (isCall : Bool) (tol : ℝ) :
    bsImpliedVolTol (c * target) (c * F) (c * K) t D isCall (c * tol) =
      bsImpliedVolTol target F K t D isCall tol := by
  rw [impliedVol_eq, impliedVol_eq]
  have e : (fun s => blackPrice isCall (c * F) (c * K) s t D) =
      fun s => c * blackPrice isCall F K s t D := funext fun s => blackPrice_unit hc _ _ _ _ _ _
  rw [e, bisectVol_unit hc]
  refine if_congr ?_ rfl rfl
  rw [blackPrice_unit hc, blackPrice_unit hc, ← mul_sub, ← mul_add, gt_iff_lt, gt_iff_lt,
    mul_lt_mul_iff_right₀ hc, mul_lt_mul_iff_right₀ hc]

/-! ## COS -/

theorem chiK_unit (hc : 0 < c) (k : ℕ) (a b x y : ℝ) :
    chiK k (a + Real.log c) (b + Real.log c) (x + Real.log c) (y + Real.log c) =
      c * chiK k a b x y := by
  unfold chiK
  dsimp only
  have e1 : b + Real.log c - (a + Real.log c) = b - a := by ring
  have e2 : ∀ z, z + Real.log c - (a + Real.log c) = z - a := fun z => by ring
  rw [e1, e2, e2, Real.exp_add, Real.exp_add, Real.exp_log hc]
  ring

theorem psiK_unit (l : ℝ) (k : ℕ) (a b x y : ℝ) :
    psiK k (a + l) (b + l) (x + l) (y + l) = psiK k a b x y := by
  unfold psiK
  dsimp only
  have e1 : ∀ z w : ℝ, z + l - (w + l) = z - w := fun z w => by ring
  simp only [e1]

theorem term_unit (hc : 0 < c) {p q : CosPricer} (h1 : q.lo = p.lo + Real.log c)
    (h2 : q.hi = p.hi + Real.log c)
    (h : ∀ u : ℝ, q.chf.evaluate u = p.chf.evaluate u * Complex.exp (Complex.I * u * Real.log c))
    (K x y : ℝ) (isCall : Bool) (k : ℕ) :
    q.term (c * K) (x + Real.log c) (y + Real.log c) isCall k = c * p.term K x y isCall k := by
  unfold CosPricer.term
  dsimp only
  have ew : q.hi - q.lo = p.hi - p.lo := by rw [h1, h2]; ring
  rw [ew, h1, h2, chiK_unit hc, psiK_unit, h]
  have ep : ∀ u : ℝ, p.chf.evaluate u * Complex.exp (Complex.I * u * Real.log c)
      * Complex.exp ⟨0, -u * (p.lo + Real.log c)⟩ =
      p.chf.evaluate u * Complex.exp ⟨0, -u * p.lo⟩ := by
    intro u
    rw [mul_assoc, ← Complex.exp_add]
    congr 2
    apply Complex.ext <;> simp
    ring
  rw [ep]
  cases isCall
  · simp only [Bool.false_eq_true, if_false]; ring
  · simp only [if_true]; ring

theorem foldl_unit (c : ℝ) (f g : ℕ → ℝ) (h : ∀ k, g k = c * f k) (l : List ℕ) :
    ∀ a : ℝ, l.foldl (fun t k => t + g k) (c * a) = c * l.foldl (fun t k => t + f k) a := by
  induction l with
  | nil => intro a; rfl
  | cons k l ih => intro a; rw [List.foldl_cons, List.foldl_cons, h, ← mul_add, ih]

theorem priceEuropean_unit (hc : 0 < c) {p q : CosPricer} (hn : q.nTerms = p.nTerms)
    (h1 : q.lo = p.lo + Real.log c) (h2 : q.hi = p.hi + Real.log c)
    (h : ∀ u : ℝ, q.chf.evaluate u = p.chf.evaluate u * Complex.exp (Complex.I * u * Real.log c))
    (K D : ℝ) (isCall : Bool) :
    q.priceEuropean (c * K) D isCall = (c * ·) <$> p.priceEuropean K D isCall := by
  unfold CosPricer.priceEuropean
  by_cases hK : 0 < K
  · rw [if_pos hK, if_pos (mul_pos hc hK), map_ok]
    dsimp only
    rw [Real.log_mul hc.ne' hK.ne', hn, add_comm (Real.log c)]
    have key : ∀ x y : ℝ, (List.range p.nTerms).foldl
        (fun t k => t + q.term (c * K) (x + Real.log c) (y + Real.log c) isCall k) 0 =
        c * (List.range p.nTerms).foldl (fun t k => t + p.term K x y isCall k) 0 := by
      intro x y
      rw [← foldl_unit c _ _ (fun k => term_unit hc h1 h2 h K x y isCall k), mul_zero]
    cases isCall
    · simp only [Bool.false_eq_true, if_false]
      rw [h1]
      have := key p.lo (Real.log K)
      rw [this]; congr 1; ring
    · simp only [if_true]
      rw [h2]
      have := key (Real.log K) p.hi
      rw [this]; congr 1; ring
  · rw [if_neg hK, if_neg (fun h => hK ((mul_pos_iff_of_pos_left hc).1 h)), map_panic]

theorem newPricer_unit (hc : 0 < c) {f g : ForwardChf} (he : g.expiry = f.expiry)
    (hv : g.typicalVariance = f.typicalVariance) (hl : g.logForward = f.logForward + Real.log c)
    (h : ∀ u : ℝ, g.evaluate u = f.evaluate u * Complex.exp (Complex.I * u * Real.log c))
    (K D : ℝ) (isCall : Bool) :
    (CosPricer.new g).priceEuropean (c * K) D isCall =
      (c * ·) <$> (CosPricer.new f).priceEuropean K D isCall := by
  refine priceEuropean_unit hc (p := CosPricer.new f) (q := CosPricer.new g) ?_ ?_ ?_ h K D isCall
  · unfold CosPricer.new; rfl
  · show g.logForward - 10 * max √(g.typicalVariance * g.expiry) (1 / 10 ^ 6) =
      f.logForward - 10 * max √(f.typicalVariance * f.expiry) (1 / 10 ^ 6) + Real.log c
    rw [he, hv, hl]; ring
  · show g.logForward + 10 * max √(g.typicalVariance * g.expiry) (1 / 10 ^ 6) =
      f.logForward + 10 * max √(f.typicalVariance * f.expiry) (1 / 10 ^ 6) + Real.log c
    rw [he, hv, hl]; ring

/-! ## FX-HHW -/

theorem hhw_gridLoop_unit (p : HhwParams) (c T h : ℝ) (l : List ℕ) :
    (p.inUnit c).gridLoop T h l = p.gridLoop T h l := by
  induction l with
  | nil => rfl
  | cons k l ih => rw [HhwParams.gridLoop, HhwParams.gridLoop, ih]; rfl

theorem hhw_steps_unit (p : HhwParams) (c T : ℝ) (n : ℕ) :
    HhwChf.withSimpsonSteps (p.inUnit c) T n =
      (fun q => { q with params := p.inUnit c }) <$> HhwChf.withSimpsonSteps p T n := by
  unfold HhwChf.withSimpsonSteps
  by_cases h : 2 ≤ n ∧ n % 2 = 0
  · rw [if_pos h, if_pos h, HhwParams.buildGrid, HhwParams.buildGrid, hhw_gridLoop_unit]
    cases p.gridLoop T (T / n) (List.range (n + 1)) <;> rfl
  · rw [if_neg h, if_neg h]; rfl

theorem hhw_logForward_unit (hc : 0 < c) {p : HhwParams} (hp : 0 < p.fx0) (T : ℝ) :
    (p.inUnit c).logForward T = p.logForward T + Real.log c := by
  unfold HhwParams.logForward HhwParams.inUnit
  dsimp only
  rw [mul_assoc, mul_div_assoc, Real.log_mul hc.ne' (by positivity), add_comm]

theorem hhw_components_b {q : HhwChf} {u : ℂ} {tau : ℝ} {k : ChfComponents}
    (h : q.components u tau = .ok k) : k.b = Complex.I * u := by
  unfold HhwChf.components at h
  by_cases h1 : 0 ≤ tau ∧ tau ≤ q.expiry + 1 / 10 ^ 12
  · rw [if_pos h1] at h
    dsimp only at h
    by_cases h2 : |tau - q.expiry| < 1 / 10 ^ 12
    · rw [if_pos h2] at h
      obtain ⟨a, -, h⟩ := bind_eq_ok.1 h
      cases h; rfl
    · rw [if_neg h2] at h
      obtain ⟨a, -, h⟩ := bind_eq_ok.1 h
      cases h; rfl
  · rw [if_neg h1] at h; cases h

theorem hhw_evaluate_unit (hc : 0 < c) {q : HhwChf} (hp : 0 < q.params.fx0) (u : ℂ) :
    outcomeValue (HhwChf.evaluate { q with params := q.params.inUnit c } u) =
      outcomeValue (q.evaluate u) * Complex.exp (Complex.I * u * Real.log c) := by
  have e : HhwChf.components { q with params := q.params.inUnit c } u q.expiry =
      q.components u q.expiry := rfl
  unfold HhwChf.evaluate
  dsimp only
  rw [e, hhw_logForward_unit hc hp]
  cases hk : q.components u q.expiry with
  | ok k =>
    have hb := hhw_components_b hk
    rw [ok_bind, ok_bind]
    show Complex.exp (k.a + k.b * ((_ + _ : ℝ) : ℂ) + k.c * (q.params.heston.sigma0 : ℂ)) =
      Complex.exp (k.a + k.b * _ + k.c * (q.params.heston.sigma0 : ℂ)) * _
    rw [← Complex.exp_add, hb]
    push_cast
    congr 1
    ring
  | fail e => simp [outcomeValue]
  | panic => simp [outcomeValue]

theorem hhw_price_unit (hc : 0 < c) {p : HhwParams} (hp : 0 < p.fx0) (T K : ℝ) :
    hhwPriceCall (p.inUnit c) T (c * K) = (c * ·) <$> hhwPriceCall p T K := by
  unfold hhwPriceCall HhwChf.new
  rw [hhw_steps_unit]
  cases hq : HhwChf.withSimpsonSteps p T 128 with
  | fail e => rfl
  | panic => rfl
  | ok q =>
    have hpar : q.params = p := by
      unfold HhwChf.withSimpsonSteps at hq
      rw [if_pos (by norm_num)] at hq
      obtain ⟨g, -, h⟩ := bind_eq_ok.1 hq
      cases h; rfl
    subst hpar
    rw [map_ok, ok_bind, ok_bind]
    exact newPricer_unit hc (f := q.forwardChf)
      (g := HhwChf.forwardChf { q with params := q.params.inUnit c }) rfl rfl
      (hhw_logForward_unit hc hp _) (fun u => hhw_evaluate_unit hc hp u) K _ true

/-! ## FX-HLMM -/

theorem hlmm_segmentLoop_unit (p : HlmmParams) (c T : ℝ) (l : List ℝ) :
    ∀ prev, segmentLoop (p.inUnit c) T prev l = segmentLoop p T prev l := by
  induction l with
  | nil => intro prev; rfl
  | cons x l ih => intro prev; rw [segmentLoop, segmentLoop, ih]; rfl

theorem hlmm_steps_unit (p : HlmmParams) (c T : ℝ) (n : ℕ) :
    HlmmChf.withSimpsonSteps (p.inUnit c) T n =
      (fun q => { q with params := p.inUnit c }) <$> HlmmChf.withSimpsonSteps p T n := by
  unfold HlmmChf.withSimpsonSteps
  by_cases h : (2 ≤ n ∧ n % 2 = 0) ∧ 0 < T ∧ p.Valid
  · have h' : (2 ≤ n ∧ n % 2 = 0) ∧ 0 < T ∧ (p.inUnit c).Valid := h
    rw [if_pos h, if_pos h']
    have et : (p.inUnit c).tenor = p.tenor := rfl
    rw [et]
    cases tauBoundaries p.tenor T with
    | fail e => rfl
    | panic => rfl
    | ok taus =>
      rw [ok_bind, ok_bind, hlmm_segmentLoop_unit]
      cases segmentLoop p T 0 taus <;> rfl
  · have h' : ¬ ((2 ≤ n ∧ n % 2 = 0) ∧ 0 < T ∧ (p.inUnit c).Valid) := h
    rw [if_neg h, if_neg h']; rfl

theorem hlmm_components_b {q : HlmmChf} {u : ℂ} {k : HlmmComponents}
    (h : q.components u = .ok k) : k.b = Complex.I * u := by
  unfold HlmmChf.components at h
  obtain ⟨a, -, h⟩ := bind_eq_ok.1 h
  cases h; rfl

theorem hlmm_evaluate_unit (hc : 0 < c) {q : HlmmChf} (hp : 0 < q.params.fx0) {P : ℝ}
    (hP : liborDiscounts q.params q.expiry = .ok (P, P)) (h0 : 0 < P) (u : ℂ) :
    outcomeValue (HlmmChf.evaluate { q with params := q.params.inUnit c } u) =
      outcomeValue (q.evaluate u) * Complex.exp (Complex.I * u * Real.log c) := by
  have e : HlmmChf.components { q with params := q.params.inUnit c } u = q.components u := rfl
  have ed : liborDiscounts (q.params.inUnit c) q.expiry = .ok (P, P) := hP
  unfold HlmmChf.evaluate
  dsimp only
  rw [e]
  cases hk : q.components u with
  | ok k =>
    have hb := hlmm_components_b hk
    rw [ok_bind, ok_bind, ed, hP, ok_bind, ok_bind]
    have el : Real.log ((q.params.inUnit c).fx0 * P / P) =
        Real.log (q.params.fx0 * P / P) + Real.log c := by
      show Real.log (c * q.params.fx0 * P / P) = _
      rw [mul_assoc, mul_div_assoc, Real.log_mul hc.ne' (by positivity), add_comm]
    dsimp only
    rw [el]
    show Complex.exp (k.a + k.b * ((_ + _ : ℝ) : ℂ) + k.c * (q.params.heston.sigma0 : ℂ)
        + k.dd * (q.params.domestic.v0 : ℂ) + k.df * (q.params.foreign.v0 : ℂ)) =
      Complex.exp (k.a + k.b * _ + k.c * (q.params.heston.sigma0 : ℂ)
        + k.dd * (q.params.domestic.v0 : ℂ) + k.df * (q.params.foreign.v0 : ℂ)) * _
    rw [← Complex.exp_add, hb]
    push_cast
    congr 1
    ring
  | fail e => simp [outcomeValue]
  | panic => simp [outcomeValue]

theorem hlmm_price_unit (hc : 0 < c) {p : HlmmParams} (hp : 0 < p.fx0) (h : p.tenor.Ordered)
    (hn : 0 < p.tenor.n)
    (hL : ∀ k, 1 ≤ k → k ≤ p.tenor.n → 0 < 1 + (p.tenor.T k - p.tenor.T (k - 1)) * p.tenor.L k)
    (T K : ℝ) :
    hlmmPriceCall (p.inUnit c) T (c * K) = (c * ·) <$> hlmmPriceCall p T K := by
  obtain ⟨P, hP, h0⟩ := liborDiscounts_ok h hn hL T
  have ed : hlmmDiscount (p.inUnit c) T = hlmmDiscount p T := rfl
  unfold hlmmPriceCall HlmmChf.new
  rw [hlmm_steps_unit, ed]
  cases hq : HlmmChf.withSimpsonSteps p T 32 with
  | fail e => rfl
  | panic => rfl
  | ok q =>
    have hpar : q.params = p ∧ q.expiry = T := by
      unfold HlmmChf.withSimpsonSteps at hq
      split_ifs at hq with h1
      · obtain ⟨g, -, h⟩ := bind_eq_ok.1 hq
        obtain ⟨g, -, h⟩ := bind_eq_ok.1 h
        cases h; exact ⟨rfl, rfl⟩
    obtain ⟨rfl, rfl⟩ := hpar
    rw [map_ok, ok_bind, ok_bind]
    cases hlmmDiscount q.params q.expiry with
    | fail e => rfl
    | panic => rfl
    | ok D =>
      rw [ok_bind, ok_bind]
      refine newPricer_unit hc (f := q.forwardChf)
        (g := HlmmChf.forwardChf { q with params := q.params.inUnit c }) rfl rfl ?_
        (fun u => hlmm_evaluate_unit hc hp hP h0 u) K _ true
      show Real.log (c * q.params.fx0) = Real.log q.params.fx0 + Real.log c
      rw [Real.log_mul hc.ne' hp.ne', add_comm]

/-! ## FX-FMM -/

theorem fmm_chunkLoop_unit (p : FmmParams) (c T prev tau : ℝ) (n : ℕ) (l : List ℕ) :
    chunkLoop (p.inUnit c) T prev tau n l = chunkLoop p T prev tau n l := by
  induction l with
  | nil => rfl
  | cons x l ih => rw [chunkLoop, chunkLoop, ih]; rfl

theorem fmm_subLoop_unit (p : FmmParams) (c T : ℝ) (n : ℕ) (l : List ℝ) :
    ∀ prev, subLoop (p.inUnit c) T n prev l = subLoop p T n prev l := by
  induction l with
  | nil => intro prev; rfl
  | cons x l ih => intro prev; rw [subLoop, subLoop, ih, fmm_chunkLoop_unit]

theorem fmm_resolution_unit (p : FmmParams) (c T : ℝ) (n m : ℕ) :
    FmmChf.withResolution (p.inUnit c) T n m =
      (fun q => { q with params := p.inUnit c }) <$> FmmChf.withResolution p T n m := by
  unfold FmmChf.withResolution
  by_cases h : 0 < T ∧ 1 ≤ n ∧ (2 ≤ m ∧ m % 2 = 0) ∧ p.Valid
  · have h' : 0 < T ∧ 1 ≤ n ∧ (2 ≤ m ∧ m % 2 = 0) ∧ (p.inUnit c).Valid := h
    rw [if_pos h, if_pos h']
    have et : (p.inUnit c).tenor = p.tenor := rfl
    have e1 : (p.inUnit c).domestic = p.domestic := rfl
    have e2 : (p.inUnit c).foreign = p.foreign := rfl
    rw [et, e1, e2]
    cases fmmTauBoundaries p.tenor T with
    | fail e => rfl
    | panic => rfl
    | ok taus =>
      rw [ok_bind, ok_bind, fmm_subLoop_unit]
      cases subLoop p T n 0 taus with
      | fail e => rfl
      | panic => rfl
      | ok segs =>
        rw [ok_bind, ok_bind]
        cases p.domestic.psiBase p.tenor with
        | fail e => rfl
        | panic => rfl
        | ok b =>
          rw [ok_bind, ok_bind]
          cases p.foreign.psiBase p.tenor <;> rfl
  · have h' : ¬ (0 < T ∧ 1 ≤ n ∧ (2 ≤ m ∧ m % 2 = 0) ∧ (p.inUnit c).Valid) := h
    rw [if_neg h, if_neg h']; rfl

theorem fmm_components_b {q : FmmChf} {u : ℂ} {k : HlmmComponents}
    (h : q.components u = .ok k) : k.b = Complex.I * u := by
  unfold FmmChf.components at h
  obtain ⟨a, -, h⟩ := bind_eq_ok.1 h
  cases h; rfl

theorem fmm_evaluate_unit (hc : 0 < c) {q : FmmChf} (hp : 0 < q.params.fx0) {P : ℝ}
    (hP : rateDiscounts q.params q.expiry = .ok (P, P)) (h0 : 0 < P) (u : ℂ) :
    outcomeValue (FmmChf.evaluate { q with params := q.params.inUnit c } u) =
      outcomeValue (q.evaluate u) * Complex.exp (Complex.I * u * Real.log c) := by
  have e : FmmChf.components { q with params := q.params.inUnit c } u = q.components u := rfl
  have ed : rateDiscounts (q.params.inUnit c) q.expiry = .ok (P, P) := hP
  unfold FmmChf.evaluate
  dsimp only
  rw [e]
  cases hk : q.components u with
  | ok k =>
    have hb := fmm_components_b hk
    rw [ok_bind, ok_bind, ed, hP, ok_bind, ok_bind]
    have el : Real.log ((q.params.inUnit c).fx0 * P / P) =
        Real.log (q.params.fx0 * P / P) + Real.log c := by
      show Real.log (c * q.params.fx0 * P / P) = _
      rw [mul_assoc, mul_div_assoc, Real.log_mul hc.ne' (by positivity), add_comm]
    dsimp only
    rw [el]
    show Complex.exp (k.a + k.b * ((_ + _ : ℝ) : ℂ) + k.c * (q.params.heston.sigma0 : ℂ)
        + k.dd * (q.params.domestic.v0 : ℂ) + k.df * (q.params.foreign.v0 : ℂ)) =
      Complex.exp (k.a + k.b * _ + k.c * (q.params.heston.sigma0 : ℂ)
        + k.dd * (q.params.domestic.v0 : ℂ) + k.df * (q.params.foreign.v0 : ℂ)) * _
    rw [← Complex.exp_add, hb]
    push_cast
    congr 1
    ring
  | fail e => simp [outcomeValue]
  | panic => simp [outcomeValue]

theorem fmm_price_unit (hc : 0 < c) {p : FmmParams} (hp : 0 < p.fx0) (h : p.tenor.Ordered)
    (hR : ∀ k, 1 ≤ k → k ≤ p.tenor.m → 0 < 1 + (p.tenor.T k - p.tenor.T (k - 1)) * p.tenor.R k)
    (T K : ℝ) :
    fmmPriceCall (p.inUnit c) T (c * K) = (c * ·) <$> fmmPriceCall p T K := by
  obtain ⟨P, hP, h0⟩ := rateDiscounts_ok h hR T
  have ed : fmmDiscount (p.inUnit c) T = fmmDiscount p T := rfl
  unfold fmmPriceCall FmmChf.new
  rw [fmm_resolution_unit, ed]
  cases hq : FmmChf.withResolution p T 1 32 with
  | fail e => rfl
  | panic => rfl
  | ok q =>
    have hpar : q.params = p ∧ q.expiry = T := by
      unfold FmmChf.withResolution at hq
      split_ifs at hq with h1
      · obtain ⟨g, -, h⟩ := bind_eq_ok.1 hq
        obtain ⟨g, -, h⟩ := bind_eq_ok.1 h
        obtain ⟨g, -, h⟩ := bind_eq_ok.1 h
        obtain ⟨g, -, h⟩ := bind_eq_ok.1 h
        cases h; exact ⟨rfl, rfl⟩
    obtain ⟨rfl, rfl⟩ := hpar
    rw [map_ok, ok_bind, ok_bind]
    cases fmmDiscount q.params q.expiry with
    | fail e => rfl
    | panic => rfl
    | ok D =>
      rw [ok_bind, ok_bind]
      refine newPricer_unit hc (f := q.forwardChf)
        (g := FmmChf.forwardChf { q with params := q.params.inUnit c }) rfl rfl ?_
        (fun u => fmm_evaluate_unit hc hp hP h0 u) K _ true
      show Real.log (c * q.params.fx0) = Real.log q.params.fx0 + Real.log c
      rw [Real.log_mul hc.ne' hp.ne', add_comm]

end Verif
