import Verif.Lemmas.FxHump

/-!
# C96: smiles and arbitrage between strikes

Undiscounted prices of calls to one expiry have to be mean payoffs of one law of the exchange rate.  A
flat smile has this property (`C96_flat`).  It bounds how fast a smile may rise with the distance of
the strike from the forward (`C96_high`, `C96_low`).  Hagan's formula breaks the bound for all
admissible parameters but the flat ones (`C96_hagan`): there are always two strikes whose prices can be
played against each other (`C96_hagan_calls_false`, `C96_hagan_puts_false`).  The quoted FX smile keeps
the bound (`C96_fx_wings`), but its volatility can become negative beyond the quoted strikes
(`C96_fx_negative_false`).
-/

namespace Verif

open Outcome Classical Filter Topology MeasureTheory

/-! ## What a law implies -/

/-- **C96.** Calls of a law cost less at higher strikes, vanish far away, and puts cost more per unit
of strike at higher strikes. -/
theorem C96_law {F : ℝ} {C : ℝ → ℝ} (h : CallsOfLaw F C) :
    (∀ K L, 0 < K → K ≤ L → C L ≤ C K) ∧ Tendsto C atTop (𝓝 0) ∧
      ∀ K L, 0 < K → K ≤ L → (C K - F + K) / K ≤ (C L - F + L) / L :=
  ⟨fun _ _ => law_antitone h, law_tendsto h, fun _ _ => law_put_ratio h⟩

/-- **C96.** Black prices with one volatility for all strikes are those of a law. -/
theorem C96_flat {F sg t : ℝ} (hF : 0 < F) (hs : 0 ≤ sg) (ht : 0 ≤ t) :
    CallsOfLaw F fun K => bsCallForward F K sg t 1 := by
  have hv : 0 ≤ sg ^ 2 * t := by positivity
  refine law_of_draw (g := lognormalLevel F (sg ^ 2 * t)) ?_ (fun z => ?_) (lognormal_integrable F _)
    (lognormal_mean F hv) fun K hK => ?_
  · unfold lognormalLevel; fun_prop
  · unfold lognormalLevel; positivity
  · rw [(C85_black_forward hF hK hs ht 1).1, one_mul]
    rfl

example : CallsOfLaw (5 / 4) fun K => bsCallForward (5 / 4) K (1 / 5) 2 1 :=
  C96_flat (by norm_num) (by norm_num) (by norm_num)

example (K L : ℝ) (hK : 0 < K) (hL : K ≤ L) :
    bsCallForward (5 / 4) L (1 / 5) 2 1 ≤ bsCallForward (5 / 4) K (1 / 5) 2 1 :=
  (C96_law (C96_flat (F := 5 / 4) (sg := 1 / 5) (t := 2) (by norm_num) (by norm_num) (by norm_num))).1
    K L hK hL

/-- **C96.** At high strikes the volatility of a law is below `√(2 log (K / F) / t)`. -/
theorem C96_high {F t : ℝ} (hF : 0 < F) (ht : 0 < t) {sg : ℝ → ℝ}
    (h : CallsOfLaw F fun K => bsCallForward F K (sg K) t 1) :
    ∀ᶠ K in atTop, sg K < √(2 * Real.log (K / F) / t) := by
  filter_upwards [lee_high hF ht (fun _ _ => rfl) h] with K hK
  have hq : 0 < √t := Real.sqrt_pos.2 ht
  rwa [Real.sqrt_div' _ ht.le, lt_div_iff₀ hq]

/-- **C96.** At low strikes it is not everywhere above `√(4 log (F / K) / t)`. -/
theorem C96_low {F t : ℝ} (hF : 0 < F) (ht : 0 < t) {sg : ℝ → ℝ}
    (h : CallsOfLaw F fun K => bsCallForward F K (sg K) t 1) :
    ∃ᶠ K in 𝓝[>] 0, sg K < √(4 * Real.log (F / K) / t) := by
  refine (lee_low hF ht (fun _ _ => rfl) h).mono fun K hK => ?_
  have hq : 0 < √t := Real.sqrt_pos.2 ht
  rw [Real.sqrt_div' _ ht.le, lt_div_iff₀ hq, show (4 : ℝ) = 2 ^ 2 by norm_num,
    Real.sqrt_mul (by norm_num), Real.sqrt_sq (by norm_num)]
  exact hK

example : ∀ᶠ K in atTop, (1 / 5 : ℝ) < √(2 * Real.log (K / (5 / 4)) / 2) :=
  C96_high (F := 5 / 4) (t := 2) (sg := fun _ => 1 / 5) (by norm_num) (by norm_num)
    (C96_flat (by norm_num) (by norm_num) (by norm_num))

example : ∃ᶠ K in 𝓝[>] (0 : ℝ), (1 / 5 : ℝ) < √(4 * Real.log (5 / 4 / K) / 2) :=
  C96_low (F := 5 / 4) (t := 2) (sg := fun _ => 1 / 5) (by norm_num) (by norm_num)
    (C96_flat (by norm_num) (by norm_num) (by norm_num))

/-! ## Hagan's formula -/

/-- **C96, refuted.** With `β < 1` there is a strike below the forward whose put costs more per unit of
strike than the put at the forward, although it pays less whatever the exchange rate. -/
theorem C96_hagan_puts_false {p : Sabr} (hp : p.Admissible) (hb : p.beta < 1) {f t : ℝ} (hf : 0 < f)
    (ht : 0 < t) : ∃ K v w, 0 < K ∧ K < f ∧ haganVol p f K t = .ok v ∧ haganVol p f f t = .ok w ∧
      f / K * bsPutForward f K v t 1 > bsPutForward f f w t 1
      ∧ ∀ s ≥ 0, f / K * max (K - s) 0 ≤ max (f - s) 0 := by
  set w := p.smile f t f
  have hlt := bsPut_lt hf hf w t
  obtain ⟨y0, hy⟩ := put_almost_strike (b := bsPutForward f f w t 1 / f) ((div_lt_one hf).2 hlt)
  obtain ⟨x, h1, h2⟩ := ((smile_down hp hb hf ht 2).and (eventually_ge_atTop (max y0 1))).exists
  have hlog : Real.log (f / (f * Real.exp (-x))) = x := by
    rw [div_mul_cancel_left₀ hf.ne', ← Real.exp_neg, neg_neg, Real.log_exp]
  have hK : 0 < f * Real.exp (-x) := by positivity
  have hx : 1 ≤ x := (le_max_right _ _).trans h2
  have hKf : f * Real.exp (-x) < f :=
    mul_lt_of_lt_one_right hf (by rw [← Real.exp_zero]; exact Real.exp_lt_exp.2 (by linarith))
  have := hy hf hK ht (by rw [hlog]; exact (le_max_left _ _).trans h2) (by rw [hlog]; exact h1)
  refine ⟨f * Real.exp (-x), _, w, hK, hKf, haganVol_smile p hf hK ht, haganVol_smile p hf hf ht, ?_,
    fun s hs => ?_⟩
  · have h3 := mul_lt_mul_of_pos_left this (div_pos hf hK)
    rw [gt_iff_lt]
    refine lt_of_eq_of_lt ?_ h3
    field_simp
  · rw [mul_max_of_nonneg _ _ (div_pos hf hK).le, mul_zero]
    refine max_le_max ?_ le_rfl
    rw [mul_sub, div_mul_cancel₀ _ hK.ne']
    have : s ≤ f / (f * Real.exp (-x)) * s := le_mul_of_one_le_left hs ((one_le_div hK).2 hKf.le)
    linarith

/-- **C96, refuted.** With `β = 1` there is a strike above the forward whose call costs more than the
call at the forward. -/
theorem C96_hagan_calls_false {alpha rho nu : ℝ} (ha : 0 < alpha) (h0 : -1 < rho) (h1 : rho < 1)
    (hn : 0 < nu) {f t : ℝ} (hf : 0 < f) (ht : 0 < t) (hc : 0 < lognormalCorrection alpha rho nu t) :
    ∃ K v w, f < K ∧ haganVol ⟨alpha, 1, rho, nu⟩ f K t = .ok v ∧
      haganVol ⟨alpha, 1, rho, nu⟩ f f t = .ok w ∧
      bsCallForward f K v t 1 > bsCallForward f f w t 1 := by
  set p : Sabr := ⟨alpha, 1, rho, nu⟩
  set w := p.smile f t f
  have hlt := bsCall_lt hf hf w t
  obtain ⟨y0, hy⟩ := call_almost_forward (b := bsCallForward f f w t 1 / f) ((div_lt_one hf).2 hlt)
  obtain ⟨x, e1, e2⟩ := ((smile_up ha h0 h1 hn hf ht hc).and (eventually_ge_atTop (max y0 1))).exists
  have hx : 1 ≤ x := (le_max_right _ _).trans e2
  have hlog : Real.log (f * Real.exp x / f) = x := by
    rw [mul_div_cancel_left₀ _ hf.ne', Real.log_exp]
  have hK : 0 < f * Real.exp x := by positivity
  have := hy hf hK ht (by rw [hlog]; exact (le_max_left _ _).trans e2) (by rw [hlog]; exact e1)
  refine ⟨f * Real.exp x, _, w, ?_, haganVol_smile p hf hK ht, haganVol_smile p hf hf ht, ?_⟩
  · exact lt_mul_of_one_lt_right hf (Real.one_lt_exp_iff.2 (by linarith))
  · rw [mul_div_cancel₀ _ hf.ne'] at this
    exact this

/-- **C96.** Black prices with Hagan's volatilities are those of a law exactly when the smile is
flat: `β = 1` and no volatility of volatility. -/
theorem C96_hagan {p : Sabr} (hp : p.Admissible) {f t : ℝ} (hf : 0 < f) (ht : 0 < t)
    (hc : p.beta = 1 → 0 < lognormalCorrection p.alpha p.rho p.nu t) {C : ℝ → ℝ}
    (hC : ∀ K > 0, ∃ v, haganVol p f K t = .ok v ∧ C K = bsCallForward f K v t 1) :
    CallsOfLaw f C ↔ p.beta = 1 ∧ p.nu = 0 := by
  constructor
  · intro h
    have hcall : ∀ K v, 0 < K → haganVol p f K t = .ok v → C K = bsCallForward f K v t 1 := by
      intro K v hK hv
      obtain ⟨v', h1, h2⟩ := hC K hK
      rw [hv] at h1
      rw [h2, Outcome.ok.inj h1]
    rcases hp.beta1.lt_or_eq with hb | hb
    · exfalso
      obtain ⟨K, v, w, hK, hKf, hv, hw, hgt, -⟩ := C96_hagan_puts_false hp hb hf ht
      have := law_put_ratio h hK hKf.le
      rw [hcall K v hK hv, hcall f w hf hw] at this
      have p1 := bs_forward_parity hf hK v t
      have p2 := bs_forward_parity hf hf w t
      rw [show bsCallForward f K v t 1 - f + K = bsPutForward f K v t 1 by linarith,
        show bsCallForward f f w t 1 - f + f = bsPutForward f f w t 1 by linarith,
        div_le_div_iff₀ hK hf] at this
      rw [gt_iff_lt, div_mul_eq_mul_div, lt_div_iff₀ hK] at hgt
      linarith
    · refine ⟨hb, ?_⟩
      by_contra hne
      have hn : 0 < p.nu := lt_of_le_of_ne hp.nu (Ne.symm hne)
      have e : p = ⟨p.alpha, 1, p.rho, p.nu⟩ := by rw [← hb]
      obtain ⟨K, v, w, hKf, hv, hw, hgt⟩ :=
        C96_hagan_calls_false hp.alpha hp.rho0 hp.rho1 hn hf ht (hc hb)
      rw [← e] at hv hw
      have := law_antitone h hf hKf.le
      rw [hcall K v (hf.trans hKf) hv, hcall f w hf hw] at this
      linarith
  · rintro ⟨hb, hn⟩
    have e : p = ⟨p.alpha, 1, p.rho, 0⟩ := by rw [← hb, ← hn]
    obtain ⟨μ, h1, h2, h3, h4, h5⟩ := C96_flat hf hp.alpha.le ht.le
    refine ⟨μ, h1, h2, h3, h4, fun K hK => ?_⟩
    obtain ⟨v, hv, hCK⟩ := hC K hK
    rw [e, C53_flat p.alpha p.rho f K t hf hK ht] at hv
    rw [hCK, ← Outcome.ok.inj hv]
    exact h5 K hK

/-- `α = 20%`, `ρ = -30%`, `ν = 40%`, one year: admissible for every `β`. -/
theorem exSabr_admissible {b : ℝ} (h0 : 0 ≤ b) (h1 : b ≤ 1) :
    Sabr.Admissible ⟨1 / 5, b, -3 / 10, 2 / 5⟩ :=
  ⟨by norm_num, h0, h1, by norm_num, by norm_num, by norm_num⟩

example : ∃ K v w, 0 < K ∧ K < 5 / 4 ∧ haganVol ⟨1 / 5, 1 / 2, -3 / 10, 2 / 5⟩ (5 / 4) K 1 = .ok v ∧
    haganVol ⟨1 / 5, 1 / 2, -3 / 10, 2 / 5⟩ (5 / 4) (5 / 4) 1 = .ok w ∧
    5 / 4 / K * bsPutForward (5 / 4) K v 1 1 > bsPutForward (5 / 4) (5 / 4) w 1 1
    ∧ ∀ s ≥ 0, 5 / 4 / K * max (K - s) 0 ≤ max (5 / 4 - s) 0 :=
  C96_hagan_puts_false (exSabr_admissible (by norm_num) (by norm_num)) (by norm_num) (by norm_num)
    (by norm_num)

example : ∃ K v w, 5 / 4 < K ∧ haganVol ⟨1 / 5, 1, -3 / 10, 2 / 5⟩ (5 / 4) K 1 = .ok v ∧
    haganVol ⟨1 / 5, 1, -3 / 10, 2 / 5⟩ (5 / 4) (5 / 4) 1 = .ok w ∧
    bsCallForward (5 / 4) K v 1 1 > bsCallForward (5 / 4) (5 / 4) w 1 1 :=
  C96_hagan_calls_false (by norm_num) (by norm_num) (by norm_num) (by norm_num) (by norm_num)
    (by norm_num) (by norm_num [lognormalCorrection])

example : CallsOfLaw (5 / 4) fun K => bsCallForward (5 / 4) K (1 / 5) 1 1 :=
  (C96_hagan (p := ⟨1 / 5, 1, -3 / 10, 0⟩)
    ⟨by norm_num, by norm_num, by norm_num, by norm_num, by norm_num, by norm_num⟩ (by norm_num)
    one_pos (fun _ => by norm_num [lognormalCorrection])
    fun K hK => ⟨_, C53_flat _ _ _ _ _ (by norm_num) hK one_pos, rfl⟩).2 ⟨rfl, rfl⟩

/-! ## Quoted FX smiles -/

/-- **C96.** Beyond the quoted strikes the volatility of a smile section tends to the constant term of
its parabola at high strikes and to the sum of the coefficients at low ones, so the bounds of
`C96_high` and `C96_low` hold. -/
theorem C96_fx_wings {s : Smile} (hF : 0 < s.forward) (hr : 0 < s.sigmaRef) (hT : 0 < s.yearFraction) :
    Tendsto s.volatility atTop (𝓝 s.c) ∧ Tendsto s.volatility (𝓝[>] 0) (𝓝 (s.a + s.b + s.c)) ∧
      (∀ t > 0, ∀ᶠ K in atTop, s.volatility K < √(2 * Real.log (K / s.forward) / t)) ∧
      ∀ t > 0, ∀ᶠ K in 𝓝[>] 0, s.volatility K < √(4 * Real.log (s.forward / K) / t) := by
  have hd : 0 < s.sigmaRef * √s.yearFraction := mul_pos hr (Real.sqrt_pos.2 hT)
  have hh := log_high s.forward hF
  have hl := log_low s.forward hF
  have neg : ∀ K, Real.log (s.forward / K) = -Real.log (K / s.forward) := fun K => by
    rw [← Real.log_inv, inv_div]
  have poly : ∀ {l : Filter ℝ} {y : ℝ},
      Tendsto (fun K => normCdf (Real.log (s.forward / K) / (s.sigmaRef * √s.yearFraction))) l (𝓝 y) →
      (∀ᶠ K in l, Real.log (K / s.forward) < s.logMin ∨ Real.log (K / s.forward) > s.logMax) →
      Tendsto s.volatility l (𝓝 (s.a * y * y + s.b * y + s.c)) := by
    intro l y hy hout
    have h1 := (((hy.const_mul s.a).mul hy).add (hy.const_mul s.b)).add_const s.c
    refine h1.congr' ?_
    filter_upwards [hout] with K hK
    unfold Smile.volatility
    dsimp only
    rw [if_pos hK, add_zero]
  have high : Tendsto s.volatility atTop (𝓝 s.c) := by
    have := poly (l := atTop) (y := 0) (tendsto_normCdf_atBot.comp ?_)
      ((hh.eventually_gt_atTop s.logMax).mono fun K hK => .inr hK)
    · simpa using this
    · simp only [neg]
      exact (tendsto_neg_atTop_atBot.comp hh).atBot_div_const hd
  have low : Tendsto s.volatility (𝓝[>] 0) (𝓝 (s.a + s.b + s.c)) := by
    have := poly (l := 𝓝[>] 0) (y := 1) (tendsto_normCdf_atTop.comp (hl.atTop_div_const hd))
      ((hl.eventually_gt_atTop (-s.logMin)).mono fun K hK => .inl (by rw [neg] at hK; linarith))
    simpa using this
  refine ⟨high, low, fun t ht => ?_, fun t ht => ?_⟩
  · have h1 : Tendsto (fun K => √(2 * Real.log (K / s.forward) / t)) atTop atTop :=
      Real.tendsto_sqrt_atTop.comp ((hh.const_mul_atTop two_pos).atTop_div_const ht)
    filter_upwards [high.eventually (gt_mem_nhds (lt_add_one s.c)), h1.eventually_ge_atTop (s.c + 1)]
      with K h2 h3
    exact h2.trans_le h3
  · have h1 : Tendsto (fun K => √(4 * Real.log (s.forward / K) / t)) (𝓝[>] 0) atTop :=
      Real.tendsto_sqrt_atTop.comp ((hl.const_mul_atTop (by norm_num)).atTop_div_const ht)
    filter_upwards [low.eventually (gt_mem_nhds (lt_add_one (s.a + s.b + s.c))),
      h1.eventually_ge_atTop (s.a + s.b + s.c + 1)] with K h2 h3
    exact h2.trans_le h3

/-- **C96, refuted.** A smile section accepted with positive quotes whose volatility is negative at all
high strikes. -/
theorem C96_fx_negative_false : ∃ s, Smile.fromPillar humpPillar (1 / 100) = .ok s ∧
    ∀ᶠ K in atTop, s.volatility K < 0 := by
  obtain ⟨s, hs, h1, h2, h3, h4⟩ := hump_smile
  exact ⟨s, hs, (C96_fx_wings (by rw [h1]; norm_num) h2 (by rw [h3]; norm_num)).1.eventually
    (gt_mem_nhds h4)⟩

example : ∃ s, Smile.fromPillar humpPillar (1 / 100) = .ok s ∧ Tendsto s.volatility atTop (𝓝 s.c) := by
  obtain ⟨s, hs, h1, h2, h3, -⟩ := hump_smile
  exact ⟨s, hs, (C96_fx_wings (by rw [h1]; norm_num) h2 (by rw [h3]; norm_num)).1⟩

end Verif
