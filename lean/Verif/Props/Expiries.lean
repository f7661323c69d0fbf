import Verif.Lemmas.Expiries
import Verif.Props.Dupire

/-!
# C99: options to later expiries do not cost less

Undiscounted prices at one strike of options on one forward.
-/

namespace Verif

open Outcome MeasureTheory ProbabilityTheory

/-- **C99.** If the forward is a martingale, the mean payoffs of calls and puts do not decrease with the
expiry. -/
theorem C99_martingale {Ω ι : Type} [Preorder ι] {m0 : MeasurableSpace Ω} {μ : Measure Ω}
    [IsProbabilityMeasure μ] {ℱ : Filtration ι m0} {X : ι → Ω → ℝ} (hX : Martingale X ℱ μ) {s t : ι} (h : s ≤ t)
    (K : ℝ) : ∫ ω, max (X s ω - K) 0 ∂μ ≤ ∫ ω, max (X t ω - K) 0 ∂μ ∧
      ∫ ω, max (K - X s ω) 0 ∂μ ≤ ∫ ω, max (K - X t ω) 0 ∂μ := by
  have h1 := (hX.submartingale.sub_martingale (martingale_const ℱ μ K)).pos
  have h2 := ((martingale_const ℱ μ K).submartingale.sub_martingale hX).pos
  have k1 := h1.setIntegral_le h MeasurableSet.univ
  have k2 := h2.setIntegral_le h MeasurableSet.univ
  simp only [setIntegral_univ] at k1 k2
  exact ⟨k1, k2⟩

/-- Non-vacuity of `C99_martingale`: a normal draw that is unknown before time one. -/
example : ∃ (ℱ : Filtration ℕ (borel ℝ)) (X : ℕ → ℝ → ℝ), Martingale X ℱ (gaussianReal 0 1) ∧
    X 1 = fun z => z := by
  refine ⟨⟨fun n => if n = 0 then ⊥ else borel ℝ, ?_, ?_⟩, fun n => (gaussianReal 0 1)[fun z : ℝ => z |
    (if n = 0 then ⊥ else borel ℝ : MeasurableSpace ℝ)], ?_, ?_⟩
  · intro a b hab
    by_cases h : a = 0
    · simp [h]
    · have : b ≠ 0 := by omega
      simp [h, this]
  · intro n
    by_cases h : n = 0
    · simp [h]
    · simp [h]
  · exact martingale_condExp _ _ _
  · beta_reduce
    rw [if_neg one_ne_zero]
    exact condExp_of_stronglyMeasurable le_rfl stronglyMeasurable_id ((memLp_id_gaussianReal 1).integrable le_rfl)

/-- **C99.** Of two options on the same forward and strike the one with the larger total variance costs
more: prices do not decrease exactly when total variances do not. -/
theorem C99_black {F K V V' : ℝ} (hF : 0 < F) (hK : 0 < K) (hV : 0 ≤ V) (hV' : 0 ≤ V') (ot : OptionType) :
    blackScholes F K V 1 ot ≤ blackScholes F K V' 1 ot ↔ V ≤ V' :=
  black_le_iff hF hK hV hV' ot

example : ¬ blackScholes 1 1 (1 / 10) 1 .put ≤ blackScholes 1 1 0 1 .put := by
  rw [C99_black one_pos one_pos (by norm_num) le_rfl]
  norm_num

/-- **C99.** Prices read from an FX volatility surface do not decrease with the expiry, whatever days are
compared, exactly when the total variances of its pillars do not. -/
theorem C99_fx (ks : KeySearch) {val : Int} {ps : List VolPillar} {s : FxVolSurface} {F K : ℝ}
    (h : FxVolSurface.new val ps = .ok s) (hd : (ps.map VolPillar.expiry).Nodup) (hF : 0 < F) (hK : 0 < K)
    (ot : OptionType) :
    (∀ e e' v v', val < e → e ≤ e' → s.volatility ks e K = .ok v → s.volatility ks e' K = .ok v' →
      blackScholes F K (v ^ 2 * yf365 val e) 1 ot ≤ blackScholes F K (v' ^ 2 * yf365 val e') 1 ot) ↔
    s.smiles.Pairwise fun a b => a.totalVar K ≤ b.totalVar K := by
  obtain ⟨n1, n2, n3, n4, n5⟩ := surface_new h
  have pos : ∀ (v : ℝ) (e : Int), val < e → 0 ≤ v ^ 2 * yf365 val e := by
    intro v e he
    have : 0 ≤ yf365 val e := by
      unfold yf365
      refine div_nonneg ?_ (by norm_num)
      exact_mod_cast (by omega)
    positivity
  constructor
  · intro hm
    have hs := List.pairwise_map.1 n4
    refine List.Pairwise.imp_of_mem ?_ hs
    intro a b ha hb hab
    have va : val < a.expiry := by
      have := (n5 a ha).1
      rw [(n5 a ha).2] at this
      unfold yf365 at this
      have : (0 : ℝ) < ((a.expiry - val : Int) : ℝ) := by
        by_contra hc
        have := div_nonpos_of_nonpos_of_nonneg (not_lt.1 hc) (by norm_num : (0 : ℝ) ≤ 365)
        linarith
      have : 0 < a.expiry - val := by exact_mod_cast this
      omega
    have := hm a.expiry b.expiry _ _ va hab (C35_pillar ks h hd hK ha) (C35_pillar ks h hd hK hb)
    rw [black_le_iff hF hK (pos _ _ va) (pos _ _ (by omega)), ← (n5 a ha).2, ← (n5 b hb).2] at this
    exact this
  · intro hm e e' v v' he hee hv hv'
    rw [black_le_iff hF hK (pos _ _ he) (pos _ _ (by omega))]
    exact C35_monotone ks h hd hm hK he hee hv hv'

/-- Non-vacuity of `C99_fx`: a surface with two pillars in the wrong order. -/
example : ∃ s, FxVolSurface.new 0 [samplePillar 365, samplePillar 100] = .ok s ∧
    ([samplePillar 365, samplePillar 100].map VolPillar.expiry).Nodup := by
  obtain ⟨s, -, -, h, -⟩ := sampleSurface
  exact ⟨s, h, by simp [samplePillar]⟩

/-- **C99.** Prices with Hagan's volatilities do not decrease up to an expiry `T` exactly when the slope of
the formula in the expiry is at least `-1 / (3 T)`. -/
theorem C99_hagan {p : Sabr} (hp : p.Admissible) {f k T : ℝ} (hf : 0 < f) (hk : 0 < k) (hT : 0 < T) :
    (∀ s t v w, 0 < s → s ≤ t → t ≤ T → haganVol p f k s = .ok v → haganVol p f k t = .ok w →
      bsCallForward f k v s 1 ≤ bsCallForward f k w t 1) ↔ -1 / (3 * T) ≤ haganSlope p f k := by
  obtain ⟨A, hA, hv⟩ := hagan_value hp hf hk
  have var : ∀ c t : ℝ, (A * (1 + c * t)) ^ 2 * t = A ^ 2 * ((1 + c * t) ^ 2 * t) := fun c t => by ring
  have hA2 : 0 < A ^ 2 := by positivity
  rw [div_le_iff₀ (by positivity)]
  constructor
  · intro h
    by_contra hc
    obtain ⟨s, t, hs, hst, htT, p1, p2, hlt⟩ := cubic_drop (B := haganSlope p f k) hT (by linarith)
    have ht := hs.trans hst
    have := h s t _ _ hs hst.le htT (hv s hs) (hv t ht)
    rw [bsCall_black hf hk (by positivity) hs.le, bsCall_black hf hk (by positivity) ht.le,
      black_le_iff hf hk (by positivity) (by positivity), var, var, mul_le_mul_iff_right₀ hA2] at this
    linarith
  · intro h s t v w hs hst htT h1 h2
    have ht := hs.trans_le hst
    rw [hv s hs] at h1
    rw [hv t ht] at h2
    rw [← ok.inj h1, ← ok.inj h2]
    clear h1 h2 hv
    generalize haganSlope p f k = B at *
    have low : ∀ u, 0 < u → u ≤ T → 0 ≤ 1 + 3 * (B * u) := by
      intro u hu huT
      rcases le_or_gt 0 B with hB | hB
      · have := mul_nonneg hB hu.le
        linarith
      · have := mul_le_mul_of_nonpos_left huT hB.le
        linarith
    have p1 := low s hs (hst.trans htT)
    have p2 := low t ht htT
    have q1 : 0 < 1 + B * s := by linarith
    have q2 : 0 < 1 + B * t := by linarith
    rw [bsCall_black hf hk (by positivity) hs.le, bsCall_black hf hk (by positivity) ht.le,
      black_le_iff hf hk (by positivity) (by positivity), var, var, mul_le_mul_iff_right₀ hA2]
    exact cubic_mono hst p1 p2

/-- **C99, refuted.** Where the slope is negative there are two expiries of which the later costs less. -/
theorem C99_hagan_false {p : Sabr} (hp : p.Admissible) {f k : ℝ} (hf : 0 < f) (hk : 0 < k)
    (hB : haganSlope p f k < 0) : ∃ s t v w, 0 < s ∧ s < t ∧ haganVol p f k s = .ok v ∧ 0 < v ∧
      haganVol p f k t = .ok w ∧ 0 < w ∧ bsCallForward f k w t 1 < bsCallForward f k v s 1 := by
  obtain ⟨A, hA, hv⟩ := hagan_value hp hf hk
  obtain ⟨s, t, hs, hst, -, p1, p2, hlt⟩ := cubic_drop (B := haganSlope p f k) (T := -1 / haganSlope p f k)
    (div_pos_of_neg_of_neg (by norm_num) hB) (by rw [mul_div_cancel₀ _ hB.ne]; norm_num)
  have ht := hs.trans hst
  refine ⟨s, t, _, _, hs, hst, hv s hs, by positivity, hv t ht, by positivity, ?_⟩
  rw [bsCall_black hf hk (by positivity) hs.le, bsCall_black hf hk (by positivity) ht.le, ← not_le,
    black_le_iff hf hk (by positivity) (by positivity), not_le]
  have hA2 : 0 < A ^ 2 := by positivity
  have := mul_lt_mul_of_pos_left hlt hA2
  calc _ = A ^ 2 * ((1 + haganSlope p f k * t) ^ 2 * t) := by ring
    _ < _ := this
    _ = _ := by ring

/-- Non-vacuity of `C99_hagan` and `C99_hagan_false`: strongly negative correlation makes the slope
negative, zero correlation does not. -/
example : (⟨1, 1, -9 / 10, 10⟩ : Sabr).Admissible ∧ haganSlope ⟨1, 1, -9 / 10, 10⟩ 1 1 < 0 ∧
    (⟨1, 1, 0, 10⟩ : Sabr).Admissible ∧ -1 / (3 * 1) ≤ haganSlope ⟨1, 1, 0, 10⟩ 1 1 := by
  refine ⟨⟨?_, ?_, ?_, ?_, ?_, ?_⟩, ?_, ⟨?_, ?_, ?_, ?_, ?_, ?_⟩, ?_⟩ <;> norm_num [haganSlope]

/-- **C99.** A local volatility grid over volatilities whose total variance falls from the expiry before a
node to the one after it is built without an error; the node then holds the squared quoted volatility
(no interest rates). -/
theorem C99_local_vol {expiries strikes : List ℝ} {vols : List (List ℝ)} {spot : ℝ} {v : LocalVol}
    (h : LocalVol.build expiries strikes vols spot 0 0 = .ok v) (i j : ℕ) (hi : 1 ≤ i)
    (hi' : i + 1 < expiries.length) (hj : j < strikes.length) (hK : 0 < strikes.getD j 0)
    (ht : 0 < expiries.getD (i - 1) 0) (w : ℕ → ℝ) (hw : ∀ a, w a = (vols.getD a []).getD j 0) (hp : ∀ a, 0 ≤ w a)
    (ha : w (i + 1) ^ 2 * expiries.getD (i + 1) 0 ≤ w (i - 1) ^ 2 * expiries.getD (i - 1) 0) :
    v.node i j = intoBand (w i ^ 2) := by
  obtain ⟨h1, h2, h3, h4, h5, h6, h7, h9, h8⟩ := build_ok h
  rw [(h8 i (by omega) j hj).2, nodeVariance_eq, if_neg, ← hw, sq]
  rintro ⟨-, hc⟩
  have q1 : expiries.getD (i - 1) 0 < expiries.getD (i + 1) 0 := incr_lt h3 (by omega) hi'
  have price : ∀ a, 0 < expiries.getD a 0 → gridPrice expiries strikes vols spot 0 0 a j =
      blackScholes spot (strikes.getD j 0) (w a ^ 2 * expiries.getD a 0) 1 .call := by
    intro a hpos
    rw [← bsCall_black h5 hK (hp a) hpos.le]
    unfold gridPrice
    rw [← hw]
    simp
  have hle : gridPrice expiries strikes vols spot 0 0 (i + 1) j ≤ gridPrice expiries strikes vols spot 0 0 (i - 1) j := by
    rw [price _ (ht.trans q1), price _ ht]
    exact C32_monotone h5 hK zero_le_one ha .call
  unfold dupireNumer fdT at hc
  rw [if_neg (by omega), if_neg (by omega)] at hc
  simp only [sub_self, zero_mul, add_zero] at hc
  have := div_nonpos_of_nonpos_of_nonneg (sub_nonpos.2 hle) (sub_pos.2 q1).le
  linarith

/-- Non-vacuity of `C99_local_vol`: a volatility of 50% for one year, 20% for two and 10% for three. -/
example : ∃ v, LocalVol.build [1, 2, 3] [1, 5 / 4, 3 / 2]
    [List.replicate 3 (1 / 2), List.replicate 3 (1 / 5), List.replicate 3 (1 / 10)] 1 0 0 = .ok v ∧
    v.node 1 1 = 1 / 25 := by
  have : ∃ v, LocalVol.build [1, 2, 3] [1, 5 / 4, 3 / 2]
      [List.replicate 3 (1 / 2), List.replicate 3 (1 / 5), List.replicate 3 (1 / 10)] 1 0 0 = .ok v := by
    rw [LocalVol.build, if_pos]
    · exact ⟨_, rfl⟩
    · refine ⟨by simp, by simp, by simp, by simp, ?_, ?_, by norm_num⟩ <;>
      · rw [windowsIncrease_iff]; norm_num
  obtain ⟨v, h⟩ := this
  refine ⟨v, h, ?_⟩
  have := C99_local_vol h 1 1 le_rfl (by simp) (by simp) (by norm_num) (by norm_num)
    (fun a => [(1 : ℝ) / 2, 1 / 5, 1 / 10].getD a 0) ?_ ?_ (by norm_num)
  · rw [this]; norm_num [intoBand]
  · intro a
    match a with
    | 0 | 1 | 2 => simp
    | a + 3 => simp
  · intro a
    match a with
    | 0 | 1 | 2 => norm_num
    | a + 3 => simp

end Verif
