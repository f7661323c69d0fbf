import Verif.Lemmas.FmmBond

/-! # Discounted stub bonds have no drift -/

namespace Verif

open Outcome Classical

variable {f : Fmm} {p : FmmPath} {p0 : ℝ → ℝ}

theorem partialR_const_mul (j : ℕ) (c : ℝ) (F : (ℕ → ℝ) → ℝ) (R : ℕ → ℝ) :
    partialR j (fun R => c * F R) R = c * partialR j F R := by
  rw [partialR, partialR, deriv_const_mul_field]

theorem fmmGen_const_mul (n : ℕ) (μ : ℕ → ℝ) (c : ℕ → ℕ → ℝ) (a : ℝ) (F : (ℕ → ℝ) → ℝ)
    (R : ℕ → ℝ) : fmmGen n μ c (fun R => a * F R) R = a * fmmGen n μ c F R := by
  have h1 : ∀ j, partialR j (fun R => a * F R) = fun R => a * partialR j F R :=
    fun j => funext fun R => partialR_const_mul j a F R
  simp only [fmmGen, h1, partialR_const_mul]
  have e1 : ∑ j ∈ Finset.Icc 1 n, μ j * (a * partialR j F R)
      = a * ∑ j ∈ Finset.Icc 1 n, μ j * partialR j F R := by
    rw [Finset.mul_sum]
    exact Finset.sum_congr rfl fun j _ => by ring
  have e2 : ∑ i ∈ Finset.Icc 1 n, ∑ j ∈ Finset.Icc 1 n, c i j * (a * partialR i (partialR j F) R)
      = a * ∑ i ∈ Finset.Icc 1 n, ∑ j ∈ Finset.Icc 1 n, c i j * partialR i (partialR j F) R := by
    rw [Finset.mul_sum]
    refine Finset.sum_congr rfl fun i _ => ?_
    rw [Finset.mul_sum]
    exact Finset.sum_congr rfl fun j _ => by ring
  rw [e1, e2]
  ring

/-- The generator on a product of discount factors, the last to the power `G`. -/
theorem fmmGen_lastPow {n k : ℕ} (hk1 : 1 ≤ k) (hk : k ≤ n) {τ s R : ℕ → ℝ} {ρ : ℕ → ℕ → ℝ} {G : ℝ}
    (h : ∀ i ∈ Finset.Icc 1 k, 0 < 1 + τ i * R i)
    (hρ : ∀ i ∈ Finset.Icc 1 k, ∀ j ∈ Finset.Icc 1 k, ρ i j = ρ j i) :
    fmmGen n (fmmDrift ρ τ R s) (fun i j => ρ i j * s i * s j)
        (powBond τ (fun i => if i = k then G else 1) k) R
      = powBond τ (fun i => if i = k then G else 1) k R
        * (-(1 / 2) * G * (1 - G) * (ρ k k * (s k * (τ k / (1 + τ k * R k))) ^ 2)) := by
  rw [fmmGen_powBond hk h]
  congr 1
  set w : ℕ → ℝ := fun i => if i = k then G else 1 with hw
  set b : ℕ → ℝ := fun i => τ i / (1 + τ i * R i) with hb
  have hd := double_sum_lower k (fun i j => ρ i j * s i * s j * (w i * b i) * (w j * b j))
    fun i hi j hj => by rw [hρ i hi j hj]; ring
  change -∑ j ∈ Finset.Icc 1 k, fmmDrift ρ τ R s j * (w j * b j)
    + 1 / 2 * (∑ j ∈ Finset.Icc 1 k, ρ j j * s j * s j * (w j * b j ^ 2)
      + ∑ i ∈ Finset.Icc 1 k, ∑ j ∈ Finset.Icc 1 k, ρ i j * s i * s j * (w i * b i) * (w j * b j)) = _
  have hdr : ∀ j, fmmDrift ρ τ R s j * (w j * b j)
      = ∑ i ∈ Finset.Icc 1 j, ρ i j * s i * s j * b i * (w j * b j) := by
    intro j
    rw [fmmDrift, Finset.mul_sum, Finset.sum_mul]
    exact Finset.sum_congr rfl fun i _ => by simp only [hb]; ring
  obtain ⟨l, rfl⟩ : ∃ l, k = l + 1 := ⟨k - 1, by omega⟩
  have hw1 : ∀ i, i ≤ l → w i = 1 := fun i hi => if_neg (by omega)
  have hwk : w (l + 1) = G := if_pos rfl
  -- split off the last index in every sum
  have hsame : ∀ j ∈ Finset.Icc 1 l, ∑ i ∈ Finset.Icc 1 j, ρ i j * s i * s j * (w i * b i) * (w j * b j)
      = ∑ i ∈ Finset.Icc 1 j, ρ i j * s i * s j * b i * (w j * b j) := by
    intro j hj
    rw [Finset.mem_Icc] at hj
    refine Finset.sum_congr rfl fun i hi => ?_
    rw [Finset.mem_Icc] at hi
    rw [hw1 i (by omega), one_mul]
  have hlast : ∑ i ∈ Finset.Icc 1 (l + 1), ρ i (l + 1) * s i * s (l + 1) * (w i * b i)
        * (w (l + 1) * b (l + 1))
      = ∑ i ∈ Finset.Icc 1 (l + 1), ρ i (l + 1) * s i * s (l + 1) * b i * (w (l + 1) * b (l + 1))
        + (G - 1) * G * (ρ (l + 1) (l + 1) * s (l + 1) ^ 2 * b (l + 1) ^ 2) := by
    rw [Finset.sum_Icc_succ_top (by omega), Finset.sum_Icc_succ_top (by omega), hwk]
    have : ∑ i ∈ Finset.Icc 1 l, ρ i (l + 1) * s i * s (l + 1) * (w i * b i) * (G * b (l + 1))
        = ∑ i ∈ Finset.Icc 1 l, ρ i (l + 1) * s i * s (l + 1) * b i * (G * b (l + 1)) :=
      Finset.sum_congr rfl fun i hi => by
        rw [Finset.mem_Icc] at hi
        rw [hw1 i hi.2, one_mul]
    rw [this]
    ring
  have hdiag : ∑ j ∈ Finset.Icc 1 (l + 1), ρ j j * s j * s j * (w j * b j) * (w j * b j)
      = ∑ j ∈ Finset.Icc 1 (l + 1), ρ j j * s j * s j * (w j * b j ^ 2)
        + (G - 1) * G * (ρ (l + 1) (l + 1) * s (l + 1) ^ 2 * b (l + 1) ^ 2) := by
    rw [Finset.sum_Icc_succ_top (by omega), Finset.sum_Icc_succ_top (by omega), hwk]
    have : ∑ j ∈ Finset.Icc 1 l, ρ j j * s j * s j * (w j * b j) * (w j * b j)
        = ∑ j ∈ Finset.Icc 1 l, ρ j j * s j * s j * (w j * b j ^ 2) :=
      Finset.sum_congr rfl fun j hj => by
        rw [Finset.mem_Icc] at hj
        rw [hw1 j hj.2]; ring
    rw [this]
    ring
  have htri : ∑ j ∈ Finset.Icc 1 (l + 1), ∑ i ∈ Finset.Icc 1 j,
        ρ i j * s i * s j * (w i * b i) * (w j * b j)
      = ∑ j ∈ Finset.Icc 1 (l + 1), fmmDrift ρ τ R s j * (w j * b j)
        + (G - 1) * G * (ρ (l + 1) (l + 1) * s (l + 1) ^ 2 * b (l + 1) ^ 2) := by
    simp_rw [hdr]
    rw [Finset.sum_Icc_succ_top (b := l) (by omega) (f := fun j => ∑ i ∈ Finset.Icc 1 j,
        ρ i j * s i * s j * (w i * b i) * (w j * b j)), hlast,
      Finset.sum_congr rfl hsame, Finset.sum_Icc_succ_top (b := l) (by omega)
        (f := fun j => ∑ i ∈ Finset.Icc 1 j, ρ i j * s i * s j * b i * (w j * b j))]
    ring
  rw [hdiag, htri] at hd
  have hbk : b (l + 1) = τ (l + 1) / (1 + τ (l + 1) * R (l + 1)) := rfl
  rw [← hbk]
  linear_combination 1 / 2 * hd

/-- The discounted back stub as a function of the rates and the accumulated variance. -/
noncomputable def backPrice (q : FmmTenor) (p0 : ℝ → ℝ) (k : ℕ) (T : ℝ) (R : ℕ → ℝ) (y : ℝ) : ℝ :=
  discBond q.len (k - 1) R * backVal q p0 k (R k) y T

theorem backPrice_eq (q : FmmTenor) (p0 : ℝ → ℝ) {k : ℕ} (hk : 1 ≤ k) (T : ℝ) (R : ℕ → ℝ) (y : ℝ) :
    backPrice q p0 k T R y
      = (p0Fwd p0 (q.T (k - 1)) T * p0Fwd p0 (q.T (k - 1)) (q.T k) ^ (-(1 - ahead q k T))
        * Real.exp (1 / 2 * (1 - ahead q k T) * ahead q k T * y))
        * powBond q.len (fun i => if i = k then 1 - ahead q k T else 1) k R := by
  obtain ⟨l, rfl⟩ : ∃ l, k = l + 1 := ⟨k - 1, by omega⟩
  rw [backPrice, backVal, discBond_eq, powBond, powBond, Nat.add_sub_cancel,
    Finset.prod_Icc_succ_top hk, if_pos rfl]
  have : ∏ i ∈ Finset.Icc 1 l, (1 + q.len i * R i) ^ (-if i = l + 1 then 1 - ahead q (l + 1) T else 1)
      = ∏ i ∈ Finset.Icc 1 l, (1 + q.len i * R i) ^ (-(1 : ℝ)) :=
    Finset.prod_congr rfl fun i hi => by
      rw [Finset.mem_Icc] at hi
      rw [if_neg (by omega)]
  rw [this]
  ring

theorem backPrice_driftless {q : FmmTenor} {k : ℕ} (hk : 1 ≤ k) (hk2 : k ≤ q.m) (T : ℝ)
    {s R : ℕ → ℝ} {ρ : ℕ → ℕ → ℝ} (h : ∀ i, 1 ≤ i → i ≤ q.m → 0 < 1 + q.len i * R i)
    (hτ : 0 < q.len k)
    (hρ : ∀ i, 1 ≤ i → i ≤ q.m → ∀ j, 1 ≤ j → j ≤ q.m → ρ i j = ρ j i) (hd : ρ k k = 1) (y : ℝ) :
    fmmGen q.m (fmmDrift ρ q.len R s) (fun i j => ρ i j * s i * s j)
        (fun R => backPrice q p0 k T R y) R
      + (s k / (R k + 1 / q.len k)) ^ 2 * deriv (fun y => backPrice q p0 k T R y) y = 0 := by
  have hpos : ∀ i ∈ Finset.Icc 1 k, 0 < 1 + q.len i * R i := fun i hi => by
    rw [Finset.mem_Icc] at hi
    exact h i hi.1 (by omega)
  have e1 : (fun R => backPrice q p0 k T R y) = fun R =>
      (p0Fwd p0 (q.T (k - 1)) T * p0Fwd p0 (q.T (k - 1)) (q.T k) ^ (-(1 - ahead q k T))
        * Real.exp (1 / 2 * (1 - ahead q k T) * ahead q k T * y))
        * powBond q.len (fun i => if i = k then 1 - ahead q k T else 1) k R :=
    funext fun R => backPrice_eq q p0 hk T R y
  rw [e1, fmmGen_const_mul, fmmGen_lastPow hk hk2 hpos fun i hi j hj => by
    rw [Finset.mem_Icc] at hi hj
    exact hρ i hi.1 (by omega) j hj.1 (by omega)]
  have hde : HasDerivAt (fun y => backPrice q p0 k T R y)
      ((1 / 2 * (1 - ahead q k T) * ahead q k T) * backPrice q p0 k T R y) y := by
    have e2 : (fun y => backPrice q p0 k T R y) = fun y =>
        (p0Fwd p0 (q.T (k - 1)) T * p0Fwd p0 (q.T (k - 1)) (q.T k) ^ (-(1 - ahead q k T))
          * powBond q.len (fun i => if i = k then 1 - ahead q k T else 1) k R)
          * Real.exp (1 / 2 * (1 - ahead q k T) * ahead q k T * y) :=
      funext fun y => by rw [backPrice_eq q p0 hk]; ring
    rw [e2]
    have h1 : HasDerivAt (fun y => 1 / 2 * (1 - ahead q k T) * ahead q k T * y)
        (1 / 2 * (1 - ahead q k T) * ahead q k T) y := by
      simpa using (hasDerivAt_id y).const_mul (1 / 2 * (1 - ahead q k T) * ahead q k T)
    refine (h1.exp.const_mul _).congr_deriv ?_
    rw [backPrice_eq q p0 hk]
    ring
  rw [hde.deriv, backPrice_eq q p0 hk, hd]
  have hk0 := h k hk hk2
  have hr : s k / (R k + 1 / q.len k) = s k * (q.len k / (1 + q.len k * R k)) := by
    have : R k + 1 / q.len k ≠ 0 := by
      have : R k + 1 / q.len k = (1 + q.len k * R k) / q.len k := by field_simp; ring
      rw [this]
      exact (div_pos hk0 hτ).ne'
    field_simp
    ring
  rw [hr]
  ring

/-! ## Inside a period -/

/-- The discounted bond inside a period. -/
noncomputable def frontPrice (c h τ Tk y0 : ℝ) (t r x y : ℝ) : ℝ :=
  c * (1 + τ * r)⁻¹ * Real.exp (h * x + ((Tk - t) / τ * h - 1 / 2 * h ^ 2) * (y - y0))

theorem frontPrice_driftless (c h Tk y0 v : ℝ) {τ t r : ℝ} (x y : ℝ) (hτ : 0 < τ)
    (hr : 0 < 1 + τ * r) :
    stubGen (v * ((Tk - t) / τ) * (v * ((Tk - t) / τ) * τ / (1 + τ * r))) (v * ((Tk - t) / τ))
      (1 / τ * (y - y0)) (v / (r + 1 / τ)) ((v / (r + 1 / τ)) ^ 2) (frontPrice c h τ Tk y0) t r x y
      = 0 := by
  have hlin : ∀ r : ℝ, HasDerivAt (fun r => 1 + τ * r) τ r := fun r => by
    simpa using ((hasDerivAt_id r).const_mul τ).const_add 1
  set E : ℝ → ℝ → ℝ → ℝ := fun t x y =>
    Real.exp (h * x + ((Tk - t) / τ * h - 1 / 2 * h ^ 2) * (y - y0)) with hE
  have hF : ∀ t r x y, frontPrice c h τ Tk y0 t r x y = c * (1 + τ * r)⁻¹ * E t x y :=
    fun _ _ _ _ => rfl
  have dt : deriv (fun t => frontPrice c h τ Tk y0 t r x y) t
      = c * (1 + τ * r)⁻¹ * (-(1 / τ) * h * (y - y0) * E t x y) := by
    have h1 : HasDerivAt (fun t => h * x + ((Tk - t) / τ * h - 1 / 2 * h ^ 2) * (y - y0))
        (-(1 / τ) * h * (y - y0)) t := by
      have a := (((((hasDerivAt_id t).const_sub Tk).div_const τ).mul_const h).sub_const
        (1 / 2 * h ^ 2)).mul_const (y - y0) |>.const_add (h * x)
      refine a.congr_deriv ?_
      ring
    refine ((h1.exp.const_mul (c * (1 + τ * r)⁻¹)).deriv).trans ?_
    simp only [hE]; ring
  have dr1 : ∀ x r, 0 < 1 + τ * r → HasDerivAt (fun r => frontPrice c h τ Tk y0 t r x y)
      (c * (-τ / (1 + τ * r) ^ 2) * E t x y) r := fun x r hr => by
    have := (((hlin r).inv hr.ne').const_mul c).mul_const (E t x y)
    exact this
  have dx1 : ∀ r x, HasDerivAt (fun x => frontPrice c h τ Tk y0 t r x y)
      (c * (1 + τ * r)⁻¹ * (h * E t x y)) x := fun r x => by
    have h1 : HasDerivAt (fun x => h * x + ((Tk - t) / τ * h - 1 / 2 * h ^ 2) * (y - y0)) h x := by
      simpa using ((hasDerivAt_id x).const_mul h).add_const
        (((Tk - t) / τ * h - 1 / 2 * h ^ 2) * (y - y0))
    refine (h1.exp.const_mul (c * (1 + τ * r)⁻¹)).congr_deriv ?_
    simp only [hE]; ring
  have dy : deriv (fun y => frontPrice c h τ Tk y0 t r x y) y
      = c * (1 + τ * r)⁻¹ * (((Tk - t) / τ * h - 1 / 2 * h ^ 2) * E t x y) := by
    have h1 : HasDerivAt (fun y => h * x + ((Tk - t) / τ * h - 1 / 2 * h ^ 2) * (y - y0))
        ((Tk - t) / τ * h - 1 / 2 * h ^ 2) y := by
      simpa using (((hasDerivAt_id y).sub_const y0).const_mul
        ((Tk - t) / τ * h - 1 / 2 * h ^ 2)).const_add (h * x)
    refine ((h1.exp.const_mul (c * (1 + τ * r)⁻¹)).deriv).trans ?_
    simp only [hE]; ring
  have hev : ∀ᶠ r' in nhds r, 0 < 1 + τ * r' :=
    (show Continuous fun r' => 1 + τ * r' by fun_prop).continuousAt.eventually (lt_mem_nhds hr)
  have drr : deriv (fun r => deriv (fun r => frontPrice c h τ Tk y0 t r x y) r) r
      = c * (2 * τ ^ 2 / (1 + τ * r) ^ 3) * E t x y := by
    have he : (fun r => deriv (fun r => frontPrice c h τ Tk y0 t r x y) r)
        =ᶠ[nhds r] fun r => c * (-τ / (1 + τ * r) ^ 2) * E t x y := by
      filter_upwards [hev] with r' hr'
      exact (dr1 x r' hr').deriv
    rw [he.deriv_eq]
    have h2 := (((hasDerivAt_const r (-τ)).div ((hlin r).pow 2) (pow_ne_zero 2 hr.ne')).const_mul
      c).mul_const (E t x y)
    refine h2.deriv.trans ?_
    have := hr.ne'
    simp only [Nat.add_one_sub_one, Nat.cast_ofNat, pow_one, Pi.pow_apply]
    field_simp
    ring
  have drx : deriv (fun r => deriv (fun x => frontPrice c h τ Tk y0 t r x y) x) r
      = c * (-τ / (1 + τ * r) ^ 2) * (h * E t x y) := by
    have he : (fun r => deriv (fun x => frontPrice c h τ Tk y0 t r x y) x)
        = fun r => c * (1 + τ * r)⁻¹ * (h * E t x y) := funext fun r => (dx1 r x).deriv
    rw [he]
    exact ((((hlin r).inv hr.ne').const_mul c).mul_const (h * E t x y)).deriv
  have dxx : deriv (fun x => deriv (fun x => frontPrice c h τ Tk y0 t r x y) x) x
      = c * (1 + τ * r)⁻¹ * (h * (h * E t x y)) := by
    have he : (fun x => deriv (fun x => frontPrice c h τ Tk y0 t r x y) x)
        = fun x => h * frontPrice c h τ Tk y0 t r x y := funext fun x => by
      rw [(dx1 r x).deriv, hF]; ring
    rw [he, ((dx1 r x).const_mul h).deriv]
    ring
  rw [stubGen, dt, (dr1 x r hr).deriv, (dx1 r x).deriv, dy, drr, drx, dxx]
  have h1 : r + 1 / τ ≠ 0 := by
    have : r + 1 / τ = (1 + τ * r) / τ := by field_simp; ring
    rw [this]
    exact (div_pos hr hτ).ne'
  have h2 : v / (r + 1 / τ) = v * τ / (1 + τ * r) := by
    have := hr.ne'
    field_simp
    ring
  rw [h2]
  have := hr.ne'
  field_simp
  ring

/-- A bond of the current period in units of the bank account. -/
theorem discounted_front (h : f.tenor.Ordered) (hp : p.Fits f.tenor.m) {k : ℕ} (h1 : 1 ≤ k)
    (h2 : k ≤ f.tenor.m) {T : ℝ} (ht : f.tenor.T (k - 1) < p.t) (hT1 : p.t + 1 / 10 ^ 15 ≤ T)
    (hT2 : T ≤ f.tenor.T k) (ho : OffTolerance f.tenor p.t) (hc : ∀ t, 0 < p0 t)
    (hr : ∀ j, 1 ≤ j → j ≤ k → 0 < 1 + f.tenor.len j * p.R j)
    (hs : 0 < 1 + f.tenor.len k * p.startR k) :
    ∃ P B, bondPrice f p T p0 = .ok P ∧ bankAccount f p p0 = .ok B ∧ 0 < P ∧ 0 < B
      ∧ P / B = frontPrice (discBond f.tenor.len (k - 1) p.R * (p0 T / p0 (f.tenor.T k))
          * p0Fwd p0 (f.tenor.T (k - 1)) (f.tenor.T k) ^ ahead f.tenor k T
          * (1 + f.tenor.len k * p.startR k) ^ ahead f.tenor k T
          * Real.exp (1 / 2 * p.startY k * (ahead f.tenor k T * (1 - ahead f.tenor k T))))
        (ahead f.tenor k T) (f.tenor.len k) (f.tenor.T k) (p.startY k) p.t (p.R k) p.xActive
        (p.Y k) := by
  have hε : (0 : ℝ) < 1 / 10 ^ 15 := by positivity
  have hpos := FmmTenor.tau_pos h h1 h2
  have hk : f.tenor.etaN p.t = k := FmmTenor.etaN_unique h h1 (by omega)
    (fun j _ j2 => (h.mono (by omega : j ≤ k - 1) (by omega)).trans_lt ht) fun _ => by linarith
  have hfar := (ho (k - 1) (by omega)).resolve_left ht.ne
  rw [abs_of_neg (by linarith)] at hfar
  have hcur : ∀ T, curVal f.tenor p0 p T
      = frontVal f.tenor p0 k (p.startR k) (p.startY k) p.t p.xActive (p.Y k) T := fun T => by
    rw [curVal, hk, if_neg (by linarith)]
  have hB := bank_ok (p0 := p0) h hp (by omega) ho (hc p.t).ne'
  rw [hk, hcur] at hB
  have hP := bond_same (p0 := p0) h hp (by omega) (T := T) (by rw [hk]; linarith) hT1
    (by rw [hk]; exact hT2)
  rw [hcur] at hP
  have hg : 0 < growth f.tenor p k := growth_pos fun j j1 j2 => hr j j1 j2
  have f1 := frontVal_pos hc hs (p.startY k) p.t p.xActive (p.Y k) T
  have f2 := frontVal_pos hc hs (p.startY k) p.t p.xActive (p.Y k) (f.tenor.T k)
  refine ⟨_, _, hP, hB, f1, mul_pos hg f2, ?_⟩
  have hgk : growth f.tenor p k = growth f.tenor p (k - 1) * (1 + f.tenor.len k * p.R k) := by
    obtain ⟨l, rfl⟩ : ∃ l, k = l + 1 := ⟨k - 1, by omega⟩
    rw [growth, growth, Finset.prod_Icc_succ_top h1, Nat.add_sub_cancel]
  have hg1 : 0 < growth f.tenor p (k - 1) := growth_pos fun j j1 j2 => hr j j1 (by omega)
  have hrk := hr k h1 le_rfl
  rw [div_eq_iff (mul_pos hg f2).ne', frontPrice, discBond_growth, hgk]
  have ha : ahead f.tenor k p.t = (f.tenor.T k - p.t) / f.tenor.len k :=
    ahead_inside hpos ht.le (by linarith)
  set a := ahead f.tenor k p.t with hadef
  set b := ahead f.tenor k T with hbdef
  have h0 : ahead f.tenor k (f.tenor.T k) = 0 := ahead_after hpos le_rfl
  set A := p0Fwd p0 (f.tenor.T (k - 1)) (f.tenor.T k) with hA
  have hApos : 0 < A := p0Fwd_pos hc _ _
  set D := 1 + f.tenor.len k * p.startR k with hD
  rw [frontVal, frontVal, h0, ← ha]
  have eA : A ^ (-(a - b)) = A ^ b * A ^ (-(a - 0)) := by
    rw [← Real.rpow_add hApos]; congr 1; ring
  have eD : D ^ (-(a - b)) = D ^ b * D ^ (-(a - 0)) := by
    rw [← Real.rpow_add hs]; congr 1; ring
  have eE : Real.exp (-(a - b) * p.xActive - 1 / 2 * (a - b) * (a - b) * (p.Y k - p.startY k)
        + 1 / 2 * p.startY k * (b * (1 - b) - a * (1 - a)))
      = Real.exp (1 / 2 * p.startY k * (b * (1 - b)))
        * Real.exp (b * p.xActive + (a * b - 1 / 2 * b ^ 2) * (p.Y k - p.startY k))
        * Real.exp (-(a - 0) * p.xActive - 1 / 2 * (a - 0) * (a - 0) * (p.Y k - p.startY k)
          + 1 / 2 * p.startY k * (0 * (1 - 0) - a * (1 - a))) := by
    rw [← Real.exp_add, ← Real.exp_add]; congr 1; ring
  rw [eA, eD, eE, p0Fwd, p0Fwd]
  have q1 := (hc p.t).ne'
  have q2 := (hc (f.tenor.T k)).ne'
  have q3 := hrk.ne'
  have q4 := hg1.ne'
  generalize A ^ b = x1
  generalize A ^ (-(a - 0)) = x2
  generalize D ^ b = x3
  generalize D ^ (-(a - 0)) = x4
  generalize Real.exp (1 / 2 * p.startY k * (b * (1 - b))) = x5
  generalize Real.exp (b * p.xActive + (a * b - 1 / 2 * b ^ 2) * (p.Y k - p.startY k)) = x6
  generalize Real.exp (-(a - 0) * p.xActive - 1 / 2 * (a - 0) * (a - 0) * (p.Y k - p.startY k)
          + 1 / 2 * p.startY k * (0 * (1 - 0) - a * (1 - a))) = x7
  field_simp

/-! ## Moving the state -/

theorem move_fits (hp : p.Fits f.tenor.m) (k : ℕ) (t r x y : ℝ) :
    (p.move k t r x y).Fits f.tenor.m :=
  ⟨by simp [FmmPath.move, hp.rates], by simp [FmmPath.move, hp.yDiag], hp.ratesAtStart, hp.yAtStart⟩

theorem move_R_self {m k : ℕ} (hp : p.Fits m) (h1 : 1 ≤ k) (h2 : k ≤ m) (t r x y : ℝ) :
    (p.move k t r x y).R k = r := by
  have : k - 1 < p.rates.length := by rw [hp.rates]; omega
  simp [FmmPath.R, FmmPath.move, List.getD_eq_getElem?_getD, this]

theorem move_Y_self {m k : ℕ} (hp : p.Fits m) (h1 : 1 ≤ k) (h2 : k ≤ m) (t r x y : ℝ) :
    (p.move k t r x y).Y k = y := by
  have : k - 1 < p.yDiag.length := by rw [hp.yDiag]; omega
  simp [FmmPath.Y, FmmPath.move, List.getD_eq_getElem?_getD, this]

theorem move_R_ne {k j : ℕ} (h1 : 1 ≤ k) (h2 : 1 ≤ j) (hne : j ≠ k) (t r x y : ℝ) :
    (p.move k t r x y).R j = p.R j := by
  have : k - 1 ≠ j - 1 := by omega
  simp [FmmPath.R, FmmPath.move, List.getD_eq_getElem?_getD, this]

theorem discBond_move {τ : ℕ → ℝ} {k : ℕ} (h1 : 1 ≤ k) (t r x y : ℝ) :
    discBond τ (k - 1) (p.move k t r x y).R = discBond τ (k - 1) p.R := by
  refine Finset.prod_congr rfl fun j hj => ?_
  rw [Finset.mem_Icc] at hj
  rw [move_R_ne h1 hj.1 (by omega)]

/-! ## The initial state -/

theorem initial_ok {s : FmmSimulator} (h : s.model.tenor.Ordered) :
    ∃ p, s.initialPath = .ok p ∧ p.Fits s.model.tenor.m ∧ p.t = 0 ∧ p.xActive = 0
      ∧ (∀ j, p.R j = s.model.tenor.R j) ∧ (∀ j, p.Y j = 0) ∧ (∀ j, p.startY j = 0)
      ∧ p.startR 1 = s.model.tenor.R 1 := by
  have hm : 0 < s.model.tenor.rates.length := h.1
  rw [FmmSimulator.initialPath]
  rw [unwrap_getD _ 0 hm 0, ok_bind]
  have h0 : ∀ (m i : ℕ), (List.replicate m (0 : ℝ)).getD i 0 = 0 := fun m i => by
    rw [List.getD_eq_getElem?_getD, List.getElem?_replicate]
    split <;> rfl
  refine ⟨_, rfl, ⟨rfl, by simp, by simp, by simp⟩, rfl, rfl, fun _ => rfl, fun j => h0 _ _,
    fun j => h0 _ _, ?_⟩
  have hm' : 0 < s.model.tenor.m := hm
  simp [FmmPath.startR, List.getD_eq_getElem?_getD, hm', FmmTenor.R]

theorem run_ok {s : FmmSimulator} (hv : s.model.Valid) {dt : ℝ} (hdt : 0 < dt)
    (draws : List (List ℝ)) : ∀ p : FmmPath, p.Fits s.model.tenor.m →
    ∃ p', s.run dt p draws = .ok p' ∧ p'.Fits s.model.tenor.m ∧ p'.t = p.t + draws.length * dt := by
  induction draws with
  | nil => intro p hp; exact ⟨p, rfl, hp, by simp⟩
  | cons z zs ih =>
    intro p hp
    obtain ⟨p1, -, h1, h2, h3, -⟩ := step_ok hv hp hdt z
    obtain ⟨p2, k1, k2, k3⟩ := ih p1 h2
    refine ⟨p2, ?_, k2, ?_⟩
    · rw [FmmSimulator.run, h1, ok_bind, k1]
    · rw [k3, h3, List.length_cons]; push_cast; ring

theorem backVal_initial {q : FmmTenor} (hc : ∀ t, 0 < p0 t) {k : ℕ} {r : ℝ}
    (hr : p0 (q.T (k - 1)) / p0 (q.T k) = 1 + q.len k * r) (T : ℝ) :
    backVal q p0 k r 0 T = p0 T / p0 (q.T (k - 1)) := by
  rw [backVal, mul_zero, Real.exp_zero, mul_one, ← hr]
  have e : p0 (q.T (k - 1)) / p0 (q.T k) = (p0Fwd p0 (q.T (k - 1)) (q.T k))⁻¹ := by
    rw [p0Fwd, inv_div]
  have hp := p0Fwd_pos hc (q.T (k - 1)) (q.T k)
  rw [e, Real.inv_rpow hp.le, mul_assoc, inv_mul_cancel₀ (Real.rpow_pos_of_pos hp _).ne', mul_one]
  rfl

theorem chain_initial {q : FmmTenor} (hc : ∀ t, 0 < p0 t) {r : ℕ → ℝ} (a n : ℕ)
    (hr : ∀ j, a < j → j ≤ a + n → p0 (q.T (j - 1)) / p0 (q.T j) = 1 + q.len j * r j) :
    ∏ j ∈ Finset.Ico (a + 1) (a + 1 + n), (1 + q.len j * r j)⁻¹ = p0 (q.T (a + n)) / p0 (q.T a) := by
  induction n with
  | zero => simp [div_self (hc _).ne']
  | succ n ih =>
    rw [show a + 1 + (n + 1) = (a + 1 + n) + 1 by ring, Finset.prod_Ico_succ_top (by omega),
      ih fun j h1 h2 => hr j h1 (by omega), ← hr (a + 1 + n) (by omega) (by omega),
      show a + 1 + n - 1 = a + n by omega, show a + (n + 1) = a + 1 + n by ring]
    have h1 := (hc (q.T (a + n))).ne'
    have h2 := (hc (q.T (a + 1 + n))).ne'
    have h3 := (hc (q.T a)).ne'
    field_simp

theorem bond_initial (h : f.tenor.Ordered) (hp : p.Fits f.tenor.m) (ht : p.t = f.tenor.T 0)
    (hc : ∀ t, 0 < p0 t) (hY : ∀ j, p.Y j = 0)
    (hr : ∀ j, 1 ≤ j → j ≤ f.tenor.m →
      p0 (f.tenor.T (j - 1)) / p0 (f.tenor.T j) = 1 + f.tenor.len j * p.R j) {T : ℝ}
    (hT1 : f.tenor.T 0 + 1 / 10 ^ 15 ≤ T) (hT2 : T ≤ f.tenor.T f.tenor.m) :
    bondPrice f p T p0 = .ok (p0 T / p0 (f.tenor.T 0)) := by
  have hε : (0 : ℝ) < 1 / 10 ^ 15 := by positivity
  have hm := h.1
  have he : f.tenor.etaN p.t = 1 := FmmTenor.etaN_unique h le_rfl (by omega)
    (fun j _ _ => by omega) fun _ => by rw [ht]; exact h.mono (by omega) hm
  have hcur : ∀ T, curVal f.tenor p0 p T = p0 T / p0 (f.tenor.T 0) := fun T => by
    rw [curVal, he, if_pos (by rw [ht]; simp), hY, backVal_initial hc (hr 1 le_rfl hm)]
  obtain ⟨-, k1, k2, k3, k4⟩ := FmmTenor.eta_spec h T
  have hkm : f.tenor.etaN T ≤ f.tenor.m := (etaN_le_iff h T hm le_rfl).2 hT2
  have hlow : f.tenor.T (f.tenor.etaN T - 1) < T := by
    rcases k1.eq_or_lt with hh | hh
    · rw [← hh]; simp only [Nat.sub_self]; linarith
    · exact k3 _ (by omega) (by omega)
  rcases k1.eq_or_lt with hh | hh
  · rw [bond_same h hp (by omega) (by rw [he]; simp only [Nat.sub_self]; linarith)
      (by rw [ht]; exact hT1) (by rw [he, hh]; exact k4 hkm), hcur]
  · rw [bond_later h hp (k := f.tenor.etaN T) (by omega) hkm hlow (by rw [ht]; exact hT1) (k4 hkm),
      he, hcur, hY, backVal_initial hc (hr _ (by omega) hkm)]
    have hch := chain_initial (q := f.tenor) (p0 := p0) hc (r := p.R) 1 (f.tenor.etaN T - 2)
      fun j h1 h2 => hr j (by omega) (by omega)
    rw [show 1 + 1 + (f.tenor.etaN T - 2) = f.tenor.etaN T by omega,
      show 1 + (f.tenor.etaN T - 2) = f.tenor.etaN T - 1 by omega] at hch
    rw [hch]
    have q1 := (hc (f.tenor.T (f.tenor.etaN T - 1))).ne'
    have q2 := (hc (f.tenor.T 1)).ne'
    congr 1
    field_simp

end Verif
