import Verif.Props.SwapValue
import Verif.Props.CapRisk
import Mathlib.Analysis.Calculus.Deriv.Slope

/-!
# C82: risk figures of interest-rate swaps
-/

namespace Verif

open Outcome

variable {l fl : SwapLeg} {val : Int} {ps : List SchedPeriod} {cv : Curve} {p last : SchedPeriod}
  {D : Int → ℝ} {tau : Int → Int → ℝ} {c N : ℝ}

/-- The discount factors of a curve with every zero rate raised by `bp` basis points. -/
noncomputable def raised (cv : Curve) (D : Int → ℝ) (bp : ℝ) (d : Int) : ℝ :=
  D d * Real.exp (-bp * (1 / 10000) * yf365 cv.valuation d)

theorem bumped_discount (hnd : (cv.pillars.map Pillar.date).Nodup) (bp : ℝ) {d : Int} {x : ℝ}
    (h : cv.discount d = .ok x) :
    (bumped cv bp).discount d = .ok (x * Real.exp (-bp * (1 / 10000) * yf365 cv.valuation d)) := by
  rw [← C38_shift_eq_bump cv bp d hnd]
  unfold Curve.shiftedDiscount
  rw [h, ok_bind]

/-- A fixed leg against a floating leg without spread on the same schedule. -/
structure VanillaSwap (l fl : SwapLeg) (val : Int) (cv : Curve) (p : SchedPeriod) (ps : List SchedPeriod)
    (last : SchedPeriod) (N : ℝ) (D : Int → ℝ) (tau : Int → Int → ℝ) : Prop where
  nodup : (cv.pillars.map Pillar.date).Nodup
  kind : fl.kind = .float 0
  opposite : fl.direction = l.direction.flip
  sched : l.generateSchedule val = .ok (p :: ps)
  sched' : fl.generateSchedule val = .ok (p :: ps)
  isLast : (p :: ps).getLast? = some last
  contiguous : Contiguous (p :: ps)
  pays : ∀ q ∈ p :: ps, q.pay = q.fin ∧ q.balance = N
  accrual : ∀ q ∈ p :: ps, (∃ n, l.dayCount q.start q.fin = .ok n) ∧
    l.yearFraction q.start q.fin = .ok (tau q.start q.fin)
  accrual' : ∀ q ∈ p :: ps, (∃ n, fl.dayCount q.start q.fin = .ok n) ∧
    ∃ y, y ≠ 0 ∧ fl.yearFraction q.start q.fin = .ok y
  discount : ∀ q ∈ p :: ps, cv.discount q.start = .ok (D q.start) ∧ cv.discount q.fin = .ok (D q.fin)
  /-- no accrual is negative, the swap has not started and ends after it starts -/
  tau_nonneg : ∀ q ∈ p :: ps, 0 ≤ tau q.start q.fin
  start : cv.valuation ≤ p.start
  order : ∀ q ∈ p :: ps, p.start ≤ q.fin
  ends : p.start < last.fin

theorem VanillaSwap.mem_last (h : VanillaSwap l fl val cv p ps last N D tau) : last ∈ p :: ps :=
  List.mem_of_getLast? h.isLast

theorem VanillaSwap.pos (h : VanillaSwap l fl val cv p ps last N D tau) {q : SchedPeriod}
    (hq : q ∈ p :: ps) : 0 < D q.start ∧ 0 < D q.fin :=
  ⟨C36_discount_pos (h.discount q hq).1, C36_discount_pos (h.discount q hq).2⟩

theorem VanillaSwap.npv (h : VanillaSwap l fl val cv p ps last N D tau) (c bp : ℝ) :
    (Swap.mk [l.withCoupon c, fl]).npv val (bumped cv bp) = .ok (l.direction.sign * (N *
      (c * annuity tau (raised cv D bp) (p :: ps) + raised cv D bp last.fin - raised cv D bp p.start))) := by
  have hD : ∀ q ∈ p :: ps, (bumped cv bp).discount q.start = .ok (raised cv D bp q.start) ∧
      (bumped cv bp).discount q.fin = .ok (raised cv D bp q.fin) := fun q hq =>
    ⟨bumped_discount h.nodup bp (h.discount q hq).1, bumped_discount h.nodup bp (h.discount q hq).2⟩
  have e : ([l.withCoupon c, fl] : List SwapLeg) = [l.withCoupon c] ++ [fl] := rfl
  rw [e, npv_append, C42_fixed h.sched h.isLast (fun q hq => (h.pays q hq).2) h.accrual
      (fun q hq => by rw [(h.pays q hq).1]; exact (hD q hq).2),
    C42_float h.kind h.sched' h.contiguous h.pays h.accrual' hD]
  simp only [ok_bind, ok.injEq]
  rw [h.opposite, sign_flip, (h.pays last h.mem_last).1]
  ring

theorem bumped_zero (cv : Curve) : bumped cv 0 = cv := by
  obtain ⟨v, ps⟩ := cv
  simp [bumped]

theorem VanillaSwap.dv01 (h : VanillaSwap l fl val cv p ps last N D tau) (c : ℝ) :
    (Swap.mk [l.withCoupon c, fl]).dv01 val cv = .ok (l.direction.sign * (N *
      (c * annuity tau (raised cv D 1) (p :: ps) + raised cv D 1 last.fin - raised cv D 1 p.start))
      - l.direction.sign * (N *
        (c * annuity tau (raised cv D 0) (p :: ps) + raised cv D 0 last.fin - raised cv D 0 p.start))) := by
  refine C41_dv01 _ h.nodup ?_ (h.npv c 1)
  have := h.npv c 0
  rwa [bumped_zero] at this

theorem raised_zero (d : Int) : raised cv D 0 d = D d := by simp [raised]

/-- The fixed payments lose at least what a payment at the start would lose. -/
theorem annuity_loss {sch : List SchedPeriod} {k : ℝ} (hτ : ∀ q ∈ sch, 0 ≤ tau q.start q.fin)
    (hD : ∀ q ∈ sch, 0 ≤ D q.pay)
    (hk : ∀ q ∈ sch, Real.exp (-1 * (1 / 10000) * yf365 cv.valuation q.pay) ≤ k) :
    annuity tau (raised cv D 1) sch ≤ k * annuity tau (raised cv D 0) sch := by
  induction sch with
  | nil => simp [annuity]
  | cons q sch ih =>
    have ih := ih (fun r hr => hτ r (List.mem_cons_of_mem _ hr)) (fun r hr => hD r (List.mem_cons_of_mem _ hr))
      (fun r hr => hk r (List.mem_cons_of_mem _ hr))
    simp only [annuity, List.map_cons, List.sum_cons] at ih ⊢
    rw [mul_add]
    refine add_le_add ?_ ih
    rw [raised_zero, raised]
    have h1 := mul_nonneg (hτ q List.mem_cons_self) (hD q List.mem_cons_self)
    have := mul_le_mul_of_nonneg_left (hk q List.mem_cons_self) h1
    linarith

theorem yf365_mono {v a b : Int} (h : a ≤ b) : yf365 v a ≤ yf365 v b := by
  unfold yf365
  have : ((a - v : Int) : ℝ) ≤ ((b - v : Int) : ℝ) := by exact_mod_cast Int.sub_le_sub_right h v
  linarith

theorem VanillaSwap.annuity_loss (h : VanillaSwap l fl val cv p ps last N D tau) :
    annuity tau (raised cv D 1) (p :: ps) ≤
      Real.exp (-1 * (1 / 10000) * yf365 cv.valuation p.start) * annuity tau (raised cv D 0) (p :: ps) := by
  refine Verif.annuity_loss h.tau_nonneg (fun q hq => ?_) fun q hq => ?_
  · rw [(h.pays q hq).1]; exact (h.pos hq).2.le
  · rw [(h.pays q hq).1, Real.exp_le_exp]
    have := yf365_mono (v := cv.valuation) (h.order q hq)
    linarith

theorem VanillaSwap.annuity_nonneg (h : VanillaSwap l fl val cv p ps last N D tau) (bp : ℝ) :
    0 ≤ annuity tau (raised cv D bp) (p :: ps) := by
  refine List.sum_nonneg fun x hx => ?_
  obtain ⟨q, hq, rfl⟩ := List.mem_map.1 hx
  rw [(h.pays q hq).1]
  exact mul_nonneg (h.tau_nonneg q hq) (mul_nonneg (h.pos hq).2.le (Real.exp_pos _).le)

theorem VanillaSwap.drop (h : VanillaSwap l fl val cv p ps last N D tau) (hc : 0 ≤ c) :
    c * annuity tau (raised cv D 1) (p :: ps) + raised cv D 1 last.fin - raised cv D 1 p.start <
      Real.exp (-1 * (1 / 10000) * yf365 cv.valuation p.start) *
        (c * annuity tau (raised cv D 0) (p :: ps) + raised cv D 0 last.fin - raised cv D 0 p.start) := by
  have h1 := mul_le_mul_of_nonneg_left h.annuity_loss hc
  have h2 : raised cv D 1 last.fin <
      Real.exp (-1 * (1 / 10000) * yf365 cv.valuation p.start) * raised cv D 0 last.fin := by
    rw [raised_zero, raised, mul_comm]
    refine mul_lt_mul_of_pos_right (Real.exp_lt_exp.2 ?_) (h.pos h.mem_last).2
    have : yf365 cv.valuation p.start < yf365 cv.valuation last.fin := by
      unfold yf365
      have : ((p.start - cv.valuation : Int) : ℝ) < ((last.fin - cv.valuation : Int) : ℝ) := by
        exact_mod_cast Int.sub_lt_sub_right h.ends _
      linarith
    linarith
  have h3 : raised cv D 1 p.start =
      Real.exp (-1 * (1 / 10000) * yf365 cv.valuation p.start) * raised cv D 0 p.start := by
    rw [raised_zero, raised, mul_comm]
  rw [h3]
  linarith

/-- C82: the side that receives the fixed coupon loses when rates rise, if its swap has a non-negative
value; the side that pays it gains, if its swap has a non-positive value. -/
theorem C82_dv01 {v : ℝ} (h : VanillaSwap l fl val cv p ps last N D tau) (hN : 0 < N) (hc : 0 ≤ c)
    (hv : (Swap.mk [l.withCoupon c, fl]).npv val cv = .ok v) (hs : 0 ≤ l.direction.sign * v) :
    ∃ d, (Swap.mk [l.withCoupon c, fl]).dv01 val cv = .ok d ∧ l.direction.sign * d < 0 := by
  refine ⟨_, h.dv01 c, ?_⟩
  have hv' := h.npv c 0
  rw [bumped_zero, hv] at hv'
  have hv' := ok.inj hv'
  have hd := h.drop hc
  have hsq : l.direction.sign * l.direction.sign = 1 := by cases l.direction <;> simp [Direction.sign]
  have hE : Real.exp (-1 * (1 / 10000) * yf365 cv.valuation p.start) ≤ 1 := by
    refine Real.exp_le_one_iff.2 ?_
    have : 0 ≤ yf365 cv.valuation p.start := by
      unfold yf365
      have : (0 : ℝ) ≤ ((p.start - cv.valuation : Int) : ℝ) := by exact_mod_cast Int.sub_nonneg.2 h.start
      linarith
    linarith
  generalize c * annuity tau (raised cv D 1) (p :: ps) + raised cv D 1 last.fin - raised cv D 1 p.start = x1 at *
  generalize c * annuity tau (raised cv D 0) (p :: ps) + raised cv D 0 last.fin - raised cv D 0 p.start = x0 at *
  generalize Real.exp (-1 * (1 / 10000) * yf365 cv.valuation p.start) = E at *
  have hx0 : 0 ≤ x0 := by
    rw [hv', ← mul_assoc, hsq, one_mul] at hs
    exact nonneg_of_mul_nonneg_right hs hN
  have : l.direction.sign * (l.direction.sign * (N * x1) - l.direction.sign * (N * x0))
      = l.direction.sign * l.direction.sign * (N * (x1 - x0)) := by ring
  rw [this, hsq, one_mul]
  exact mul_neg_of_pos_of_neg hN (by nlinarith)

/-- C82: a swap that starts on the valuation date of the curve does so whatever its value. -/
theorem C82_dv01_spot (h : VanillaSwap l fl val cv p ps last N D tau) (hN : 0 < N) (hc : 0 ≤ c)
    (hs : p.start = cv.valuation) :
    ∃ d, (Swap.mk [l.withCoupon c, fl]).dv01 val cv = .ok d ∧ l.direction.sign * d < 0 := by
  refine ⟨_, h.dv01 c, ?_⟩
  have hd := h.drop hc
  have hsq : l.direction.sign * l.direction.sign = 1 := by cases l.direction <;> simp [Direction.sign]
  have hE : Real.exp (-1 * (1 / 10000) * yf365 cv.valuation p.start) = 1 := by
    rw [hs]; simp [yf365]
  rw [hE, one_mul] at hd
  generalize c * annuity tau (raised cv D 1) (p :: ps) + raised cv D 1 last.fin - raised cv D 1 p.start = x1 at *
  generalize c * annuity tau (raised cv D 0) (p :: ps) + raised cv D 0 last.fin - raised cv D 0 p.start = x0 at *
  have : l.direction.sign * (l.direction.sign * (N * x1) - l.direction.sign * (N * x0))
      = l.direction.sign * l.direction.sign * (N * (x1 - x0)) := by ring
  rw [this, hsq, one_mul]
  exact mul_neg_of_pos_of_neg hN (by linarith)

/-- C82: `modified_duration` is minus the relative change of the value per unit of rate, measured over
one basis point; it is zero below a value of `1e-12`. -/
theorem C82_duration {m : Outcome CurrencyValue} {dv : Outcome ℝ} {v : CurrencyValue} (hm : m = .ok v) :
    (|v.value| < 1 / 10 ^ 12 → modifiedDuration m dv = .ok 0) ∧
    (1 / 10 ^ 12 ≤ |v.value| → ∀ d, dv = .ok d →
      ∃ D, modifiedDuration m dv = .ok D ∧ d = -(D * v.value * (1 / 10000))) := by
  unfold modifiedDuration
  rw [hm, ok_bind]
  constructor
  · intro h
    rw [if_pos (by norm_num at h ⊢; exact h)]
  · intro h d hd
    rw [if_neg (by norm_num at h ⊢; exact h), hd, ok_bind]
    refine ⟨_, rfl, ?_⟩
    have : v.value ≠ 0 := by
      intro h0; rw [h0, abs_zero] at h; norm_num at h
    field_simp

/-- C82: with a value on the side of the fixed coupon the modified duration is positive. -/
theorem C82_duration_pos {v : CurrencyValue} (h : VanillaSwap l fl val cv p ps last N D tau) (hN : 0 < N)
    (hc : 0 ≤ c) (hv : (Swap.mk [l.withCoupon c, fl]).npv val cv = .ok v.value)
    (hm : (Swap.mk [l.withCoupon c, fl]).mtm val cv = .ok v)
    (hs : 1 / 10 ^ 12 ≤ l.direction.sign * v.value) :
    ∃ D, modifiedDuration ((Swap.mk [l.withCoupon c, fl]).mtm val cv)
      ((Swap.mk [l.withCoupon c, fl]).dv01 val cv) = .ok D ∧ 0 < D := by
  have h0 : 0 < l.direction.sign * v.value := lt_of_lt_of_le (by norm_num) hs
  obtain ⟨d, hd, hneg⟩ := C82_dv01 h hN hc hv h0.le
  have habs : 1 / 10 ^ 12 ≤ |v.value| := by
    refine hs.trans ?_
    cases l.direction <;> simp only [Direction.sign]
    · rw [one_mul]; exact le_abs_self _
    · rw [neg_one_mul]; exact neg_le_abs _
  obtain ⟨Du, h1, h2⟩ := (C82_duration hm).2 habs d hd
  refine ⟨Du, h1, ?_⟩
  by_contra hc'
  have h3 : 0 ≤ -Du := by linarith
  have := mul_nonneg h3 h0.le
  rw [h2] at hneg
  nlinarith

/-! ### Gamma -/

theorem VanillaSwap.gamma (h : VanillaSwap l fl val cv p ps last N D tau) (c bp : ℝ) :
    (Swap.mk [l.withCoupon c, fl]).gamma val cv bp .zeros = .ok (
      l.direction.sign * (N * (c * annuity tau (raised cv D bp) (p :: ps) + raised cv D bp last.fin
        - raised cv D bp p.start))
      + l.direction.sign * (N * (c * annuity tau (raised cv D (-bp)) (p :: ps) + raised cv D (-bp) last.fin
        - raised cv D (-bp) p.start))
      - 2 * (l.direction.sign * (N * (c * annuity tau D (p :: ps) + D last.fin - D p.start)))) := by
  have h0 := h.npv c 0
  rw [bumped_zero, show raised cv D 0 = D from funext fun _ => raised_zero _] at h0
  rw [C41_gamma _ h.nodup h0 (h.npv c bp) (h.npv c (-bp))]
  exact congrArg _ (by ring)

/-- The convexity of one discount factor over a bump. -/
noncomputable def bend (cv : Curve) (D : Int → ℝ) (bp : ℝ) (d : Int) : ℝ :=
  D d * (Real.exp (bp * (1 / 10000 * yf365 cv.valuation d))
    + Real.exp (-(bp * (1 / 10000 * yf365 cv.valuation d))) - 2)

theorem raised_bend (bp : ℝ) (d : Int) :
    raised cv D bp d + raised cv D (-bp) d = 2 * D d + bend cv D bp d := by
  unfold raised bend
  rw [show -bp * (1 / 10000) * yf365 cv.valuation d = -(bp * (1 / 10000 * yf365 cv.valuation d)) by ring,
    show - -bp * (1 / 10000) * yf365 cv.valuation d = bp * (1 / 10000 * yf365 cv.valuation d) by ring]
  ring

theorem annuity_bend (bp : ℝ) (sch : List SchedPeriod) :
    annuity tau (raised cv D bp) sch + annuity tau (raised cv D (-bp)) sch
      = 2 * annuity tau D sch + annuity tau (bend cv D bp) sch := by
  induction sch with
  | nil => simp [annuity]
  | cons q sch ih =>
    simp only [annuity, List.map_cons, List.sum_cons] at ih ⊢
    have := raised_bend (cv := cv) (D := D) bp q.pay
    linear_combination ih + tau q.start q.fin * this

theorem VanillaSwap.gamma_bend (h : VanillaSwap l fl val cv p ps last N D tau) (c bp : ℝ) :
    (Swap.mk [l.withCoupon c, fl]).gamma val cv bp .zeros = .ok (l.direction.sign * (N *
      (c * annuity tau (bend cv D bp) (p :: ps) + bend cv D bp last.fin - bend cv D bp p.start))) := by
  rw [h.gamma]
  refine congrArg _ ?_
  linear_combination l.direction.sign * N * (c * annuity_bend (cv := cv) (D := D) (tau := tau) bp (p :: ps)
    + raised_bend (cv := cv) (D := D) bp last.fin - raised_bend (cv := cv) (D := D) bp p.start)

theorem exp_bend_nonneg (x : ℝ) : 0 ≤ Real.exp x + Real.exp (-x) - 2 := by
  have h1 := Real.exp_pos x
  rw [Real.exp_neg]
  have : Real.exp x + (Real.exp x)⁻¹ - 2 = (Real.exp x - 1) ^ 2 / Real.exp x := by field_simp; ring
  rw [this]
  positivity

/-- C82: `gamma` does not depend on the sign of the bump. -/
theorem C82_gamma_even (h : VanillaSwap l fl val cv p ps last N D tau) (c bp : ℝ) :
    (Swap.mk [l.withCoupon c, fl]).gamma val cv (-bp) .zeros =
      (Swap.mk [l.withCoupon c, fl]).gamma val cv bp .zeros := by
  rw [h.gamma, h.gamma, neg_neg]
  exact congrArg _ (by ring)

/-- C82: the side that receives the fixed coupon of a swap starting on the valuation date is long
convexity. -/
theorem C82_gamma_spot (h : VanillaSwap l fl val cv p ps last N D tau) (hN : 0 < N) (hc : 0 ≤ c)
    (hs : p.start = cv.valuation) (bp : ℝ) :
    ∃ g, (Swap.mk [l.withCoupon c, fl]).gamma val cv bp .zeros = .ok g ∧ 0 ≤ l.direction.sign * g := by
  refine ⟨_, h.gamma_bend c bp, ?_⟩
  have hsq : l.direction.sign * l.direction.sign = 1 := by cases l.direction <;> simp [Direction.sign]
  rw [← mul_assoc, hsq, one_mul]
  have h0 : bend cv D bp p.start = 0 := by rw [hs]; norm_num [bend, yf365]
  rw [h0, sub_zero]
  have h1 : 0 ≤ bend cv D bp last.fin := mul_nonneg (h.pos h.mem_last).2.le (exp_bend_nonneg _)
  have h2 : 0 ≤ annuity tau (bend cv D bp) (p :: ps) := by
    refine List.sum_nonneg fun x hx => ?_
    obtain ⟨q, hq, rfl⟩ := List.mem_map.1 hx
    rw [(h.pays q hq).1]
    exact mul_nonneg (h.tau_nonneg q hq) (mul_nonneg (h.pos hq).2.le (exp_bend_nonneg _))
  positivity

open Filter Topology in
theorem exp_bend_limit (k : ℝ) :
    Tendsto (fun δ : ℝ => (Real.exp (δ * k) + Real.exp (-(δ * k)) - 2) / δ ^ 2) (𝓝[≠] 0) (𝓝 (k ^ 2)) := by
  have hd : HasDerivAt (fun δ : ℝ => Real.exp (δ * (k / 2)) - Real.exp (-(δ * (k / 2)))) k 0 := by
    have h1 : HasDerivAt (fun δ : ℝ => δ * (k / 2)) (k / 2) 0 := by
      simpa using (hasDerivAt_id (0 : ℝ)).mul_const (k / 2)
    have h2 := h1.exp.sub h1.neg.exp
    have e : Real.exp (0 * (k / 2)) * (k / 2) - Real.exp (-(0 * (k / 2))) * -(k / 2) = k := by
      rw [zero_mul, neg_zero, Real.exp_zero]; ring
    exact h2.congr_deriv e
  have hs := (hasDerivAt_iff_tendsto_slope.1 hd).pow 2
  refine hs.congr' ?_
  filter_upwards [self_mem_nhdsWithin] with δ hδ
  have hδ : δ ≠ 0 := hδ
  rw [slope_def_field]
  simp only [zero_mul, neg_zero, sub_self, sub_zero]
  rw [div_pow]
  congr 1
  rw [sub_sq, ← Real.exp_nat_mul, ← Real.exp_nat_mul, mul_assoc, ← Real.exp_add]
  rw [show ((2 : ℕ) : ℝ) * (δ * (k / 2)) = δ * k by push_cast; ring,
    show ((2 : ℕ) : ℝ) * -(δ * (k / 2)) = -(δ * k) by push_cast; ring,
    show δ * (k / 2) + -(δ * (k / 2)) = 0 by ring, Real.exp_zero]
  ring

open Filter Topology in
theorem bend_limit (d : Int) : Tendsto (fun δ => bend cv D δ d / δ ^ 2) (𝓝[≠] 0)
    (𝓝 (D d * (1 / 10000 * yf365 cv.valuation d) ^ 2)) := by
  have := (exp_bend_limit (1 / 10000 * yf365 cv.valuation d)).const_mul (D d)
  refine this.congr fun δ => ?_
  unfold bend
  rw [mul_div_assoc]

open Filter Topology in
theorem annuity_bend_limit (sch : List SchedPeriod) :
    Tendsto (fun δ => annuity tau (bend cv D δ) sch / δ ^ 2) (𝓝[≠] 0)
      (𝓝 (annuity tau (fun d => D d * (1 / 10000 * yf365 cv.valuation d) ^ 2) sch)) := by
  induction sch with
  | nil => simp [annuity]
  | cons q sch ih =>
    simp only [annuity, List.map_cons, List.sum_cons] at ih ⊢
    refine (((bend_limit (cv := cv) (D := D) q.pay).const_mul (tau q.start q.fin)).add ih).congr fun δ => ?_
    ring

open Filter Topology in
/-- C82: `gamma` scales with the square of the bump: divided by it, it tends to the sum of the payments
weighted by the squares of their times. -/
theorem C82_gamma_scale (h : VanillaSwap l fl val cv p ps last N D tau) (c : ℝ) :
    ∃ g : ℝ → ℝ, (∀ bp, (Swap.mk [l.withCoupon c, fl]).gamma val cv bp .zeros = .ok (g bp)) ∧
      Tendsto (fun bp => g bp / bp ^ 2) (𝓝[≠] 0) (𝓝 (l.direction.sign * (N *
        (c * annuity tau (fun d => D d * (1 / 10000 * yf365 cv.valuation d) ^ 2) (p :: ps)
          + D last.fin * (1 / 10000 * yf365 cv.valuation last.fin) ^ 2
          - D p.start * (1 / 10000 * yf365 cv.valuation p.start) ^ 2)))) := by
  refine ⟨_, fun bp => h.gamma_bend c bp, ?_⟩
  have h1 := (annuity_bend_limit (cv := cv) (D := D) (tau := tau) (p :: ps)).const_mul c
  have h2 := ((h1.add (bend_limit (cv := cv) (D := D) last.fin)).sub (bend_limit (cv := cv) (D := D) p.start))
  refine ((h2.const_mul N).const_mul l.direction.sign).congr fun δ => ?_
  ring

/-! ### Where the documented signs fail -/

/-- A leg of one period. -/
noncomputable def onePeriodLeg (a b : Int) (dir : Direction) : SwapLeg :=
  { sampleLeg .monthly (.months 1) (.months 2) with
    kind := .float 0, direction := dir, schedule := [⟨a, b, b, a, 0, 1⟩] }

/-- The discount factors of the flat curve at ten per cent. -/
noncomputable def highD (d : Int) : ℝ := Real.exp (-(1 / 10) * (d / 365))

theorem onePeriod_vanilla {a b : Int} (dir : Direction) (ha : 0 ≤ a) (hab : a < b)
    (va : Valid (a + 1)) (vb : Valid (b + 1)) :
    VanillaSwap (onePeriodLeg a b dir) (onePeriodLeg a b dir.flip) 0 highCurve ⟨a, b, b, a, 0, 1⟩ []
      ⟨a, b, b, a, 0, 1⟩ 1 highD yf365 := by
  have hpos : 0 < yf365 a b := by
    unfold yf365
    have : (0 : ℝ) < ((b - a : Int) : ℝ) := by exact_mod_cast Int.sub_pos.2 hab
    positivity
  refine ⟨by simp [highCurve], rfl, rfl, rfl, rfl, rfl, by simp [Contiguous], ?_, ?_, ?_, ?_, ?_, ha, ?_, hab⟩
  all_goals
    intro q hq
    obtain rfl := List.mem_singleton.1 hq
  · exact ⟨rfl, rfl⟩
  · exact ⟨⟨_, rfl⟩, rfl⟩
  · exact ⟨⟨_, rfl⟩, _, hpos.ne', rfl⟩
  · exact ⟨highCurve_discount va, highCurve_discount vb⟩
  · exact hpos.le
  · exact hab.le

/-- C82: the documented sign (`Receiver-fixed swap DV01 is negative`) fails: a swap that starts in thirty
years, at a coupon below the forward rate, gains for the receiver when rates rise. -/
theorem C82_receiver_false : ∃ (l fl : SwapLeg) (cv : Curve) (p : SchedPeriod) (D : Int → ℝ)
    (tau : Int → Int → ℝ) (c d : ℝ), VanillaSwap l fl 0 cv p [] p 1 D tau ∧ l.direction = .buy ∧ 0 < c ∧
    (Swap.mk [l.withCoupon c, fl]).dv01 0 cv = .ok d ∧ 0 < d := by
  have hV := onePeriod_vanilla (a := 10950) (b := 11315) .buy (by decide) (by decide) (by decide) (by decide)
  refine ⟨_, _, _, _, _, _, 1 / 100, _, hV, rfl, by norm_num, hV.dv01 _, ?_⟩
  have t1 : highD 10950 = Real.exp (-3) := by norm_num [highD]
  have t2 : highD 11315 = Real.exp (-3) * Real.exp (-(1 / 10)) := by
    rw [highD, ← Real.exp_add]; norm_num
  have e1 : Real.exp (-1 * (1 / 10000) * yf365 highCurve.valuation 10950) = Real.exp (-(3 / 1000)) := by
    norm_num [yf365, highCurve]
  have e2 : Real.exp (-1 * (1 / 10000) * yf365 highCurve.valuation 11315) = Real.exp (-(31 / 10000)) := by
    norm_num [yf365, highCurve]
  have e3 : yf365 10950 11315 = 1 := by norm_num [yf365]
  simp only [annuity, List.map_cons, List.map_nil, List.sum_cons, List.sum_nil, raised, neg_zero, zero_mul,
    Real.exp_zero, mul_one, t1, t2, e1, e2, e3, show (onePeriodLeg 10950 11315 .buy).direction.sign = 1 from rfl]
  have hy1 : Real.exp (-(1 / 10)) ≤ 10 / 11 := by
    have := Real.add_one_le_exp (1 / 10 : ℝ)
    rw [Real.exp_neg]
    calc (Real.exp (1 / 10))⁻¹ ≤ (1 / 10 + 1 : ℝ)⁻¹ := inv_anti₀ (by norm_num) this
      _ = 10 / 11 := by norm_num
  have hu1 : Real.exp (-(3 / 1000)) ≤ 1000 / 1003 := by
    have := Real.add_one_le_exp (3 / 1000 : ℝ)
    rw [Real.exp_neg]
    calc (Real.exp (3 / 1000))⁻¹ ≤ (3 / 1000 + 1 : ℝ)⁻¹ := inv_anti₀ (by norm_num) this
      _ = 1000 / 1003 := by norm_num
  have hw1 : 1 - 31 / 10000 ≤ Real.exp (-(31 / 10000)) := by
    have := Real.add_one_le_exp (-(31 / 10000) : ℝ)
    linarith
  have hE := Real.exp_pos (-3)
  have hy0 := Real.exp_pos (-(1 / 10))
  generalize Real.exp (-3) = E at *
  generalize Real.exp (-(1 / 10)) = y at *
  generalize Real.exp (-(3 / 1000)) = u at *
  generalize Real.exp (-(31 / 10000)) = w at *
  have key : 0 < (1 - u) - 101 / 100 * (y * (1 - w)) := by
    have : y * (1 - w) ≤ 10 / 11 * (31 / 10000) :=
      (mul_le_mul_of_nonneg_left (by linarith) hy0.le).trans (mul_le_mul_of_nonneg_right hy1 (by norm_num))
    linarith
  have := mul_pos hE key
  linarith

/-- C82: `modified_duration` is not positive for every receiver: out of the money it has the sign of the
value turned around, though the `dv01` has not changed sign. -/
theorem C82_duration_false : ∃ (l fl : SwapLeg) (cv : Curve) (p : SchedPeriod) (D : Int → ℝ)
    (tau : Int → Int → ℝ) (c d m : ℝ), VanillaSwap l fl 0 cv p [] p 1 D tau ∧ l.direction = .buy ∧ 0 < c ∧
    (Swap.mk [l.withCoupon c, fl]).dv01 0 cv = .ok d ∧ d < 0 ∧
    modifiedDuration ((Swap.mk [l.withCoupon c, fl]).mtm 0 cv)
      ((Swap.mk [l.withCoupon c, fl]).dv01 0 cv) = .ok m ∧ m < 0 := by
  have hV := onePeriod_vanilla (a := 0) (b := 365) .buy (by decide) (by decide) (by decide) (by decide)
  obtain ⟨d, hd, hneg⟩ := C82_dv01_spot (c := 1 / 100) hV (by norm_num) (by norm_num) rfl
  have hd0 : d < 0 := by
    rw [show (onePeriodLeg 0 365 .buy).direction.sign = 1 from rfl, one_mul] at hneg
    exact hneg
  have hn := hV.npv (1 / 100) 0
  rw [bumped_zero] at hn
  have hm := C41_npv _ hn
  have hv : ∀ x : ℝ, x = (onePeriodLeg 0 365 .buy).direction.sign * (1 * (1 / 100 *
      annuity yf365 (raised highCurve highD 0) [⟨0, 365, 365, 0, 0, 1⟩] + raised highCurve highD 0 365
        - raised highCurve highD 0 0)) → x < -(1 / 100) := by
    intro x hx
    have t1 : highD 0 = 1 := by norm_num [highD]
    have t2 : highD 365 = Real.exp (-(1 / 10)) := by norm_num [highD]
    have e3 : yf365 0 365 = 1 := by norm_num [yf365]
    simp only [annuity, List.map_cons, List.map_nil, List.sum_cons, List.sum_nil, raised_zero, t1, t2, e3,
      show (onePeriodLeg 0 365 .buy).direction.sign = 1 from rfl] at hx
    have hy1 : Real.exp (-(1 / 10)) ≤ 10 / 11 := by
      have := Real.add_one_le_exp (1 / 10 : ℝ)
      rw [Real.exp_neg]
      calc (Real.exp (1 / 10))⁻¹ ≤ (1 / 10 + 1 : ℝ)⁻¹ := inv_anti₀ (by norm_num) this
        _ = 10 / 11 := by norm_num
    linarith
  have hv := hv _ rfl
  obtain ⟨m, h1, h2⟩ := (C82_duration hm).2 (by
    refine le_trans ?_ (neg_le_abs _)
    norm_num at hv ⊢
    linarith) d hd
  refine ⟨_, _, _, _, _, _, 1 / 100, d, m, hV, rfl, by norm_num, hd, hd0, h1, ?_⟩
  by_contra hm0
  push Not at hm0
  dsimp only at h2
  have := mul_nonneg hm0 (neg_nonneg.2 (hv.le.trans (by norm_num)))
  linarith

/-- Non-vacuity of C82: a receiver struck above the market, starting in a year, on the flat curve. -/
example : ∃ d, (Swap.mk [(onePeriodLeg 365 730 .buy).withCoupon (1 / 5),
    onePeriodLeg 365 730 .sell]).dv01 0 highCurve = .ok d ∧ d < 0 := by
  have hV := onePeriod_vanilla (a := 365) (b := 730) .buy (by decide) (by decide) (by decide) (by decide)
  have hn := hV.npv (1 / 5) 0
  rw [bumped_zero] at hn
  obtain ⟨d, h1, h2⟩ := C82_dv01 hV (by norm_num) (by norm_num) hn (by
    have t1 : highD 365 = Real.exp (-(1 / 10)) := by norm_num [highD]
    have t2 : highD 730 = Real.exp (-(1 / 10)) * Real.exp (-(1 / 10)) := by
      rw [highD, ← Real.exp_add]; norm_num
    have e3 : yf365 365 730 = 1 := by norm_num [yf365]
    simp only [annuity, List.map_cons, List.map_nil, List.sum_cons, List.sum_nil, raised_zero, t1, t2, e3,
      show (onePeriodLeg 365 730 .buy).direction.sign = 1 from rfl]
    have h1 : 9 / 10 ≤ Real.exp (-(1 / 10)) := by
      have := Real.add_one_le_exp (-(1 / 10) : ℝ)
      linarith
    generalize Real.exp (-(1 / 10)) = y at *
    nlinarith)
  refine ⟨d, h1, ?_⟩
  rw [show (onePeriodLeg 365 730 .buy).direction.sign = 1 from rfl, one_mul] at h2
  exact h2

end Verif
