import Verif.Lemmas.SwapSensitivity
import Verif.Props.Sensitivity
import Verif.Props.Locality
import Verif.Props.CapRisk

/-!
# C100: values of swaps react in proportion to errors in the curve

The zero rates of the pillars are off by at most `ε`; `T` years contain all dates of the swap.
-/

namespace Verif

open Outcome

/-- The value of a successful computation. -/
theorem discount_table (cv : Curve) : ∃ D : Int → ℝ, ∀ d x, cv.discount d = .ok x → D d = x := by
  classical
  refine ⟨fun d => if h : ∃ x, cv.discount d = .ok x then h.choose else 0, fun d x hx => ?_⟩
  have h : ∃ x, cv.discount d = .ok x := ⟨x, hx⟩
  dsimp only
  rw [dif_pos h]
  exact ok.inj (h.choose_spec.symm.trans hx)

/-- **C100.** The value of a swap with any legs, fixed or floating, moves by at most the fraction
`e^(3 ε T) - 1` of its gross value. -/
theorem C100_swap {ε T : ℝ} {cal val : Int} {ps ps' : List Pillar} (hε : 0 ≤ ε) (hT : 0 ≤ T)
    (hn : List.Forall₂ (PillarNear ε) ps ps') (ho : ps.Pairwise fun a b => a.date < b.date) {s : Swap}
    {D : Int → ℝ} (hD : ∀ d x, (Curve.mk val ps).discount d = .ok x → D d = x)
    {tau : SwapLeg → Int → Int → ℝ} {sch : SwapLeg → List SchedPeriod}
    (hs : ∀ l ∈ s.legs, l.generateSchedule cal = .ok (sch l))
    (hy : ∀ l ∈ s.legs, ∀ p ∈ sch l, tau l p.start p.fin ≠ 0 ∧
      l.yearFraction p.start p.fin = .ok (tau l p.start p.fin))
    (ht : ∀ l ∈ s.legs, ∀ p ∈ sch l, |yf365 val p.start| ≤ T ∧ |yf365 val p.fin| ≤ T ∧ |yf365 val p.pay| ≤ T)
    {x : ℝ} (h : s.npv cal (Curve.mk val ps) = .ok x) :
    ∃ x', s.npv cal (Curve.mk val ps') = .ok x' ∧
      |x' - x| ≤ (Real.exp (3 * (ε * T)) - 1) * (s.legs.map fun l => grossLeg D (tau l) l.kind (sch l)).sum := by
  obtain ⟨x', h', b⟩ := npvLegs_near (discountsNear hε hn ho) (mul_nonneg hε hT) hD (tau := tau)
    (gross := fun l => grossLeg D (tau l) l.kind (sch l)) (fun l hl q hq => by
      have : sch l = q := ok.inj ((hs l hl).symm.trans hq)
      subst this
      refine ⟨rfl, fun p hp => ⟨ht l hl p hp, fun y h1 => ?_⟩⟩
      have := ok.inj ((hy l hl p hp).2.symm.trans h1)
      exact ⟨this ▸ (hy l hl p hp).1, this⟩) (acc' := 0) h
  exact ⟨x', h', by simpa using b⟩

theorem annuity_near {η : ℝ} {D D' : Int → ℝ} {tau : Int → Int → ℝ} : ∀ {ps : List SchedPeriod},
    (∀ p ∈ ps, 0 ≤ tau p.start p.fin) → (∀ p ∈ ps, |D' p.pay - D p.pay| ≤ η * D p.pay) →
    |annuity tau D' ps - annuity tau D ps| ≤ η * annuity tau D ps
  | [], _, _ => by simp [annuity]
  | p :: ps, ht, hD => by
    have ih := annuity_near (ps := ps) (fun q hq => ht q (by simp [hq])) (fun q hq => hD q (by simp [hq]))
    unfold annuity at ih ⊢
    simp only [List.map_cons, List.sum_cons]
    have h1 := mul_le_mul_of_nonneg_left (hD p (by simp)) (ht p (by simp))
    rw [abs_le] at ih
    have := abs_le.1 (show |tau p.start p.fin * (D' p.pay - D p.pay)| ≤ tau p.start p.fin * (η * D p.pay) by
      rwa [abs_mul, abs_of_nonneg (ht p (by simp))])
    rw [abs_le]
    constructor <;> linarith [ih.1, ih.2, this.1, this.2]

/-- **C100.** A fixed leg with a non-negative coupon keeps its sign and moves by at most the fraction
`e^(ε T) - 1` of its value. -/
theorem C100_fixed {ε T c N : ℝ} {cal val : Int} {ps ps' : List Pillar} (hε : 0 ≤ ε)
    (hn : List.Forall₂ (PillarNear ε) ps ps') (ho : ps.Pairwise fun a b => a.date < b.date) {l : SwapLeg}
    {sch : List SchedPeriod} {tau : Int → Int → ℝ} {D : Int → ℝ} {last : SchedPeriod} (hc : 0 ≤ c)
    (hs : l.generateSchedule cal = .ok sch) (hl : sch.getLast? = some last)
    (hN : ∀ q ∈ sch, q.balance = N) (ht : ∀ q ∈ sch, 0 ≤ tau q.start q.fin ∧ |yf365 val q.pay| ≤ T)
    (hy : ∀ q ∈ sch, (∃ n, l.dayCount q.start q.fin = .ok n) ∧
      l.yearFraction q.start q.fin = .ok (tau q.start q.fin))
    (hD : ∀ q ∈ sch, (Curve.mk val ps).discount q.pay = .ok (D q.pay)) :
    ∃ x x', (Swap.mk [l.withCoupon c]).npv cal (Curve.mk val ps) = .ok x ∧
      (Swap.mk [l.withCoupon c]).npv cal (Curve.mk val ps') = .ok x' ∧ 0 ≤ x * x' ∧
      |x' - x| ≤ (Real.exp (ε * T) - 1) * |x| := by
  obtain ⟨D', hD'⟩ := discount_table (Curve.mk val ps')
  have near : ∀ q ∈ sch, (Curve.mk val ps').discount q.pay = .ok (D' q.pay) ∧ 0 < D q.pay ∧ 0 < D' q.pay ∧
      |D' q.pay - D q.pay| ≤ (Real.exp (ε * T) - 1) * D q.pay := by
    intro q hq
    obtain ⟨x', h', b⟩ := discountsNear hε hn ho _ _ (ht q hq).2 (hD q hq)
    rw [hD' _ _ h']
    exact ⟨h', C36_discount_pos (hD q hq), C36_discount_pos h',
      near_of_log (C36_discount_pos (hD q hq)) (C36_discount_pos h') b⟩
  have hm := List.mem_of_getLast? hl
  have A := annuity_near (fun q hq => (ht q hq).1) (fun q hq => (near q hq).2.2.2)
  have nn : ∀ E : Int → ℝ, (∀ q ∈ sch, 0 < E q.pay) → 0 ≤ annuity tau E sch := by
    intro E hE
    unfold annuity
    refine List.sum_nonneg fun y hy => ?_
    obtain ⟨q, hq, rfl⟩ := List.mem_map.1 hy
    exact mul_nonneg (ht q hq).1 (hE q hq).le
  have n1 := nn D fun q hq => (near q hq).2.1
  have n2 := nn D' fun q hq => (near q hq).2.2.1
  refine ⟨_, _, C42_fixed hs hl hN hy hD, C42_fixed hs hl hN hy (fun q hq => (near q hq).1), ?_, ?_⟩
  · rw [show l.direction.sign * (N * (c * annuity tau D sch + D last.pay)) *
      (l.direction.sign * (N * (c * annuity tau D' sch + D' last.pay))) = (l.direction.sign * N) ^ 2 *
        ((c * annuity tau D sch + D last.pay) * (c * annuity tau D' sch + D' last.pay)) by ring]
    have := (near last hm).2.1
    have := (near last hm).2.2.1
    positivity
  · have p := (near last hm).2.1
    have B := (near last hm).2.2.2
    rw [show l.direction.sign * (N * (c * annuity tau D' sch + D' last.pay)) -
      l.direction.sign * (N * (c * annuity tau D sch + D last.pay)) = l.direction.sign * (N *
        (c * (annuity tau D' sch - annuity tau D sch) + (D' last.pay - D last.pay))) by ring, abs_mul, abs_mul N,
      abs_mul l.direction.sign, abs_mul N, sign_abs, one_mul, one_mul,
      abs_of_nonneg (show 0 ≤ c * annuity tau D sch + D last.pay by positivity)]
    have C := mul_le_mul_of_nonneg_left A hc
    have : |c * (annuity tau D' sch - annuity tau D sch) + (D' last.pay - D last.pay)| ≤
        (Real.exp (ε * T) - 1) * (c * annuity tau D sch + D last.pay) := by
      refine (abs_add_le _ _).trans ?_
      rw [abs_mul, abs_of_nonneg hc]
      linarith
    have := mul_le_mul_of_nonneg_left this (abs_nonneg N)
    linarith

/-- **C100.** A floating leg without spread over contiguous periods paid at their ends reacts to the error
up to its first date `p.start` only, however long it is. -/
theorem C100_float {ε N : ℝ} {cal val : Int} {ps ps' : List Pillar}
    (hn : List.Forall₂ (PillarNear ε) ps ps') (ho : ps.Pairwise fun a b => a.date < b.date) {l : SwapLeg}
    {p : SchedPeriod} {sch : List SchedPeriod} {D : Int → ℝ} (hk : l.kind = .float 0)
    (hs : l.generateSchedule cal = .ok (p :: sch)) (hc : Contiguous (p :: sch))
    (hp : ∀ q ∈ p :: sch, q.pay = q.fin ∧ q.balance = N)
    (hy : ∀ q ∈ p :: sch, (∃ n, l.dayCount q.start q.fin = .ok n) ∧
      ∃ y, y ≠ 0 ∧ l.yearFraction q.start q.fin = .ok y)
    (hD : ∀ q ∈ p :: sch, (Curve.mk val ps).discount q.start = .ok (D q.start) ∧
      (Curve.mk val ps).discount q.fin = .ok (D q.fin)) :
    ∃ x x', (Swap.mk [l]).npv cal (Curve.mk val ps) = .ok x ∧
      (Swap.mk [l]).npv cal (Curve.mk val ps') = .ok x' ∧
      |x' - x| ≤ (Real.exp (ε * |yf365 val p.start|) - 1) * |x| := by
  obtain ⟨D', hD'⟩ := discount_table (Curve.mk val ps')
  have near : ∀ d, (Curve.mk val ps).discount d = .ok (D d) → (Curve.mk val ps').discount d = .ok (D' d) ∧
      |D' d - D d| ≤ (Real.exp (ε * |yf365 val d|) - 1) * D d := by
    intro d h
    obtain ⟨x', h', b⟩ := discount_near hn ho h
    rw [hD' _ _ h']
    exact ⟨h', near_of_log (C36_discount_pos h) (C36_discount_pos h') b⟩
  refine ⟨_, _, C42_float hk hs hc hp hy hD,
    C42_float hk hs hc hp hy (fun q hq => ⟨(near _ (hD q hq).1).1, (near _ (hD q hq).2).1⟩), ?_⟩
  have h0 := (hD p (by simp)).1
  rw [show l.direction.sign * (N * D' p.start) - l.direction.sign * (N * D p.start) =
    l.direction.sign * (N * (D' p.start - D p.start)) by ring, abs_mul, abs_mul N, abs_mul l.direction.sign,
    abs_mul N, sign_abs, one_mul, one_mul, abs_of_pos (C36_discount_pos h0)]
  have := mul_le_mul_of_nonneg_left (near _ h0).2 (abs_nonneg N)
  linarith

/-- Quotients of nearby numbers. -/
theorem par_near {a b A a' b' A' η : ℝ} (ha : 0 < a) (hb : 0 < b) (hA : 0 < A)
    (h1 : |a' - a| ≤ (Real.exp η - 1) * a) (h2 : |b' - b| ≤ (Real.exp η - 1) * b)
    (h3 : A * Real.exp (-η) ≤ A') (h4 : |A' - A| ≤ (Real.exp η - 1) * A) :
    |(a' - b') / A' - (a - b) / A| ≤ (Real.exp (2 * η) - Real.exp η) * ((a + b) / A + |(a - b) / A|) := by
  have pA' : 0 < A' := (by positivity : 0 < A * Real.exp (-η)).trans_le h3
  have e : Real.exp η * Real.exp (-η) = 1 := by rw [← Real.exp_add]; simp
  have e2 : Real.exp (2 * η) = Real.exp η * Real.exp η := by rw [← Real.exp_add]; ring_nf
  have k : A ≤ Real.exp η * A' := by
    have := mul_le_mul_of_nonneg_left h3 (Real.exp_pos η).le
    calc A = Real.exp η * (A * Real.exp (-η)) := by rw [mul_left_comm, e, mul_one]
      _ ≤ _ := this
  have q : ((a' - b') / A' - (a - b) / A) = ((a' - a) - (b' - b) - (a - b) / A * (A' - A)) / A' := by
    field_simp
    ring
  have n : 0 ≤ Real.exp η - 1 := by
    have := (abs_nonneg _).trans h4
    by_contra hc
    have := mul_neg_of_neg_of_pos (not_le.1 hc) hA
    linarith
  rw [q, abs_div, abs_of_pos pA', div_le_iff₀ pA']
  have t1 : |(a' - a) - (b' - b) - (a - b) / A * (A' - A)| ≤
      (Real.exp η - 1) * (a + b + |(a - b) / A| * A) := by
    have := abs_sub ((a' - a) - (b' - b)) ((a - b) / A * (A' - A))
    have := abs_sub (a' - a) (b' - b)
    have m := mul_le_mul_of_nonneg_left h4 (abs_nonneg ((a - b) / A))
    rw [abs_mul] at *
    linarith
  refine t1.trans ?_
  have r : (Real.exp η - 1) * (a + b + |(a - b) / A| * A) = (Real.exp η - 1) * ((a + b) / A + |(a - b) / A|) * A := by
    field_simp
  rw [r, e2]
  have := mul_le_mul_of_nonneg_left k (show 0 ≤ (Real.exp η - 1) * ((a + b) / A + |(a - b) / A|) by positivity)
  linarith

/-- **C100.** The coupon at which a swap is worth nothing moves by at most `e^(2 ε T) - e^(ε T)` times the
sum of its own size and of the two discount factors in units of the annuity. -/
theorem C100_par {ε T c c' N : ℝ} {cal val : Int} {ps ps' : List Pillar} (hε : 0 ≤ ε)
    (hn : List.Forall₂ (PillarNear ε) ps ps') (ho : ps.Pairwise fun a b => a.date < b.date) {l fl : SwapLeg}
    {D : Int → ℝ} {tau : Int → Int → ℝ} {p last : SchedPeriod} {sch : List SchedPeriod}
    (hk : fl.kind = .float 0) (hdir : fl.direction = l.direction.flip)
    (hs : l.generateSchedule cal = .ok (p :: sch)) (hs' : fl.generateSchedule cal = .ok (p :: sch))
    (hl : (p :: sch).getLast? = some last) (hc : Contiguous (p :: sch))
    (hp : ∀ q ∈ p :: sch, q.pay = q.fin ∧ q.balance = N)
    (ht : ∀ q ∈ p :: sch, 0 < tau q.start q.fin ∧ |yf365 val q.start| ≤ T ∧ |yf365 val q.fin| ≤ T)
    (hy : ∀ q ∈ p :: sch, (∃ n, l.dayCount q.start q.fin = .ok n) ∧
      l.yearFraction q.start q.fin = .ok (tau q.start q.fin))
    (hy' : ∀ q ∈ p :: sch, (∃ n, fl.dayCount q.start q.fin = .ok n) ∧
      ∃ y, y ≠ 0 ∧ fl.yearFraction q.start q.fin = .ok y)
    (hD : ∀ q ∈ p :: sch, (Curve.mk val ps).discount q.start = .ok (D q.start) ∧
      (Curve.mk val ps).discount q.fin = .ok (D q.fin))
    (hN : N ≠ 0) (h : (Swap.mk [l.withCoupon c, fl]).npv cal (Curve.mk val ps) = .ok 0)
    (h' : (Swap.mk [l.withCoupon c', fl]).npv cal (Curve.mk val ps') = .ok 0) :
    |c' - c| ≤ (Real.exp (2 * (ε * T)) - Real.exp (ε * T)) *
      ((D p.start + D last.fin) / annuity tau D (p :: sch) + |c|) := by
  obtain ⟨D', hD'⟩ := discount_table (Curve.mk val ps')
  have near : ∀ d, |yf365 val d| ≤ T → (Curve.mk val ps).discount d = .ok (D d) →
      (Curve.mk val ps').discount d = .ok (D' d) ∧ 0 < D d ∧ 0 < D' d ∧
      |D' d - D d| ≤ (Real.exp (ε * T) - 1) * D d ∧ D d * Real.exp (-(ε * T)) ≤ D' d := by
    intro d hd h
    obtain ⟨x', h', b⟩ := discountsNear hε hn ho _ _ hd h
    rw [hD' _ _ h']
    have p1 := C36_discount_pos h
    have p2 := C36_discount_pos h'
    refine ⟨h', p1, p2, near_of_log p1 p2 b, ?_⟩
    rw [← Real.log_le_log_iff (by positivity) p2, Real.log_mul p1.ne' (Real.exp_ne_zero _), Real.log_exp]
    linarith [(abs_le.1 b).1]
  have fin : ∀ q ∈ p :: sch, _ := fun q hq => near q.fin (ht q hq).2.2 (hD q hq).2
  have start : ∀ q ∈ p :: sch, _ := fun q hq => near q.start (ht q hq).2.1 (hD q hq).1
  have pos : ∀ E : Int → ℝ, (∀ q ∈ p :: sch, 0 < E q.fin) → 0 < annuity tau E (p :: sch) := by
    intro E hE
    unfold annuity
    refine List.sum_pos _ (fun y hy => ?_) (by simp)
    obtain ⟨q, hq, rfl⟩ := List.mem_map.1 hy
    have := hE q hq
    rw [← (hp q hq).1] at this
    exact mul_pos (ht q hq).1 this
  have A0 := pos D fun q hq => (fin q hq).2.1
  have A1 := pos D' fun q hq => (fin q hq).2.2.1
  have hm := List.mem_of_getLast? hl
  rw [C42_par hk hdir hs hs' hl hc hp hy hy' hD hN A0.ne'] at h
  rw [C42_par hk hdir hs hs' hl hc hp hy hy' (fun q hq => ⟨(start q hq).1, (fin q hq).1⟩) hN A1.ne'] at h'
  rw [h, h']
  refine par_near (start p (by simp)).2.1 (fin last hm).2.1 A0 (start p (by simp)).2.2.2.1 (fin last hm).2.2.2.1 ?_
    (annuity_near (fun q hq => (ht q hq).1.le) (fun q hq => by rw [(hp q hq).1]; exact (fin q hq).2.2.2.1))
  unfold annuity
  rw [← List.sum_map_mul_right]
  refine List.sum_le_sum fun q hq => ?_
  rw [mul_assoc, (hp q hq).1]
  exact mul_le_mul_of_nonneg_left (fin q hq).2.2.2.2 (ht q hq).1.le

/-- **C100.** The value of a cap or floor moves by at most the fraction `e^(3 ε T) - 1` of its gross value,
the sum of the values of its caplets and of the notionals at their starts. -/
theorem C100_cap {ε T r v x : ℝ} {val : Int} {ps ps' : List Pillar} (hε : 0 ≤ ε) (hT : 0 ≤ T)
    (hn : List.Forall₂ (PillarNear ε) ps ps') (ho : ps.Pairwise fun a b => a.date < b.date) {c : CapFloor}
    {vs : List CapletPillar} (hy : ∀ p ∈ c.schedule, c.yearFraction p.start p.fin ≠ .ok 0)
    (ht : ∀ p ∈ c.schedule, |yf365 val p.start| ≤ T ∧ |yf365 val p.fin| ≤ T ∧ |yf365 val p.pay| ≤ T)
    (h : c.pv (Curve.mk val ps) vs r v = .ok x) :
    ∃ (ms : List CapletMarket) (x' : ℝ),
      List.Forall₂ (fun p m => c.market p (Curve.mk val ps) vs r v = .ok m) c.schedule ms ∧
      c.pv (Curve.mk val ps') vs r v = .ok x' ∧
      |x' - x| ≤ (Real.exp (3 * (ε * T)) - 1) * (|c.notional| * (ms.map (grossCaplet c.kind c.strike)).sum) := by
  obtain ⟨ms, h1, rfl⟩ := pv_ok.1 h
  obtain ⟨ms', g1, g2⟩ := caplets_near (discountsNear hε hn ho) (mul_nonneg hε hT) rfl
    (fun p hp => ⟨ht p hp, hy p hp⟩) h1
  exact ⟨ms, _, h1, pv_ok.2 ⟨ms', g1, rfl⟩, g2⟩

/-- **C100.** The zero rate of a deposit moves by at most the error in its quote times the ratio of the two
year fractions, divided by the smaller growth factor `m`. -/
theorem C100_deposit {q : OisRate} {v' tau m z : ℝ} {val s e : Int} (hs : q.settleDate val = .ok s)
    (he : q.maturityDate val = .ok e) (hse : s < e) (ht : q.index.yearFraction s e = .ok tau) (h0 : 0 ≤ tau)
    (hm : 0 < m) (h1 : m ≤ 1 + tau * q.value) (h2 : m ≤ 1 + tau * v') (h : q.zeroRate val = .ok z) :
    ∃ z', ({ q with value := v' } : OisRate).zeroRate val = .ok z' ∧
      |z' - z| ≤ tau / (m * yf365 s e) * |v' - q.value| := by
  have hy : 0 < yf365 s e := by
    unfold yf365
    refine div_pos ?_ (by norm_num)
    exact_mod_cast (by omega)
  have lip : ∀ a b : ℝ, m ≤ a → m ≤ b → Real.log b - Real.log a ≤ |b - a| / m := by
    intro a b ha hb
    have pa := hm.trans_le ha
    have pb := hm.trans_le hb
    rw [← Real.log_div pb.ne' pa.ne']
    refine (Real.log_le_sub_one_of_pos (by positivity)).trans ?_
    rw [show b / a - 1 = (b - a) / a by field_simp]
    exact (div_le_div_of_nonneg_right (le_abs_self _) pa.le).trans
      (div_le_div_of_nonneg_left (abs_nonneg _) hm ha)
  have value : ∀ w : ℝ, ({ q with value := w } : OisRate).zeroRate val =
      .ok (-(Real.log (1 / (1 + tau * w))) / yf365 s e) := by
    intro w
    unfold OisRate.zeroRate
    rw [show ({ q with value := w } : OisRate).settleDate val = .ok s from hs, ok_bind,
      show ({ q with value := w } : OisRate).maturityDate val = .ok e from he, ok_bind, ht, ok_bind]
  refine ⟨_, value v', ?_⟩
  have hz : .ok z = Outcome.ok (-(Real.log (1 / (1 + tau * q.value))) / yf365 s e) := h.symm.trans (value q.value)
  rw [ok.inj hz, one_div, one_div, Real.log_inv, Real.log_inv, neg_neg, neg_neg, ← sub_div, abs_div, abs_of_pos hy,
    div_le_iff₀ hy]
  have d : ∀ a b : ℝ, |(1 + tau * a) - (1 + tau * b)| = tau * |a - b| := by
    intro a b
    rw [show (1 + tau * a) - (1 + tau * b) = tau * (a - b) by ring, abs_mul, abs_of_nonneg h0]
  have l1 := lip _ _ h1 h2
  have l2 := lip _ _ h2 h1
  rw [d] at l1 l2
  rw [abs_sub_comm q.value] at l2
  have e : tau / (m * yf365 s e) * |v' - q.value| * yf365 s e = tau * |v' - q.value| / m := by
    field_simp
  rw [e, abs_le]
  constructor <;> linarith

/-- The sample curve with the two zero rates off by a basis point in opposite directions. -/
noncomputable def offCurve : Curve :=
  ⟨0, [pillarAt 30 (1 / 100 + 1 / 10000) false, pillarAt 60 (4 / 100 - 1 / 10000) false]⟩

theorem offCurve_near : List.Forall₂ (PillarNear (1 / 10000)) sampleCurve.pillars offCurve.pillars :=
  pillarPair_near (by norm_num) (by norm_num)

/-- Non-vacuity of `C100_fixed`, `C100_float` and `C100_swap`: the two-period legs on the sample curve and
on the one that is off; the floating leg starts today and does not move. -/
example : ∃ x x' y : ℝ, (Swap.mk [(givenLeg (.float 0) .buy).withCoupon (3 / 100)]).npv 0 sampleCurve = .ok x ∧
    (Swap.mk [(givenLeg (.float 0) .buy).withCoupon (3 / 100)]).npv 0 offCurve = .ok x' ∧
    |x' - x| ≤ (Real.exp (1 / 10000 * (40 / 365)) - 1) * |x| ∧
    (Swap.mk [givenLeg (.float 0) .sell]).npv 0 sampleCurve = .ok y ∧
    (Swap.mk [givenLeg (.float 0) .sell]).npv 0 offCurve = .ok y := by
  obtain ⟨D, hD⟩ := sampleCurve_discounts
  have hd : ∀ q ∈ twoPeriods, sampleCurve.discount q.start = .ok (D q.start) ∧
      sampleCurve.discount q.fin = .ok (D q.fin) := by
    intro q hq
    simp only [twoPeriods, List.mem_cons, List.not_mem_nil, or_false] at hq
    rcases hq with rfl | rfl <;> exact ⟨(hD _ (by decide)).1, (hD _ (by decide)).1⟩
  have pos : ∀ q ∈ twoPeriods, 0 < yf365 q.start q.fin ∧ |yf365 0 q.pay| ≤ 40 / 365 := by
    intro q hq
    simp only [twoPeriods, List.mem_cons, List.not_mem_nil, or_false] at hq
    rcases hq with rfl | rfl <;> constructor <;> norm_num [yf365, abs_of_pos]
  have pay : ∀ q ∈ twoPeriods, q.pay = q.fin ∧ q.balance = 1000 := by simp [twoPeriods]
  obtain ⟨x, x', h1, h2, -, h3⟩ := C100_fixed (cal := 0) (val := 0) (ps := sampleCurve.pillars)
    (T := 40 / 365) (c := 3 / 100) (tau := yf365) (D := D) (by norm_num) offCurve_near (pillarPair_order _ _)
    (by norm_num) (givenLeg_sched (.float 0) .buy 0) rfl (fun q hq => (pay q hq).2)
    (fun q hq => ⟨(pos q hq).1.le, (pos q hq).2⟩) (fun q hq => ⟨⟨_, rfl⟩, rfl⟩)
    (fun q hq => by rw [(pay q hq).1]; exact (hd q hq).2)
  obtain ⟨y, y', k1, k2, k3⟩ := C100_float (cal := 0) (val := 0) (ps := sampleCurve.pillars) (D := D) (N := 1000)
    offCurve_near (pillarPair_order _ _) (l := givenLeg (.float 0) .sell) rfl (givenLeg_sched (.float 0) .sell 0)
    (by simp [Contiguous]) pay
    (fun q hq => ⟨⟨_, rfl⟩, _, (pos q hq).1.ne', rfl⟩) hd
  have : y' = y := by
    have e : |yf365 0 0| = 0 := by norm_num [yf365]
    dsimp only at k3
    rw [e, mul_zero, Real.exp_zero, sub_self, zero_mul] at k3
    linarith [abs_nonpos_iff.1 k3]
  subst this
  exact ⟨x, x', _, h1, h2, h3, k1, k2⟩

/-- Non-vacuity of `C100_swap`: receiving 3% against floating, with its gross value. -/
example : ∃ (D : Int → ℝ) (x x' : ℝ),
    (Swap.mk [givenLeg (.fixed (3 / 100)) .buy, givenLeg (.float 0) .sell]).npv 0 sampleCurve = .ok x ∧
    (Swap.mk [givenLeg (.fixed (3 / 100)) .buy, givenLeg (.float 0) .sell]).npv 0 offCurve = .ok x' ∧
    |x' - x| ≤ (Real.exp (3 * (1 / 10000 * (40 / 365))) - 1) *
      (grossLeg D yf365 (.fixed (3 / 100)) twoPeriods + grossLeg D yf365 (.float 0) twoPeriods) := by
  obtain ⟨D, hD⟩ := discount_table sampleCurve
  have value : ∃ x, (Swap.mk [givenLeg (.fixed (3 / 100)) .buy, givenLeg (.float 0) .sell]).npv 0 sampleCurve =
      .ok x := by
    obtain ⟨E, hE⟩ := sampleCurve_discounts
    have e0 := (hE 0 (by decide)).1
    have e1 := (hE 20 (by decide)).1
    have e2 := (hE 40 (by decide)).1
    unfold Swap.npv
    simp only [npvLegs, givenLeg_sched, ok_bind]
    simp only [ok_bind, twoPeriods, SwapLeg.addCashflows, SwapLeg.cashflow, givenLeg,
      sampleLeg, e0, e1, e2, List.getLast?_cons_cons, List.getLast?_singleton]
    exact ⟨_, rfl⟩
  obtain ⟨x, hx⟩ := value
  have mem : ∀ l ∈ (Swap.mk [givenLeg (.fixed (3 / 100)) .buy, givenLeg (.float 0) .sell]).legs,
      ∃ k d, l = givenLeg k d := by
    intro l hl
    simp only [List.mem_cons, List.not_mem_nil, or_false] at hl
    rcases hl with rfl | rfl <;> exact ⟨_, _, rfl⟩
  obtain ⟨x', hx', b⟩ := C100_swap (cal := 0) (val := 0) (ps := sampleCurve.pillars) (T := 40 / 365) (by norm_num)
    (by norm_num) offCurve_near (pillarPair_order _ _) hD (tau := fun _ => yf365) (sch := fun _ => twoPeriods)
    (fun l hl => by obtain ⟨k, d, rfl⟩ := mem l hl; rfl)
    (fun l hl p hp => by
      obtain ⟨k, d, rfl⟩ := mem l hl
      refine ⟨?_, rfl⟩
      simp only [twoPeriods, List.mem_cons, List.not_mem_nil, or_false] at hp
      rcases hp with rfl | rfl <;> norm_num [yf365])
    (fun l hl p hp => by
      simp only [twoPeriods, List.mem_cons, List.not_mem_nil, or_false] at hp
      rcases hp with rfl | rfl <;> refine ⟨?_, ?_, ?_⟩ <;> norm_num [yf365, abs_of_pos]) hx
  refine ⟨D, x, x', hx, hx', b.trans_eq ?_⟩
  simp only [List.map_cons, List.map_nil, List.sum_cons, List.sum_nil, add_zero]
  rfl

/-- Non-vacuity of `C100_deposit`: the sample deposit, off by a basis point. -/
example : ∃ z z', sampleDeposit.zeroRate (ymd 2023 10 27) = .ok z ∧
    ({ sampleDeposit with value := sampleDeposit.value + 1 / 10000 } : OisRate).zeroRate (ymd 2023 10 27) = .ok z' ∧
    |z' - z| ≤ 365 / 360 * (1 / 10000) := by
  obtain ⟨-, -, hm⟩ := sampleDeposit_october
  have hs : sampleDeposit.settleDate (ymd 2023 10 27) = .ok (ymd 2023 10 27) := by
    unfold sampleDeposit OisRate.settleDate; decide +kernel
  have h3 : sampleDeposit.index.yearFraction (ymd 2023 10 27) (ymd 2024 1 29) =
      .ok (((ymd 2024 1 29 - ymd 2023 10 27 : Int) : ℝ) / 360) := rfl
  have n : ymd 2024 1 29 - ymd 2023 10 27 = 94 := by decide
  rw [n] at h3
  obtain ⟨z', h', b⟩ := C100_deposit (m := 1) (v' := sampleDeposit.value + 1 / 10000) hs hm (by decide) h3
    (by norm_num) one_pos (by norm_num [sampleDeposit]) (by norm_num [sampleDeposit]) (ois_zeroRate hs hm h3)
  refine ⟨_, z', ois_zeroRate hs hm h3, h', b.trans_eq ?_⟩
  unfold yf365
  rw [n]
  norm_num [abs_of_pos]

/-- Non-vacuity of `C100_cap`: the sample cap, its gross value and its value on the curve that is off. -/
example : ∃ (x x' : ℝ) (ms : List CapletMarket),
    (sampleCap.withKind .cap).pv sampleCurve (flatSurface (1 / 100)) 0 0 = .ok x ∧
    (sampleCap.withKind .cap).pv offCurve (flatSurface (1 / 100)) 0 0 = .ok x' ∧ ms.length = 2 ∧
    |x' - x| ≤ (Real.exp (3 * (1 / 10000 * (40 / 365))) - 1) *
      (1000 * (ms.map (grossCaplet .cap (2 / 100))).sum) := by
  obtain ⟨x, hx⟩ := sampleCap_pv .cap 0 0
  obtain ⟨ms, x', h1, h2, b⟩ := C100_cap (val := 0) (ps := sampleCurve.pillars) (ps' := offCurve.pillars)
    (T := 40 / 365) (by norm_num) (by norm_num) offCurve_near (pillarPair_order _ _)
    (fun p hp h => by
      have h : yf365 p.start p.fin = 0 := ok.inj h
      change p ∈ twoPeriods at hp
      simp only [twoPeriods, List.mem_cons, List.not_mem_nil, or_false] at hp
      rcases hp with rfl | rfl <;> norm_num [yf365] at h)
    (fun p hp => by
      change p ∈ twoPeriods at hp
      simp only [twoPeriods, List.mem_cons, List.not_mem_nil, or_false] at hp
      rcases hp with rfl | rfl <;> refine ⟨?_, ?_, ?_⟩ <;> norm_num [yf365, abs_of_pos]) hx
  refine ⟨x, x', ms, hx, h2, h1.length_eq.symm, ?_⟩
  rw [show |(sampleCap.withKind .cap).notional| = 1000 by simp [CapFloor.withKind, sampleCap]] at b
  exact b

theorem twoPeriods_facts : (∀ q ∈ twoPeriods, q.pay = q.fin ∧ q.balance = 1000) ∧
    (∀ q ∈ twoPeriods, 0 < yf365 q.start q.fin ∧ |yf365 0 q.start| ≤ 40 / 365 ∧ |yf365 0 q.fin| ≤ 40 / 365) := by
  refine ⟨by simp [twoPeriods], fun q hq => ?_⟩
  simp only [twoPeriods, List.mem_cons, List.not_mem_nil, or_false] at hq
  rcases hq with rfl | rfl <;> refine ⟨?_, ?_, ?_⟩ <;> norm_num [yf365, abs_of_pos]

theorem pair_discounts (a b : ℝ) : ∃ D : Int → ℝ, ∀ q ∈ twoPeriods,
    (Curve.mk 0 [pillarAt 30 a false, pillarAt 60 b false]).discount q.start = .ok (D q.start) ∧
    (Curve.mk 0 [pillarAt 30 a false, pillarAt 60 b false]).discount q.fin = .ok (D q.fin) ∧
    0 < D q.start ∧ 0 < D q.fin := by
  obtain ⟨D, hD⟩ := discount_table (Curve.mk 0 [pillarAt 30 a false, pillarAt 60 b false])
  have h : ∀ d, Valid (d + 1) → (Curve.mk 0 [pillarAt 30 a false, pillarAt 60 b false]).discount d = .ok (D d) ∧
      0 < D d := by
    intro d hd
    obtain ⟨x, hx⟩ := (C36_discount_exists (cv := Curve.mk 0 [pillarAt 30 a false, pillarAt 60 b false])
      (d := d)).2 ⟨by simp, hd⟩
    rw [hD _ _ hx]
    exact ⟨hx, C36_discount_pos hx⟩
  refine ⟨D, fun q hq => ?_⟩
  simp only [twoPeriods, List.mem_cons, List.not_mem_nil, or_false] at hq
  rcases hq with rfl | rfl <;>
    exact ⟨(h _ (by decide)).1, (h _ (by decide)).1, (h _ (by decide)).2, (h _ (by decide)).2⟩

theorem par_exists (a b : ℝ) : ∃ c, (Swap.mk [(givenLeg (.float 0) .buy).withCoupon c, givenLeg (.float 0) .sell]).npv 0
    (Curve.mk 0 [pillarAt 30 a false, pillarAt 60 b false]) = .ok 0 := by
  obtain ⟨D, hD⟩ := pair_discounts a b
  obtain ⟨f1, f2⟩ := twoPeriods_facts
  refine ⟨_, (C42_par (l := givenLeg (.float 0) .buy) (tau := yf365) (N := 1000) (D := D)
    (last := ⟨20, 40, 40, 20, 0, 1000⟩) rfl rfl (givenLeg_sched _ _ _) (givenLeg_sched _ _ _) rfl
    (by simp [Contiguous]) f1 (fun q hq => ⟨⟨_, rfl⟩, rfl⟩) (fun q hq => ⟨⟨_, rfl⟩, _, (f2 q hq).1.ne', rfl⟩)
    (fun q hq => ⟨(hD q hq).1, (hD q hq).2.1⟩) (by norm_num) ?_).2 rfl⟩
  have h1 := (hD ⟨0, 20, 20, 0, 0, 1000⟩ (by simp [twoPeriods])).2.2.2
  have h2 := (hD ⟨20, 40, 40, 20, 0, 1000⟩ (by simp [twoPeriods])).2.2.2
  dsimp only at h1 h2
  simp only [annuity, List.map_cons, List.map_nil, List.sum_cons, List.sum_nil, yf365]
  norm_num
  positivity

/-- Non-vacuity of `C100_par`: the par coupons on the sample curve and on the one that is off. -/
example : ∃ (D : Int → ℝ) (c c' : ℝ), |c' - c| ≤
    (Real.exp (2 * (1 / 10000 * (40 / 365))) - Real.exp (1 / 10000 * (40 / 365))) *
      ((D 0 + D 40) / annuity yf365 D twoPeriods + |c|) := by
  obtain ⟨D, hD⟩ := pair_discounts (1 / 100) (4 / 100)
  obtain ⟨f1, f2⟩ := twoPeriods_facts
  obtain ⟨c, hc⟩ := par_exists (1 / 100) (4 / 100)
  obtain ⟨c', hc'⟩ := par_exists (1 / 100 + 1 / 10000) (4 / 100 - 1 / 10000)
  exact ⟨D, c, c', C100_par (last := ⟨20, 40, 40, 20, 0, 1000⟩) (by norm_num) offCurve_near (pillarPair_order _ _)
    (l := givenLeg (.float 0) .buy) (fl := givenLeg (.float 0) .sell) rfl rfl (givenLeg_sched _ _ _)
    (givenLeg_sched _ _ _) rfl (by simp [Contiguous]) f1 f2 (fun q hq => ⟨⟨_, rfl⟩, rfl⟩)
    (fun q hq => ⟨⟨_, rfl⟩, _, (f2 q hq).1.ne', rfl⟩) (fun q hq => ⟨(hD q hq).1, (hD q hq).2.1⟩) (by norm_num) hc hc'⟩

end Verif
