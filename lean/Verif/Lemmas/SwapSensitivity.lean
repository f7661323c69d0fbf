import Verif.Spec.SwapSensitivity
import Verif.Lemmas.Sensitivity
import Verif.Props.SwapValue

/-!
# Lemmas on the reaction of swap values to errors in the curve
-/

namespace Verif

open Outcome

/-- Numbers whose logarithms are close. -/
theorem near_of_log {x x' η : ℝ} (h : 0 < x) (h' : 0 < x') (hl : |Real.log x' - Real.log x| ≤ η) :
    |x' - x| ≤ (Real.exp η - 1) * x := by
  obtain ⟨b1, b2⟩ := abs_le.1 hl
  have u : x' ≤ x * Real.exp η := by
    rw [← Real.log_le_log_iff h' (by positivity), Real.log_mul h.ne' (Real.exp_ne_zero _), Real.log_exp]
    linarith
  have d : x * Real.exp (-η) ≤ x' := by
    rw [← Real.log_le_log_iff (by positivity) h', Real.log_mul h.ne' (Real.exp_ne_zero _), Real.log_exp]
    linarith
  have e : 2 ≤ Real.exp η + Real.exp (-η) := by
    have := Real.add_one_le_exp η
    have := Real.add_one_le_exp (-η)
    linarith
  rw [abs_le]
  constructor
  · have := mul_le_mul_of_nonneg_left e h.le
    linarith
  · linarith

/-- `cv'` has a discount factor wherever `cv` has one and `P` holds, and the logarithms differ by at most `η`. -/
def DiscountsNear (η : ℝ) (P : Int → Prop) (cv cv' : Curve) : Prop :=
  ∀ d x, P d → cv.discount d = .ok x → ∃ x', cv'.discount d = .ok x' ∧ |Real.log x' - Real.log x| ≤ η

theorem discountsNear {ε T : ℝ} {val : Int} {ps ps' : List Pillar} (hε : 0 ≤ ε)
    (hn : List.Forall₂ (PillarNear ε) ps ps') (ho : ps.Pairwise fun a b => a.date < b.date) :
    DiscountsNear (ε * T) (fun d => |yf365 val d| ≤ T) (Curve.mk val ps) (Curve.mk val ps') := by
  intro d x hd h
  obtain ⟨x', h', hl⟩ := discount_near hn ho h
  exact ⟨x', h', hl.trans (mul_le_mul_of_nonneg_left hd hε)⟩

theorem sign_abs (d : Direction) : |d.sign| = 1 := by cases d <;> simp [Direction.sign]

/-- One payment. -/
theorem cashflow_near {η : ℝ} {P : Int → Prop} {cv cv' : Curve} (hd : DiscountsNear η P cv cv') (hη : 0 ≤ η)
    {D : Int → ℝ} (hD : ∀ d x, cv.discount d = .ok x → D d = x) {l : SwapLeg} {tau : Int → Int → ℝ}
    {p : SchedPeriod} (hP : P p.start ∧ P p.fin ∧ P p.pay)
    (ht : ∀ y, l.yearFraction p.start p.fin = .ok y → y ≠ 0 ∧ tau p.start p.fin = y) {v : ℝ}
    (h : l.cashflow p cv = .ok v) :
    ∃ v', l.cashflow p cv' = .ok v' ∧ |v' - v| ≤ (Real.exp (3 * η) - 1) * grossFlow D tau l.kind p := by
  have e1 : Real.exp η ≤ Real.exp (3 * η) := Real.exp_le_exp.2 (by linarith)
  unfold SwapLeg.cashflow at h ⊢
  obtain ⟨n, hn, h⟩ := bind_eq_ok.1 h
  obtain ⟨y, hy, h⟩ := bind_eq_ok.1 h
  obtain ⟨y0, hty⟩ := ht y hy
  rw [hn, ok_bind, hy, ok_bind]
  unfold grossFlow
  rw [hty]
  cases hk : l.kind with
  | fixed c =>
    rw [hk] at h
    dsimp only at h ⊢
    rw [ok_bind] at h ⊢
    obtain ⟨dp, hp, h⟩ := bind_eq_ok.1 h
    obtain ⟨dp', hp', lp⟩ := hd _ _ hP.2.2 hp
    have pp := C36_discount_pos hp
    have np3 : |dp' - dp| ≤ (Real.exp (3 * η) - 1) * dp :=
      (near_of_log pp (C36_discount_pos hp') lp).trans (mul_le_mul_of_nonneg_right (by linarith) pp.le)
    rw [hp', ok_bind, hD _ _ hp]
    refine ⟨_, rfl, ?_⟩
    rw [← ok.inj h, show c * y * p.balance * dp' * l.direction.sign - c * y * p.balance * dp * l.direction.sign =
      c * y * p.balance * (dp' - dp) * l.direction.sign by ring, abs_mul, sign_abs, mul_one, abs_mul]
    have := mul_le_mul_of_nonneg_left np3 (abs_nonneg (c * y * p.balance))
    linarith
  | float s =>
    rw [hk] at h
    dsimp only at h ⊢
    obtain ⟨ds, hs, h⟩ := bind_eq_ok.1 h
    obtain ⟨de, he, h⟩ := bind_eq_ok.1 h
    rw [ok_bind] at h
    obtain ⟨dp, hp, h⟩ := bind_eq_ok.1 h
    obtain ⟨ds', hs', ls⟩ := hd _ _ hP.1 hs
    obtain ⟨de', he', le⟩ := hd _ _ hP.2.1 he
    obtain ⟨dp', hp', lp⟩ := hd _ _ hP.2.2 hp
    have pp := C36_discount_pos hp
    have pp' := C36_discount_pos hp'
    have ps := C36_discount_pos hs
    have ps' := C36_discount_pos hs'
    have pe := C36_discount_pos he
    have pe' := C36_discount_pos he'
    have np3 : |dp' - dp| ≤ (Real.exp (3 * η) - 1) * dp :=
      (near_of_log pp pp' lp).trans (mul_le_mul_of_nonneg_right (by linarith) pp.le)
    have na : |ds' / de' * dp' - ds / de * dp| ≤ (Real.exp (3 * η) - 1) * (ds / de * dp) := by
      refine near_of_log (by positivity) (by positivity) ?_
      rw [Real.log_mul (by positivity) pp'.ne', Real.log_mul (by positivity) pp.ne', Real.log_div ps'.ne' pe'.ne',
        Real.log_div ps.ne' pe.ne']
      rw [abs_le] at ls le lp ⊢
      constructor <;> linarith [ls.1, ls.2, le.1, le.2, lp.1, lp.2]
    rw [hs', ok_bind, he', ok_bind, ok_bind, hp', ok_bind, hD _ _ hs, hD _ _ he, hD _ _ hp]
    refine ⟨_, rfl, ?_⟩
    rw [← ok.inj h]
    have eq : ((ds' / de' - 1) / y + s) * y * p.balance * dp' * l.direction.sign -
        ((ds / de - 1) / y + s) * y * p.balance * dp * l.direction.sign =
        p.balance * ((ds' / de' * dp' - ds / de * dp) + (s * y - 1) * (dp' - dp)) * l.direction.sign := by
      have : ∀ u : ℝ, ((u - 1) / y + s) * y = u - 1 + s * y := fun u => by field_simp
      rw [this, this]
      ring
    rw [eq, abs_mul, sign_abs, mul_one, abs_mul]
    have b : |(ds' / de' * dp' - ds / de * dp) + (s * y - 1) * (dp' - dp)| ≤
        (Real.exp (3 * η) - 1) * ((ds / de + |s * y - 1|) * dp) := by
      refine (abs_add_le _ _).trans ?_
      rw [abs_mul]
      have := mul_le_mul_of_nonneg_left np3 (abs_nonneg (s * y - 1))
      linarith
    have := mul_le_mul_of_nonneg_left b (abs_nonneg p.balance)
    linarith

/-- The payments of a schedule. -/
theorem addCashflows_near {η : ℝ} {P : Int → Prop} {cv cv' : Curve} (hd : DiscountsNear η P cv cv') (hη : 0 ≤ η)
    {D : Int → ℝ} (hD : ∀ d x, cv.discount d = .ok x → D d = x) {l : SwapLeg} {tau : Int → Int → ℝ} :
    ∀ {ps : List SchedPeriod}, (∀ p ∈ ps, P p.start ∧ P p.fin ∧ P p.pay) →
    (∀ p ∈ ps, ∀ y, l.yearFraction p.start p.fin = .ok y → y ≠ 0 ∧ tau p.start p.fin = y) → ∀ {acc acc' v : ℝ},
    l.addCashflows cv ps acc = .ok v → ∃ v', l.addCashflows cv' ps acc' = .ok v' ∧
      |v' - v| ≤ |acc' - acc| + (Real.exp (3 * η) - 1) * (ps.map (grossFlow D tau l.kind)).sum
  | [], _, _, acc, acc', v, h => by
    refine ⟨acc', rfl, ?_⟩
    have : acc = v := ok.inj h
    simp [this]
  | p :: ps, hP, ht, acc, acc', v, h => by
    unfold SwapLeg.addCashflows at h ⊢
    obtain ⟨u, hu, h⟩ := bind_eq_ok.1 h
    obtain ⟨u', hu', b⟩ := cashflow_near hd hη hD (hP p (by simp)) (ht p (by simp)) hu
    obtain ⟨v', hv', b'⟩ := addCashflows_near hd hη hD (fun q hq => hP q (by simp [hq]))
      (fun q hq => ht q (by simp [hq])) (acc' := acc' + u') h
    rw [hu', ok_bind]
    refine ⟨v', hv', ?_⟩
    have : |acc' + u' - (acc + u)| ≤ |acc' - acc| + |u' - u| := by
      rw [show acc' + u' - (acc + u) = (acc' - acc) + (u' - u) by ring]
      exact abs_add_le _ _
    rw [List.map_cons, List.sum_cons, mul_add]
    linarith

/-- All legs. -/
theorem npvLegs_near {η : ℝ} {P : Int → Prop} {cv cv' : Curve} (hd : DiscountsNear η P cv cv') (hη : 0 ≤ η)
    {D : Int → ℝ} (hD : ∀ d x, cv.discount d = .ok x → D d = x) {val : Int} {tau : SwapLeg → Int → Int → ℝ}
    {gross : SwapLeg → ℝ} : ∀ {ls : List SwapLeg},
    (∀ l ∈ ls, ∀ ps, l.generateSchedule val = .ok ps → gross l = grossLeg D (tau l) l.kind ps ∧
      ∀ p ∈ ps, (P p.start ∧ P p.fin ∧ P p.pay) ∧
      ∀ y, l.yearFraction p.start p.fin = .ok y → y ≠ 0 ∧ tau l p.start p.fin = y) → ∀ {acc acc' v : ℝ},
    npvLegs val cv ls acc = .ok v → ∃ v', npvLegs val cv' ls acc' = .ok v' ∧
      |v' - v| ≤ |acc' - acc| + (Real.exp (3 * η) - 1) * (ls.map gross).sum
  | [], _, acc, acc', v, h => by
    refine ⟨acc', rfl, ?_⟩
    have : acc = v := ok.inj h
    simp [this]
  | l :: ls, hl, acc, acc', v, h => by
    rw [npvLegs.eq_def] at h ⊢
    dsimp only at h ⊢
    obtain ⟨ps, hs, h⟩ := bind_eq_ok.1 h
    obtain ⟨hg, hp⟩ := hl l (by simp) ps hs
    obtain ⟨a, ha, h⟩ := bind_eq_ok.1 h
    obtain ⟨a', ha', na⟩ := addCashflows_near hd hη hD (fun p q => (hp p q).1) (fun p q => (hp p q).2)
      (acc' := acc') ha
    rw [hs, ok_bind, ha', ok_bind]
    rw [List.map_cons, List.sum_cons, hg, grossLeg, mul_add, mul_add]
    cases hq : ps.getLast? with
    | none =>
      rw [hq] at h
      dsimp only at h ⊢
      rw [ok_bind] at h ⊢
      obtain ⟨v', hv', nv⟩ := npvLegs_near hd hη hD (fun m hm => hl m (by simp [hm])) (acc' := a') h
      refine ⟨v', hv', ?_⟩
      rw [Option.map_none, Option.getD_none]
      linarith
    | some q =>
      rw [hq] at h
      dsimp only at h ⊢
      obtain ⟨x, hx, h⟩ := bind_eq_ok.1 h
      rw [ok_bind] at h
      have hP := (hp q (List.mem_of_getLast? hq)).1.2.2
      obtain ⟨x', hx', lx⟩ := hd _ _ hP hx
      obtain ⟨v', hv', nv⟩ := npvLegs_near hd hη hD (fun m hm => hl m (by simp [hm]))
        (acc' := a' + q.balance * x' * l.direction.sign) h
      rw [hx', ok_bind, ok_bind]
      refine ⟨v', hv', ?_⟩
      have nx := near_of_log (C36_discount_pos hx) (C36_discount_pos hx') lx
      have e1 : Real.exp η ≤ Real.exp (3 * η) := Real.exp_le_exp.2 (by linarith)
      have nx3 : |x' - x| ≤ (Real.exp (3 * η) - 1) * x :=
        nx.trans (mul_le_mul_of_nonneg_right (by linarith) (C36_discount_pos hx).le)
      have nb : |a' + q.balance * x' * l.direction.sign - (a + q.balance * x * l.direction.sign)| ≤
          |a' - a| + |q.balance| * |x' - x| := by
        rw [show a' + q.balance * x' * l.direction.sign - (a + q.balance * x * l.direction.sign) =
          (a' - a) + q.balance * (x' - x) * l.direction.sign by ring]
        refine (abs_add_le _ _).trans ?_
        rw [abs_mul (q.balance * _), sign_abs, mul_one, abs_mul]
      rw [Option.map_some, Option.getD_some, hD _ _ hx]
      have := mul_le_mul_of_nonneg_left nx3 (abs_nonneg q.balance)
      linarith

/-! ## Caps -/

theorem shifted_near {η : ℝ} {P : Int → Prop} {cv cv' : Curve} (hd : DiscountsNear η P cv cv')
    (hval : cv'.valuation = cv.valuation) {d : Int} (hP : P d) {r x : ℝ} (h : cv.shiftedDiscount d r = .ok x) :
    ∃ x', cv'.shiftedDiscount d r = .ok x' ∧ 0 < x ∧ 0 < x' ∧ |Real.log x' - Real.log x| ≤ η := by
  unfold Curve.shiftedDiscount at h ⊢
  obtain ⟨y, hy, h⟩ := bind_eq_ok.1 h
  obtain ⟨y', hy', b⟩ := hd _ _ hP hy
  have p := C36_discount_pos hy
  have p' := C36_discount_pos hy'
  rw [hy', ok_bind, hval]
  rw [← ok.inj h]
  refine ⟨_, rfl, by positivity, by positivity, ?_⟩
  rw [Real.log_mul p.ne' (Real.exp_ne_zero _), Real.log_mul p'.ne' (Real.exp_ne_zero _), add_sub_add_right_eq_sub]
  exact b

/-- One caplet. -/
theorem caplet_near {η : ℝ} {P : Int → Prop} {cv cv' : Curve} (hd : DiscountsNear η P cv cv') (hη : 0 ≤ η)
    (hval : cv'.valuation = cv.valuation) {c : CapFloor} {vs : List CapletPillar} {r v : ℝ} {p : SchedPeriod}
    (hP : P p.start ∧ P p.fin ∧ P p.pay) (ht : c.yearFraction p.start p.fin ≠ .ok 0) {m : CapletMarket}
    (h : c.market p cv vs r v = .ok m) : ∃ m', c.market p cv' vs r v = .ok m' ∧
      |m'.tau * m'.dfPay * optionValue c.kind c.strike m' - m.tau * m.dfPay * optionValue c.kind c.strike m|
        ≤ (Real.exp (3 * η) - 1) * grossCaplet c.kind c.strike m := by
  obtain ⟨tau, ds, de, dp, s, e1, e2, e3, e4, e5, rfl⟩ := market_ok.1 h
  have t0 : tau ≠ 0 := by
    rintro rfl
    exact ht e1
  obtain ⟨ds', f2, ps, ps', ls⟩ := shifted_near hd hval hP.1 e2
  obtain ⟨de', f3, pe, pe', le⟩ := shifted_near hd hval hP.2.1 e3
  obtain ⟨dp', f4, pp, pp', lp⟩ := shifted_near hd hval hP.2.2 e4
  refine ⟨_, market_ok.2 ⟨tau, ds', de', dp', s, e1, f2, f3, f4, e5, rfl⟩, ?_⟩
  have np := near_of_log pp pp' lp
  have nf : |ds' / de' - ds / de| ≤ (Real.exp (2 * η) - 1) * (ds / de) := by
    refine near_of_log (by positivity) (by positivity) ?_
    rw [Real.log_div ps'.ne' pe'.ne', Real.log_div ps.ne' pe.ne']
    rw [abs_le] at ls le ⊢
    constructor <;> linarith [ls.1, ls.2, le.1, le.2]
  unfold grossCaplet
  dsimp only
  generalize capletTotalVariance c.style (s + v * (1 / 10000)) (yf365 c.valuation p.start) (yf365 c.valuation p.fin) = V
  have opt : |optionValue c.kind c.strike ⟨tau, dp', (ds' / de' - 1) / tau, V⟩ -
      optionValue c.kind c.strike ⟨tau, dp, (ds / de - 1) / tau, V⟩| ≤ |(ds' / de' - 1) / tau - (ds / de - 1) / tau| := by
    have hb := bachelier_level_lip ((ds / de - 1) / tau) ((ds' / de' - 1) / tau) c.strike c.strike V
    rw [sub_self, abs_zero, add_zero] at hb
    cases hk : c.kind
    · exact hb.1
    · exact hb.2
  rw [show (ds' / de' - 1) / tau - (ds / de - 1) / tau = (ds' / de' - ds / de) / tau by ring, abs_div,
    le_div_iff₀ (abs_pos.2 t0)] at opt
  rw [show 1 + tau * ((ds / de - 1) / tau) = ds / de by field_simp; ring,
    abs_of_pos (show 0 < ds / de by positivity)]
  generalize optionValue c.kind c.strike ⟨tau, dp', (ds' / de' - 1) / tau, V⟩ = o' at *
  generalize optionValue c.kind c.strike ⟨tau, dp, (ds / de - 1) / tau, V⟩ = o at *
  have q0 : 0 < ds / de := by positivity
  generalize ds / de = q at *
  have up : dp' ≤ dp * Real.exp η := by
    have := (abs_le.1 np).2
    linarith
  have e12 : Real.exp η * Real.exp (2 * η) = Real.exp (3 * η) := by rw [← Real.exp_add]; ring_nf
  have e1' : 1 ≤ Real.exp η := Real.one_le_exp hη
  have e2' : 1 ≤ Real.exp (2 * η) := Real.one_le_exp (by linarith)
  have e3' : Real.exp η ≤ Real.exp (3 * η) := Real.exp_le_exp.2 (by linarith)
  rw [show tau * dp' * o' - tau * dp * o = dp' * (tau * (o' - o)) + (dp' - dp) * (tau * o) by ring]
  refine (abs_add_le _ _).trans ?_
  rw [abs_mul, abs_mul (dp' - dp), abs_of_pos pp', abs_mul tau (o' - o), mul_comm |tau| |o' - o|]
  have s1 : dp' * (|o' - o| * |tau|) ≤ (Real.exp (3 * η) - 1) * (dp * q) := by
    calc dp' * (|o' - o| * |tau|) ≤ (dp * Real.exp η) * ((Real.exp (2 * η) - 1) * q) :=
          mul_le_mul up (opt.trans nf) (by positivity) (by positivity)
      _ = (Real.exp η * Real.exp (2 * η) - Real.exp η) * (dp * q) := by ring
      _ ≤ _ := by
        rw [e12]
        exact mul_le_mul_of_nonneg_right (by linarith) (by positivity)
  have s2 : |dp' - dp| * |tau * o| ≤ (Real.exp (3 * η) - 1) * (dp * |tau * o|) := by
    rw [← mul_assoc]
    exact mul_le_mul_of_nonneg_right (np.trans (mul_le_mul_of_nonneg_right (by linarith) pp.le)) (abs_nonneg _)
  linarith

theorem caplets_near {η : ℝ} {P : Int → Prop} {cv cv' : Curve} (hd : DiscountsNear η P cv cv') (hη : 0 ≤ η)
    (hval : cv'.valuation = cv.valuation) {c : CapFloor} {vs : List CapletPillar} {r v : ℝ} :
    ∀ {ps : List SchedPeriod} {ms : List CapletMarket},
    (∀ p ∈ ps, (P p.start ∧ P p.fin ∧ P p.pay) ∧ c.yearFraction p.start p.fin ≠ .ok 0) →
    List.Forall₂ (fun p m => c.market p cv vs r v = .ok m) ps ms →
    ∃ ms', List.Forall₂ (fun p m => c.market p cv' vs r v = .ok m) ps ms' ∧
      |(ms'.map fun m => c.direction.sign * c.notional * m.tau * m.dfPay * optionValue c.kind c.strike m).sum -
        (ms.map fun m => c.direction.sign * c.notional * m.tau * m.dfPay * optionValue c.kind c.strike m).sum|
        ≤ (Real.exp (3 * η) - 1) * (|c.notional| * (ms.map (grossCaplet c.kind c.strike)).sum)
  | _, _, _, .nil => ⟨[], .nil, by simp⟩
  | p :: ps, m :: ms, hp, .cons hm hr => by
    obtain ⟨ms', g1, g2⟩ := caplets_near hd hη hval (fun q hq => hp q (List.mem_cons_of_mem _ hq)) hr
    obtain ⟨m', f1, f2⟩ := caplet_near hd hη hval (hp p (by simp)).1 (hp p (by simp)).2 hm
    refine ⟨m' :: ms', .cons f1 g1, ?_⟩
    rw [List.map_cons, List.map_cons, List.sum_cons, List.sum_cons, List.map_cons, List.sum_cons]
    have one : |c.direction.sign * c.notional * m'.tau * m'.dfPay * optionValue c.kind c.strike m' -
        c.direction.sign * c.notional * m.tau * m.dfPay * optionValue c.kind c.strike m| ≤
        (Real.exp (3 * η) - 1) * (|c.notional| * grossCaplet c.kind c.strike m) := by
      rw [show c.direction.sign * c.notional * m'.tau * m'.dfPay * optionValue c.kind c.strike m' -
        c.direction.sign * c.notional * m.tau * m.dfPay * optionValue c.kind c.strike m =
        c.direction.sign * (c.notional * (m'.tau * m'.dfPay * optionValue c.kind c.strike m' -
          m.tau * m.dfPay * optionValue c.kind c.strike m)) by ring, abs_mul, sign_abs, one_mul, abs_mul]
      have := mul_le_mul_of_nonneg_left f2 (abs_nonneg c.notional)
      linarith
    rw [abs_le] at one g2 ⊢
    rw [mul_add, mul_add]
    constructor <;> linarith [one.1, one.2, g2.1, g2.2]

end Verif
