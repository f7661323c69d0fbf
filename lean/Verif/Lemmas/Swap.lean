import Verif.Spec.Swap
import Verif.Props.Period
import Verif.Props.YieldCurve

/-!
# Lemmas about swap schedules and values
-/

namespace Verif

open Outcome

/-! ### Schedules -/

theorem nthPeriod_ok {l : SwapLeg} {eff start : Int} {n : Nat} {q : SchedPeriod}
    (h : l.nthPeriod eff n start = .ok q) :
    ∃ p m, l.frequency.period = some p ∧ mulPeriod n p = .ok m ∧
      advance l.calendar eff m l.convention l.index.endOfMonth = .ok q.fin ∧
      advance l.calendar q.fin (.days l.payDelay) l.convention false = .ok q.pay ∧
      advance l.calendar start (.days (-l.daysBefore)) l.convention false = .ok q.reset ∧
      q.start = start ∧ q.amort = l.notional ∧ q.balance = l.notional := by
  unfold SwapLeg.nthPeriod at h
  cases hp : l.frequency.period with
  | none => rw [hp] at h; cases h
  | some p =>
    rw [hp] at h
    simp only [ok_bind, bind_eq_ok] at h
    obtain ⟨m, hm, e, he, pay, hpay, nb, hnb, r, hr, h⟩ := h
    have : nb = -l.daysBefore := by
      unfold checkI64 at hnb; split at hnb <;> simp at hnb; exact hnb.symm
    subst this
    cases h
    exact ⟨p, m, rfl, hm, he, hpay, hr, rfl, rfl, rfl⟩

theorem genPeriods_ok {l : SwapLeg} {eff : Int} {k : Nat} :
    ∀ {n : Nat} {start : Int} {ps : List SchedPeriod}, l.genPeriods eff k n start = .ok ps →
      ps.length = k ∧ Contiguous ps ∧ (∀ p, ps.head? = some p → p.start = start) ∧
      ∀ (i : Nat) (p : SchedPeriod), ps[i]? = some p → l.nthPeriod eff (n + i) p.start = .ok p := by
  induction k with
  | zero =>
    intro n start ps h
    rw [SwapLeg.genPeriods] at h
    cases h
    exact ⟨rfl, .nil, by simp, by simp⟩
  | succ k ih =>
    intro n start ps h
    rw [SwapLeg.genPeriods, bind_eq_ok] at h
    obtain ⟨q, hq, h⟩ := h
    rw [bind_eq_ok] at h
    obtain ⟨rest, hr, h⟩ := h
    cases h
    obtain ⟨i1, i2, i3, i4⟩ := ih hr
    obtain ⟨_, _, _, _, _, _, _, hs, _, _⟩ := nthPeriod_ok hq
    refine ⟨by simp [i1], ?_, ?_, ?_⟩
    · unfold Contiguous
      rcases rest with _ | ⟨b, rest⟩
      · exact .singleton _
      · exact List.isChain_cons_cons.2 ⟨i3 b rfl, i2⟩
    · intro p hp
      cases hp
      exact hs
    · intro i p hp
      rcases i with _ | i
      · cases hp
        rw [hs]; exact hq
      · have := i4 i p (by simpa using hp)
        rw [show n + (i + 1) = n + 1 + i from by omega]
        exact this

theorem generate_ok {l : SwapLeg} {val : Int} {ps : List SchedPeriod} (he : l.schedule = [])
    (h : l.generateSchedule val = .ok ps) :
    ∃ eff, l.effectiveDate val = .ok eff ∧ periodNum l.tenor ≠ 0 ∧
      l.genPeriods eff (periodNum l.duration / periodNum l.tenor) 1 eff = .ok ps := by
  unfold SwapLeg.generateSchedule at h
  rw [he] at h
  simp only [bind_eq_ok] at h
  obtain ⟨eff, h1, h⟩ := h
  by_cases ht : periodNum l.tenor = 0
  · rw [if_pos ht] at h; cases h
  · rw [if_neg ht, bind_eq_ok] at h
    obtain ⟨_, _, h⟩ := h
    exact ⟨eff, h1, ht, h⟩

/-! ### Values -/

/-- The value of one leg added by `npv` (the body of the outer loop with accumulator 0). -/
noncomputable def legNpv (val : Int) (cv : Curve) (l : SwapLeg) : Outcome ℝ := do
  let sch ← l.generateSchedule val
  let a ← l.addCashflows cv sch 0
  match sch.getLast? with
  | some last => do
    let df ← cv.discount last.pay
    .ok (a + last.balance * df * l.direction.sign)
  | none => .ok a

theorem addCashflows_acc (l : SwapLeg) (cv : Curve) (ps : List SchedPeriod) (acc : ℝ) :
    l.addCashflows cv ps acc = (fun v => acc + v) <$> l.addCashflows cv ps 0 := by
  induction ps generalizing acc with
  | nil => simp [SwapLeg.addCashflows]
  | cons p ps ih =>
    rw [SwapLeg.addCashflows, SwapLeg.addCashflows]
    rcases l.cashflow p cv with v | e | _
    · simp only [ok_bind]
      rw [ih (acc + v), ih (0 + v)]
      rcases l.addCashflows cv ps 0 with w | e | _ <;> simp [add_assoc]
    · rfl
    · rfl

theorem npvLegs_cons (val : Int) (cv : Curve) (l : SwapLeg) (ls : List SwapLeg) (acc : ℝ) :
    npvLegs val cv (l :: ls) acc = (legNpv val cv l >>= fun v => npvLegs val cv ls (acc + v)) := by
  rw [npvLegs, legNpv]
  rcases l.generateSchedule val with sch | e | _
  · simp only [ok_bind]
    rw [addCashflows_acc]
    rcases l.addCashflows cv sch 0 with a | e | _
    · simp only [ok_bind, map_ok]
      cases sch.getLast? with
      | none => simp only [ok_bind]
      | some last =>
        dsimp only
        rcases cv.discount last.pay with df | e | _
        · simp only [ok_bind, add_assoc]
        · rfl
        · rfl
    · rfl
    · rfl
  · rfl
  · rfl

theorem npvLegs_acc (val : Int) (cv : Curve) (ls : List SwapLeg) (acc : ℝ) :
    npvLegs val cv ls acc = (fun v => acc + v) <$> npvLegs val cv ls 0 := by
  induction ls generalizing acc with
  | nil => simp [npvLegs]
  | cons l ls ih =>
    rw [npvLegs_cons, npvLegs_cons]
    rcases legNpv val cv l with v | e | _
    · simp only [ok_bind]
      rw [ih (acc + v), ih (0 + v)]
      rcases npvLegs val cv ls 0 with w | e | _ <;> simp [add_assoc]
    · rfl
    · rfl

theorem npv_single (val : Int) (cv : Curve) (l : SwapLeg) :
    (Swap.mk [l]).npv val cv = legNpv val cv l := by
  unfold Swap.npv
  rw [npvLegs_cons]
  rcases legNpv val cv l with v | e | _ <;> simp [npvLegs]

theorem npv_append (val : Int) (cv : Curve) (ls ms : List SwapLeg) :
    (Swap.mk (ls ++ ms)).npv val cv =
      ((Swap.mk ls).npv val cv >>= fun a => (Swap.mk ms).npv val cv >>= fun b => .ok (a + b)) := by
  unfold Swap.npv
  induction ls with
  | nil =>
    simp only [List.nil_append, npvLegs, ok_bind, zero_add]
    rcases npvLegs val cv ms 0 with w | e | _ <;> rfl
  | cons l ls ih =>
    rw [List.cons_append]
    simp only
    rw [npvLegs_cons, npvLegs_cons]
    rcases legNpv val cv l with v | e | _
    · simp only [ok_bind]
      rw [npvLegs_acc, npvLegs_acc val cv ls]
      simp only at ih
      rw [ih]
      rcases npvLegs val cv ls 0 with w | e | _
      · simp only [ok_bind, map_ok]
        rcases npvLegs val cv ms 0 with u | e | _ <;> simp [add_assoc]
      · rfl
      · rfl
    · rfl
    · rfl

/-! ### Scaling -/

/-- Leg `l'` pays `a` times what `l` pays, `g` matching the periods. -/
structure ScalesBy (a : ℝ) (g : SchedPeriod → SchedPeriod) (l l' : SwapLeg) : Prop where
  sched : ∀ val, l'.generateSchedule val = (List.map g) <$> l.generateSchedule val
  flow : ∀ p cv, l'.cashflow (g p) cv = (fun v => a * v) <$> l.cashflow p cv
  pay : ∀ p, (g p).pay = p.pay
  bal : ∀ p, (g p).balance * l'.direction.sign = a * (p.balance * l.direction.sign)

theorem addCashflows_scale {a : ℝ} {g : SchedPeriod → SchedPeriod} {l l' : SwapLeg}
    (h : ScalesBy a g l l') (cv : Curve) (ps : List SchedPeriod) :
    l'.addCashflows cv (ps.map g) 0 = (fun v => a * v) <$> l.addCashflows cv ps 0 := by
  induction ps with
  | nil => simp [SwapLeg.addCashflows]
  | cons p ps ih =>
    rw [List.map_cons, SwapLeg.addCashflows, SwapLeg.addCashflows, h.flow]
    rcases l.cashflow p cv with v | e | _
    · simp only [ok_bind, map_ok, zero_add]
      rw [addCashflows_acc, addCashflows_acc l, ih]
      rcases l.addCashflows cv ps 0 with w | e | _ <;> simp [mul_add]
    · rfl
    · rfl

theorem legNpv_scale {a : ℝ} {g : SchedPeriod → SchedPeriod} {l l' : SwapLeg}
    (h : ScalesBy a g l l') (val : Int) (cv : Curve) :
    legNpv val cv l' = (fun v => a * v) <$> legNpv val cv l := by
  unfold legNpv
  rw [h.sched]
  rcases l.generateSchedule val with sch | e | _
  · simp only [ok_bind, map_ok]
    rw [addCashflows_scale h]
    rcases l.addCashflows cv sch 0 with v | e | _
    · simp only [ok_bind, map_ok, List.getLast?_map]
      cases sch.getLast? with
      | none => rfl
      | some last =>
        simp only [Option.map_some, h.pay]
        rcases cv.discount last.pay with df | e | _
        · simp only [ok_bind, map_ok]
          congr 1
          have := h.bal last
          linear_combination df * this
        · rfl
        · rfl
    · rfl
    · rfl
  · rfl
  · rfl

theorem npvLegs_scale {a : ℝ} (f : SwapLeg → SwapLeg) (ls : List SwapLeg)
    (h : ∀ l ∈ ls, ∃ g, ScalesBy a g l (f l)) (val : Int) (cv : Curve) :
    npvLegs val cv (ls.map f) 0 = (fun v => a * v) <$> npvLegs val cv ls 0 := by
  induction ls with
  | nil => simp [npvLegs]
  | cons l ls ih =>
    obtain ⟨g, hg⟩ := h l (by simp)
    rw [List.map_cons, npvLegs_cons, npvLegs_cons, legNpv_scale hg]
    rcases legNpv val cv l with v | e | _
    · simp only [ok_bind, map_ok, zero_add]
      rw [npvLegs_acc, npvLegs_acc val cv ls, ih fun m hm => h m (List.mem_cons_of_mem _ hm)]
      rcases npvLegs val cv ls 0 with w | e | _ <;> simp [mul_add]
    · rfl
    · rfl

theorem sign_flip (d : Direction) : d.flip.sign = -d.sign := by
  cases d <;> simp [Direction.flip, Direction.sign]

theorem scalesBy_flip (l : SwapLeg) : ScalesBy (-1) id l l.flip where
  sched val := by
    have : ∀ eff k n s, l.flip.genPeriods eff k n s = l.genPeriods eff k n s := by
      intro eff k
      induction k with
      | zero => intros; rfl
      | succ k ih =>
        intro n s
        rw [SwapLeg.genPeriods, SwapLeg.genPeriods]
        simp only [ih]
        rfl
    have e : l.flip.generateSchedule val = l.generateSchedule val := by
      unfold SwapLeg.generateSchedule
      simp only [this]
      rfl
    rw [e]
    rcases l.generateSchedule val with s | e | _ <;> simp
  flow p cv := by
    unfold SwapLeg.cashflow
    simp only [SwapLeg.flip, id, sign_flip]
    rcases l.dayCount p.start p.fin with n | e | _ <;> try rfl
    rcases l.yearFraction p.start p.fin with y | e | _ <;> try rfl
    cases l.kind with
    | fixed c =>
      simp only [ok_bind]
      rcases cv.discount p.pay with d | e | _ <;> simp
    | float s =>
      simp only [ok_bind]
      rcases cv.discount p.start with d1 | e | _ <;> try rfl
      rcases cv.discount p.fin with d2 | e | _ <;> try rfl
      rcases cv.discount p.pay with d | e | _ <;> simp
  pay _ := rfl
  bal p := by simp [SwapLeg.flip, sign_flip]

/-- The period with its amounts multiplied by `a`. -/
noncomputable def scalePeriod (a : ℝ) (p : SchedPeriod) : SchedPeriod :=
  { p with amort := a * p.amort, balance := a * p.balance }

theorem scalesBy_scale (a : ℝ) (l : SwapLeg) : ScalesBy a (scalePeriod a) l (l.scale a) where
  sched val := by
    have h1 : ∀ eff n s, (l.scale a).nthPeriod eff n s = scalePeriod a <$> l.nthPeriod eff n s := by
      intro eff n s
      unfold SwapLeg.nthPeriod
      simp only [SwapLeg.scale]
      cases l.frequency.period with
      | none => rfl
      | some q =>
        simp only [ok_bind]
        rcases mulPeriod n q with m | e | _ <;> try rfl
        simp only [ok_bind]
        rcases advance l.calendar eff m l.convention l.index.endOfMonth with e | e | _ <;> try rfl
        simp only [ok_bind]
        rcases advance l.calendar e (.days l.payDelay) l.convention false with p | e | _ <;> try rfl
        simp only [ok_bind]
        rcases checkI64 (-l.daysBefore) with b | e | _ <;> try rfl
        simp only [ok_bind]
        rcases advance l.calendar s (.days b) l.convention false with p | e | _ <;> rfl
    have h2 : ∀ eff k n s, (l.scale a).genPeriods eff k n s =
        List.map (scalePeriod a) <$> l.genPeriods eff k n s := by
      intro eff k
      induction k with
      | zero => intros; rfl
      | succ k ih =>
        intro n s
        rw [SwapLeg.genPeriods, SwapLeg.genPeriods, h1]
        rcases l.nthPeriod eff n s with p | e | _
        · simp only [ok_bind, map_ok]
          rw [ih, show (scalePeriod a p).fin = p.fin from rfl]
          rcases l.genPeriods eff k (n + 1) p.fin with r | e | _ <;> simp
        · rfl
        · rfl
    unfold SwapLeg.generateSchedule
    cases hs : l.schedule with
    | nil =>
      have : (l.scale a).schedule = [] := by simp [SwapLeg.scale, hs]
      rw [this]
      simp only [h2]
      rw [show (l.scale a).effectiveDate val = l.effectiveDate val from rfl,
        show (l.scale a).tenor = l.tenor from rfl, show (l.scale a).duration = l.duration from rfl]
      rcases l.effectiveDate val with eff | e | _ <;> try rfl
      simp only [ok_bind]
      by_cases ht : periodNum l.tenor = 0
      · rw [if_pos ht, if_pos ht]; rfl
      · rw [if_neg ht, if_neg ht]
        rcases checkU32 (periodNum l.duration / periodNum l.tenor + 1) with c | e | _ <;> rfl
    | cons q qs =>
      have : (l.scale a).schedule = scalePeriod a q :: qs.map (scalePeriod a) := by
        simp [SwapLeg.scale, hs, scalePeriod]
      rw [this]
      rfl
  flow p cv := by
    unfold SwapLeg.cashflow
    simp only [SwapLeg.scale, scalePeriod]
    rcases l.dayCount p.start p.fin with n | e | _ <;> try rfl
    rcases l.yearFraction p.start p.fin with y | e | _ <;> try rfl
    cases l.kind with
    | fixed c =>
      simp only [ok_bind]
      rcases cv.discount p.pay with d | e | _ <;> simp
      ring
    | float s =>
      simp only [ok_bind]
      rcases cv.discount p.start with d1 | e | _ <;> try rfl
      rcases cv.discount p.fin with d2 | e | _ <;> try rfl
      rcases cv.discount p.pay with d | e | _ <;> simp
      ring
  pay _ := rfl
  bal p := by simp [SwapLeg.scale, scalePeriod]; ring

/-! ### Shifted values -/

theorem shiftedCashflow_congr {cv cv' : Curve} {bp bp' : ℝ}
    (h : ∀ d, cv.shiftedDiscount d bp = cv'.shiftedDiscount d bp') (l : SwapLeg) (p : SchedPeriod) :
    l.shiftedCashflow p cv bp = l.shiftedCashflow p cv' bp' := by
  unfold SwapLeg.shiftedCashflow
  simp only [h]

theorem addShifted_congr {cv cv' : Curve} {bp bp' : ℝ}
    (h : ∀ d, cv.shiftedDiscount d bp = cv'.shiftedDiscount d bp') (l : SwapLeg)
    (ps : List SchedPeriod) (acc : ℝ) : l.addShifted cv bp ps acc = l.addShifted cv' bp' ps acc := by
  induction ps generalizing acc with
  | nil => rfl
  | cons p ps ih =>
    rw [SwapLeg.addShifted, SwapLeg.addShifted, shiftedCashflow_congr h]
    simp only [ih]

theorem pvUnderShift_congr {cv cv' : Curve} {bp bp' : ℝ}
    (h : ∀ d, cv.shiftedDiscount d bp = cv'.shiftedDiscount d bp') (s : Swap) (val : Int) :
    s.pvUnderShift val cv bp = s.pvUnderShift val cv' bp' := by
  unfold Swap.pvUnderShift
  generalize (0 : ℝ) = acc
  generalize s.legs = ls
  induction ls generalizing acc with
  | nil => rfl
  | cons l ls ih =>
    rw [shiftedLegs, shiftedLegs]
    simp only [ih, addShifted_congr h, h]

/-- The unshifted value is `npv`, if day counts exist wherever year fractions do. -/
theorem cashflow_shifted_zero (l : SwapLeg) (p : SchedPeriod) (cv : Curve)
    (hd : ∀ y, l.yearFraction p.start p.fin = .ok y → ∃ n, l.dayCount p.start p.fin = .ok n) {v : ℝ} :
    l.shiftedCashflow p cv 0 = .ok v ↔ l.cashflow p cv = .ok v := by
  unfold SwapLeg.shiftedCashflow SwapLeg.cashflow
  simp only [C38_zero_shift]
  rcases hy : l.yearFraction p.start p.fin with y | e | _
  · obtain ⟨n, hn⟩ := hd y hy
    rw [hn]
    rfl
  · rcases l.dayCount p.start p.fin with n | e' | _ <;> simp
  · rcases l.dayCount p.start p.fin with n | e' | _ <;> simp

theorem addShifted_zero (l : SwapLeg) (cv : Curve) (ps : List SchedPeriod)
    (hd : ∀ a b y, l.yearFraction a b = .ok y → ∃ n, l.dayCount a b = .ok n) {acc v : ℝ} :
    l.addShifted cv 0 ps acc = .ok v ↔ l.addCashflows cv ps acc = .ok v := by
  induction ps generalizing acc with
  | nil => rfl
  | cons p ps ih =>
    rw [SwapLeg.addShifted, SwapLeg.addCashflows, bind_eq_ok, bind_eq_ok]
    simp only [cashflow_shifted_zero l p cv (hd _ _), ih]

theorem shiftedLegs_zero (val : Int) (cv : Curve) (ls : List SwapLeg)
    (hd : ∀ l ∈ ls, ∀ a b y, l.yearFraction a b = .ok y → ∃ n, l.dayCount a b = .ok n) {acc v : ℝ} :
    shiftedLegs val cv 0 ls acc = .ok v ↔ npvLegs val cv ls acc = .ok v := by
  induction ls generalizing acc with
  | nil => rfl
  | cons l ls ih =>
    rw [shiftedLegs, npvLegs]
    simp only [bind_eq_ok, addShifted_zero l cv _ (hd l (by simp)), C38_zero_shift]
    have ih' := fun {acc : ℝ} => @ih (fun m hm => hd m (List.mem_cons_of_mem _ hm)) acc
    refine exists_congr fun sch => and_congr_right fun _ => exists_congr fun a =>
      and_congr_right fun _ => ?_
    cases sch.getLast? with
    | none => simpa using ih'
    | some last =>
      simp only [bind_eq_ok, ih']

/-- Where `npv` has a value the zero-shift value is the same. -/
theorem npvLegs_shifted {val : Int} {cv : Curve} {ls : List SwapLeg} {acc v : ℝ}
    (h : npvLegs val cv ls acc = .ok v) : shiftedLegs val cv 0 ls acc = .ok v := by
  have h1 : ∀ (l : SwapLeg) p v, l.cashflow p cv = .ok v → l.shiftedCashflow p cv 0 = .ok v := by
    intro l p v h
    unfold SwapLeg.cashflow at h
    rw [bind_eq_ok] at h
    obtain ⟨_, -, h⟩ := h
    unfold SwapLeg.shiftedCashflow
    simp only [C38_zero_shift]
    exact h
  have h2 : ∀ (l : SwapLeg) ps acc v, l.addCashflows cv ps acc = .ok v →
      l.addShifted cv 0 ps acc = .ok v := by
    intro l ps
    induction ps with
    | nil => intro acc v h; exact h
    | cons p ps ih =>
      intro acc v h
      rw [SwapLeg.addCashflows, bind_eq_ok] at h
      obtain ⟨w, hw, h⟩ := h
      rw [SwapLeg.addShifted, h1 l p w hw, ok_bind]
      exact ih _ _ h
  induction ls generalizing acc with
  | nil => exact h
  | cons l ls ih =>
    rw [npvLegs, bind_eq_ok] at h
    obtain ⟨sch, hs, h⟩ := h
    rw [bind_eq_ok] at h
    obtain ⟨a, ha, h⟩ := h
    rw [shiftedLegs, hs, ok_bind, h2 l sch acc a ha, ok_bind]
    simp only [C38_zero_shift]
    cases hl : sch.getLast? with
    | none =>
      rw [hl] at h
      simp only [ok_bind] at h ⊢
      exact ih h
    | some last =>
      rw [hl] at h
      dsimp only at h ⊢
      obtain ⟨b, hb, h⟩ := bind_eq_ok.1 h
      exact bind_eq_ok.2 ⟨b, hb, ih h⟩

theorem generate_withCoupon (l : SwapLeg) (c : ℝ) (val : Int) :
    (l.withCoupon c).generateSchedule val = l.generateSchedule val := by
  have : ∀ eff k n s, (l.withCoupon c).genPeriods eff k n s = l.genPeriods eff k n s := by
    intro eff k
    induction k with
    | zero => intros; rfl
    | succ k ih =>
      intro n s
      rw [SwapLeg.genPeriods, SwapLeg.genPeriods]
      simp only [ih]
      rfl
  unfold SwapLeg.generateSchedule
  simp only [this]
  rfl

theorem cashflow_withCoupon {l : SwapLeg} {c : ℝ} {p : SchedPeriod} {cv : Curve} {v : ℝ} :
    (l.withCoupon c).cashflow p cv = .ok v ↔
      ∃ n y d, l.dayCount p.start p.fin = .ok n ∧ l.yearFraction p.start p.fin = .ok y ∧
        cv.discount p.pay = .ok d ∧ v = c * y * p.balance * d * l.direction.sign := by
  unfold SwapLeg.cashflow SwapLeg.withCoupon
  simp only [bind_eq_ok, ok.injEq]
  constructor
  · rintro ⟨n, hn, y, hy, r, rfl, d, hd, rfl⟩
    exact ⟨n, y, d, hn, hy, hd, rfl⟩
  · rintro ⟨n, y, d, hn, hy, hd, rfl⟩
    exact ⟨n, hn, y, hy, c, rfl, d, hd, rfl⟩

theorem addCashflows_coupon {l : SwapLeg} {c c' a a' : ℝ} (t : ℝ) {cv : Curve} {ps : List SchedPeriod}
    {x x' : ℝ} (h : (l.withCoupon c).addCashflows cv ps x = .ok a)
    (h' : (l.withCoupon c').addCashflows cv ps x' = .ok a') :
    (l.withCoupon ((1 - t) * c + t * c')).addCashflows cv ps ((1 - t) * x + t * x') =
      .ok ((1 - t) * a + t * a') := by
  induction ps generalizing x x' with
  | nil =>
    simp only [SwapLeg.addCashflows, ok.injEq] at h h' ⊢
    rw [h, h']
  | cons p ps ih =>
    rw [SwapLeg.addCashflows, bind_eq_ok] at h h'
    obtain ⟨v, hv, h⟩ := h
    obtain ⟨v', hv', h'⟩ := h'
    obtain ⟨n, y, d, h1, h2, h3, rfl⟩ := cashflow_withCoupon.1 hv
    obtain ⟨n', y', d', h1', h2', h3', rfl⟩ := cashflow_withCoupon.1 hv'
    rw [h2] at h2'
    obtain rfl := ok.inj h2'
    rw [h3] at h3'
    obtain rfl := ok.inj h3'
    rw [SwapLeg.addCashflows, cashflow_withCoupon.2 ⟨n, y, d, h1, h2, h3, rfl⟩, ok_bind, ← ih h h']
    congr 1
    ring

/-- The coupons of a spread-free floating leg telescope. -/
theorem float_telescopes {l : SwapLeg} {cv : Curve} {N : ℝ} {D : Int → ℝ} {p last : SchedPeriod}
    {ps : List SchedPeriod} (hk : l.kind = .float 0) (hc : Contiguous (p :: ps))
    (hp : ∀ q ∈ p :: ps, q.pay = q.fin ∧ q.balance = N)
    (hy : ∀ q ∈ p :: ps, (∃ n, l.dayCount q.start q.fin = .ok n) ∧
      ∃ y, y ≠ 0 ∧ l.yearFraction q.start q.fin = .ok y)
    (hD : ∀ q ∈ p :: ps, cv.discount q.start = .ok (D q.start) ∧ cv.discount q.fin = .ok (D q.fin))
    (hl : (p :: ps).getLast? = some last) {acc : ℝ} :
    l.addCashflows cv (p :: ps) acc =
      .ok (acc + l.direction.sign * (N * (D p.start - D last.fin))) := by
  induction ps generalizing p acc with
  | nil =>
    simp only [List.getLast?_singleton, Option.some.injEq] at hl
    subst hl
    simp only [SwapLeg.addCashflows]
    obtain ⟨⟨n, hn⟩, y, hy0, hyy⟩ := hy p (by simp)
    obtain ⟨h1, h2⟩ := hD p (by simp)
    obtain ⟨h3, h4⟩ := hp p (by simp)
    have hpos := C36_discount_pos h2
    unfold SwapLeg.cashflow
    simp only [hk, hn, hyy, h3, h1, h2, h4, ok_bind, ok.injEq]
    field_simp
    ring
  | cons q qs ih =>
    rw [SwapLeg.addCashflows]
    obtain ⟨⟨n, hn⟩, y, hy0, hyy⟩ := hy p (by simp)
    obtain ⟨h1, h2⟩ := hD p (by simp)
    obtain ⟨h3, h4⟩ := hp p (by simp)
    have hpos := C36_discount_pos h2
    have hc' := List.isChain_cons_cons.1 hc
    have e : l.cashflow p cv = .ok (l.direction.sign * (N * (D p.start - D p.fin))) := by
      unfold SwapLeg.cashflow
      simp only [hk, hn, hyy, h3, h1, h2, h4, ok_bind, ok.injEq]
      field_simp
      ring
    rw [e, ok_bind, ih hc'.2 (fun a ha => hp a (List.mem_cons_of_mem _ ha))
      (fun a ha => hy a (List.mem_cons_of_mem _ ha)) (fun a ha => hD a (List.mem_cons_of_mem _ ha))
      (by rwa [List.getLast?_cons_cons] at hl), hc'.1]
    congr 1
    ring

/-- The coupons of a fixed leg sum to coupon times annuity. -/
theorem fixed_annuity {l : SwapLeg} {cv : Curve} {c N : ℝ} {D : Int → ℝ} {tau : Int → Int → ℝ}
    {ps : List SchedPeriod} (hN : ∀ q ∈ ps, q.balance = N)
    (hy : ∀ q ∈ ps, (∃ n, l.dayCount q.start q.fin = .ok n) ∧
      l.yearFraction q.start q.fin = .ok (tau q.start q.fin))
    (hD : ∀ q ∈ ps, cv.discount q.pay = .ok (D q.pay)) {acc : ℝ} :
    (l.withCoupon c).addCashflows cv ps acc =
      .ok (acc + l.direction.sign * (N * (c * annuity tau D ps))) := by
  induction ps generalizing acc with
  | nil => simp [SwapLeg.addCashflows, annuity]
  | cons p ps ih =>
    obtain ⟨⟨n, hn⟩, hyy⟩ := hy p (by simp)
    rw [SwapLeg.addCashflows, cashflow_withCoupon.2 ⟨n, _, _, hn, hyy, hD p (by simp), rfl⟩, ok_bind,
      ih (fun a ha => hN a (List.mem_cons_of_mem _ ha)) (fun a ha => hy a (List.mem_cons_of_mem _ ha))
        (fun a ha => hD a (List.mem_cons_of_mem _ ha)), hN p (by simp)]
    simp only [annuity, List.map_cons, List.sum_cons]
    congr 1
    ring

end Verif
