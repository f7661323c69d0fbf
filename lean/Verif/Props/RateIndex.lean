import Verif.Spec.RateIndex
import Verif.Props.Shipped
import Verif.Props.Advance

/-!
# C77: the built-in interest rate indices
-/

namespace Verif

open Outcome

/-- C77: every code has an index, so the `Option` is never empty. -/
theorem C77_total (c : IndexCode) : ∃ i, indexFromEnum c = some i := by
  cases c with
  | euribor p => cases p <;> exact ⟨_, rfl⟩
  | _ => exact ⟨_, rfl⟩

/-- C77: the euro, dollar and sterling indices carry the currency, the calendar and the day count
of their market. -/
theorem C77_market_partial {c : IndexCode} {i : BuiltinIndex} (h : indexFromEnum c = some i)
    (hc : c ≠ .aonia) (hd : ∀ p, c ≠ .cdor p) :
    i.currency = (indexMarket c).1 ∧ i.calendar.cal = (indexMarket c).2.1.cal ∧
      ∀ a b, i.dayCounter.yearFraction a b = .ok (((b - a : Int) : ℚ) / (indexMarket c).2.2) := by
  cases c with
  | aonia => exact absurd rfl hc
  | cdor p => exact absurd rfl (hd p)
  | euribor p => cases p <;> obtain rfl := Option.some.inj h <;> exact ⟨rfl, rfl, fun _ _ => rfl⟩
  | _ => obtain rfl := Option.some.inj h; exact ⟨rfl, rfl, fun _ _ => rfl⟩

/-- C77: the Australian overnight index uses the Austrian calendar: it is open on Australia Day and
closed on the Austrian national day, which is a business day in Sydney. -/
theorem C77_aonia_false : ∃ i, indexFromEnum .aonia = some i ∧ i.calendar = .austria none ∧
    i.calendar.cal (ymd 2024 1 26) = .ok true ∧
    (indexMarket .aonia).2.1.cal (ymd 2024 1 26) = .ok false ∧
    i.calendar.cal (ymd 2023 10 26) = .ok false ∧
    (indexMarket .aonia).2.1.cal (ymd 2023 10 26) = .ok true :=
  ⟨_, rfl, rfl, by decide +kernel, by decide +kernel, by decide +kernel, by decide +kernel⟩

/-- C77: the Canadian index is a US dollar index with the American calendar and day count. -/
theorem C77_cdor_false (p : Period) : ∃ i, indexFromEnum (.cdor p) = some i ∧
    i.currency = .usd ∧ (indexMarket (.cdor p)).1 = .cad ∧
    i.calendar.cal (ymd 2024 7 1) = .ok true ∧
    (indexMarket (.cdor p)).2.1.cal (ymd 2024 7 1) = .ok false ∧
    i.calendar.cal (ymd 2024 7 4) = .ok false ∧
    (indexMarket (.cdor p)).2.1.cal (ymd 2024 7 4) = .ok true ∧
    i.dayCounter.yearFraction 0 365 = .ok (365 / 360) := by
  refine ⟨_, rfl, rfl, rfl, ?_, ?_, ?_, ?_, rfl⟩ <;> simp only [indexMarket] <;> decide +kernel

theorem adjust_settle (s : Shipped) {val : Int} (h1 : ymd 1901 2 1 ≤ val) (h2 : val ≤ ymd 2199 11 30) :
    ∃ r, adjust s.cal val .modifiedFollowing = .ok r ∧ s.cal r = .ok true ∧ Valid r ∧
      adjust s.cal r .modifiedFollowing = .ok r := by
  obtain ⟨r, hr, -, -⟩ := C15_adjust s .modifiedFollowing h1 h2
  have hv : Valid val := by
    have : minDay ≤ ymd 1901 2 1 := by decide
    have : ymd 2199 11 30 ≤ maxDay := by decide
    exact ⟨by omega, by omega⟩
  exact ⟨r, hr, C05_result_open _ (by decide) (by decide) hr, C05_result_valid _ (by decide) hv hr,
    C05_idempotent_partial _ (by decide) hv hr⟩

/-- C77: a cash quote on a built-in overnight index does not run overnight: it matures on the day
on which it settles, so that its accrual is zero (and its zero rate a quotient of zeros). -/
theorem C77_overnight_false {c : IndexCode} {i : BuiltinIndex} (h : indexFromEnum c = some i)
    (ho : c.overnight) (v : ℝ) {val : Int} (h1 : ymd 1901 2 1 ≤ val) (h2 : val ≤ ymd 2199 11 30) :
    ∃ s, (OisRate.mk v i.toRateIndex).settleDate val = .ok s ∧
      (OisRate.mk v i.toRateIndex).maturityDate val = .ok s ∧ i.calendar.cal s = .ok true ∧
      i.dayCounter.yearFraction s s = .ok 0 := by
  have key : ∀ (i : BuiltinIndex), i.period = .spot → i.settlementDays = 0 →
      i.convention = .modifiedFollowing → (∀ s, i.dayCounter.yearFraction s s = .ok 0) →
      ∃ s, (OisRate.mk v i.toRateIndex).settleDate val = .ok s ∧
        (OisRate.mk v i.toRateIndex).maturityDate val = .ok s ∧ i.calendar.cal s = .ok true ∧
        i.dayCounter.yearFraction s s = .ok 0 := by
    intro i e1 e2 e3 e4
    obtain ⟨r, a1, a2, a3, a4⟩ := adjust_settle i.calendar h1 h2
    have hs : (OisRate.mk v i.toRateIndex).settleDate val = .ok r := by
      unfold OisRate.settleDate
      simp only [BuiltinIndex.toRateIndex, e2, e3, advance, if_true]
      exact a1
    refine ⟨r, hs, ?_, a2, e4 r⟩
    unfold OisRate.maturityDate
    rw [hs, ok_bind]
    simp only [BuiltinIndex.toRateIndex, e1, e3, advance, addPeriod, ok_bind]
    exact a4
  have z : ∀ (n : ℚ) (s : Int), (.ok (actualYf n s s) : Outcome ℚ) = .ok 0 := by
    intro n s
    simp [actualYf, actualDays]
  cases c with
  | cdor p => exact absurd ho id
  | euribor p => exact absurd ho id
  | _ => obtain rfl := Option.some.inj h; exact key _ rfl rfl rfl fun s => z _ s

/-! ### Euribor -/

theorem advance_two (s : Shipped) {val : Int} (h1 : ymd 1901 2 1 ≤ val) (h2 : val ≤ ymd 2199 9 1)
    (bdc : Bdc) (eom : Bool) : ∃ r, advance s.cal val (.days 2) bdc eom = .ok r ∧ r ≤ val + 62 := by
  have g1 : ymd 1901 1 1 ≤ ymd 1901 2 1 := by decide
  have g2 : ymd 2199 9 1 + 90 ≤ ymd 2199 12 15 := by decide
  have g3 : minDay ≤ ymd 1901 1 1 := by decide
  have g4 : ymd 2199 12 15 ≤ maxDay := by decide
  obtain ⟨a, a1, a2, a3⟩ := C15_following s (d := val + 1) (by omega) (by omega)
  have a4 := a2.le
  obtain ⟨b, b1, b2, b3⟩ := C15_following s (d := a + 1) (by omega) (by omega)
  refine ⟨b, ?_, by omega⟩
  have ad : ∀ x, ymd 1901 1 1 ≤ x → x ≤ ymd 2199 9 1 + 60 → addPeriod x (.days 1) = .ok (x + 1) := by
    intro x h h'
    have hv : Valid (x + 1) := ⟨by omega, by omega⟩
    have ht : tryDays 1 = .ok 1 := by decide
    simp only [addPeriod, ht, ok_bind, addDays]
    rw [if_pos hv]
  simp only [advance, show ((2 : Int) = 0) = False by simp, if_false, show ((0 : Int) < 2) = True by simp,
    if_true, show (2 : Int).toNat = 2 from rfl, advanceFwd]
  rw [ad val (by omega) (by omega), ok_bind, show rollFwd s.cal (val + 1) = .ok a from a1, ok_bind,
    ad a (by omega) (by omega), ok_bind, show rollFwd s.cal (a + 1) = .ok b from b1, ok_bind]

theorem euribor_fields {p : Period} {i : BuiltinIndex} (h : indexFromEnum (.euribor p) = some i) :
    i.period = p ∧ i.settlementDays = 2 ∧ i.calendar = .target ∧ i.endOfMonth = false := by
  cases p <;> obtain rfl := Option.some.inj h <;> exact ⟨rfl, rfl, rfl, rfl⟩

/-- C77: Euribor settles two TARGET days after the valuation date. -/
theorem C77_euribor_settle {p : Period} {i : BuiltinIndex} (h : indexFromEnum (.euribor p) = some i)
    (v : ℝ) {val : Int} (h1 : ymd 1901 2 1 ≤ val) (h2 : val ≤ ymd 2199 9 1) :
    ∃ s, (OisRate.mk v i.toRateIndex).settleDate val = .ok s ∧ val < s ∧ s ≤ val + 62 ∧
      target s = .ok true ∧ openCount target (Finset.Ioc val s) = 2 := by
  obtain ⟨-, e2, e3, -⟩ := euribor_fields h
  obtain ⟨r, hr, hb⟩ := advance_two .target h1 h2 i.convention i.endOfMonth
  have hv : Valid val := by
    have : minDay ≤ ymd 1901 2 1 := by decide
    have : ymd 2199 9 1 ≤ maxDay := by decide
    exact ⟨by omega, by omega⟩
  obtain ⟨-, b2, b3, -, b5⟩ := (C09_advance_forward_iff (by norm_num) _ _ hv).1 hr
  refine ⟨r, ?_, b2, hb, b3, by exact_mod_cast b5⟩
  unfold OisRate.settleDate
  simp only [BuiltinIndex.toRateIndex, e2, e3]
  exact hr

theorem euribor_maturity {p : Period} {i : BuiltinIndex} (h : indexFromEnum (.euribor p) = some i)
    {v : ℝ} {val s : Int} (hs : (OisRate.mk v i.toRateIndex).settleDate val = .ok s) :
    (OisRate.mk v i.toRateIndex).maturityDate val = advance target s p i.convention false := by
  obtain ⟨e1, -, e3, e4⟩ := euribor_fields h
  unfold OisRate.maturityDate
  rw [hs, ok_bind]
  simp only [BuiltinIndex.toRateIndex, e1, e3, e4]
  rfl

/-- C77: a tenor in weeks ends on the first TARGET day on or after the last week. -/
theorem C77_euribor_weeks {n : Nat} {i : BuiltinIndex} (h : indexFromEnum (.euribor (.weeks n)) = some i)
    {v : ℝ} {val s : Int} (hs : (OisRate.mk v i.toRateIndex).settleDate val = .ok s)
    (h1 : ymd 1901 2 1 ≤ s) (h2 : s + 7 * n ≤ ymd 2199 11 30) :
    ∃ m, (OisRate.mk v i.toRateIndex).maturityDate val = .ok m ∧ FirstOpenFrom target (s + 7 * n) m := by
  have g1 : ymd 1901 1 1 ≤ ymd 1901 2 1 := by decide
  have g2 : ymd 2199 11 30 ≤ ymd 2199 12 15 := by decide
  have g3 : minDay ≤ ymd 1901 1 1 := by decide
  have g4 : ymd 2199 12 15 ≤ maxDay := by decide
  have g5 : ymd 2199 11 30 - ymd 1901 2 1 ≤ maxDurDays := by decide
  have g6 : maxDurDays ≤ 9223372036854775807 := by decide
  obtain ⟨m, a1, a2, a3⟩ := C15_following .target (d := s + 7 * n) (by omega) (by omega)
  refine ⟨m, ?_, a2⟩
  rw [euribor_maturity h hs]
  obtain rfl := Option.some.inj h
  have hw : addPeriod s (.weeks n) = .ok (s + 7 * n) := by
    have c1 : checkI64 ((n : Int) * 7) = .ok ((n : Int) * 7) := by
      unfold checkI64; rw [if_pos ⟨by omega, by omega⟩]
    have c2 : tryDays ((n : Int) * 7) = .ok ((n : Int) * 7) := by
      unfold tryDays; rw [if_pos ⟨by omega, by omega⟩]
    have c3 : Valid (s + (n : Int) * 7) := ⟨by omega, by omega⟩
    simp only [addPeriod, c1, c2, ok_bind, addDays]
    rw [if_pos c3, mul_comm]
  simp only [advance, hw, ok_bind]
  exact a1

theorem sameMonth_lt {s u m : Int} {k : Int} (hk : 0 < k) (hu : MonthsLater s k u)
    (hm : SameMonth m u) : s < m := by
  by_contra hle
  push Not at hle
  have e := hu.month
  have hi := monthIndex_mono hle
  rw [← hm.1, ← hm.2] at e
  unfold monthIndex at hi
  omega

/-- C77: a tenor in months ends on a TARGET day after the settlement, in the month that many months
later. -/
theorem C77_euribor_months {n : Nat} {i : BuiltinIndex} (hn : 0 < n)
    (h : indexFromEnum (.euribor (.months n)) = some i)
    {v : ℝ} {val s u : Int} (hs : (OisRate.mk v i.toRateIndex).settleDate val = .ok s)
    (hu : MonthsLater s n u) (h1 : ymd 1901 2 1 ≤ u) (h2 : u ≤ ymd 2199 11 30) :
    ∃ m, (OisRate.mk v i.toRateIndex).maturityDate val = .ok m ∧ SameMonth m u ∧
      target m = .ok true ∧ s < m := by
  have g1 : ymd 1901 1 1 ≤ ymd 1901 2 1 := by decide
  have g2 : ymd 2199 11 30 ≤ ymd 2199 12 15 := by decide
  have g3 : minDay ≤ ymd 1901 1 1 := by decide
  have g4 : ymd 2199 12 15 ≤ maxDay := by decide
  obtain ⟨m, a1, a2, a3⟩ := C15_modifiedFollowing .target (d := u) (by omega) (by omega)
  refine ⟨m, ?_, a2, a3, sameMonth_lt (by omega) hu a2⟩
  rw [euribor_maturity h hs]
  obtain rfl := Option.some.inj h
  exact (C10_advance_months_iff _).2 ⟨u, hu, ⟨by omega, by omega⟩, a1⟩

/-- C77: and a tenor in years in the month that many years later. -/
theorem C77_euribor_years {n : Nat} {i : BuiltinIndex} (hn : 0 < n) (hn' : n ≤ 300)
    (h : indexFromEnum (.euribor (.years n)) = some i)
    {v : ℝ} {val s u : Int} (hs : (OisRate.mk v i.toRateIndex).settleDate val = .ok s)
    (hu : MonthsLater s (12 * n) u) (h1 : ymd 1901 2 1 ≤ u) (h2 : u ≤ ymd 2199 11 30) :
    ∃ m, (OisRate.mk v i.toRateIndex).maturityDate val = .ok m ∧ SameMonth m u ∧
      target m = .ok true ∧ s < m := by
  have g1 : ymd 1901 1 1 ≤ ymd 1901 2 1 := by decide
  have g2 : ymd 2199 11 30 ≤ ymd 2199 12 15 := by decide
  have g3 : minDay ≤ ymd 1901 1 1 := by decide
  have g4 : ymd 2199 12 15 ≤ maxDay := by decide
  obtain ⟨m, a1, a2, a3⟩ := C15_modifiedFollowing .target (d := u) (by omega) (by omega)
  refine ⟨m, ?_, a2, a3, sameMonth_lt (by omega) hu a2⟩
  rw [euribor_maturity h hs]
  obtain rfl := Option.some.inj h
  exact (C10_advance_years_iff (by omega) _).2 ⟨u, hu, ⟨by omega, by omega⟩, a1⟩

/-- Three-month Euribor dealt on Thursday 28 March 2024, before Easter: it settles on Wednesday
3 April and ends on 3 July. -/
example : ∃ i, indexFromEnum (.euribor (.months 3)) = some i ∧
    (OisRate.mk 1 i.toRateIndex).settleDate (ymd 2024 3 28) = .ok (ymd 2024 4 3) ∧
    ∃ m, (OisRate.mk 1 i.toRateIndex).maturityDate (ymd 2024 3 28) = .ok m ∧
      SameMonth m (ymd 2024 7 3) ∧ target m = .ok true ∧ ymd 2024 4 3 < m := by
  refine ⟨_, rfl, ?_, ?_⟩
  · change advance target (ymd 2024 3 28) (.days 2) .modifiedFollowing false = _
    decide +kernel
  · refine C77_euribor_months (s := ymd 2024 4 3) (by norm_num) rfl ?_
      ⟨by decide +kernel, by decide +kernel⟩ (by decide) (by decide)
    change advance target (ymd 2024 3 28) (.days 2) .modifiedFollowing false = _
    decide +kernel

/-- One week over the same Easter, and the settlement of 2 January 2024. -/
example : ∃ i, indexFromEnum (.euribor (.weeks 1)) = some i ∧
    ∃ m, (OisRate.mk 1 i.toRateIndex).maturityDate (ymd 2024 3 20) = .ok m ∧
      FirstOpenFrom target (ymd 2024 3 29) m := by
  refine ⟨_, rfl, ?_⟩
  refine C77_euribor_weeks (n := 1) (s := ymd 2024 3 22) rfl ?_ (by decide) (by decide)
  change advance target (ymd 2024 3 20) (.days 2) .following false = _
  decide +kernel

example : ∃ i, indexFromEnum .estr = some i ∧ ∃ s,
    (OisRate.mk 1 i.toRateIndex).maturityDate (ymd 2024 1 2) = .ok s ∧
    (OisRate.mk 1 i.toRateIndex).settleDate (ymd 2024 1 2) = .ok s := by
  obtain ⟨s, a, b, -⟩ := C77_overnight_false (c := .estr) rfl trivial 1 (val := ymd 2024 1 2)
    (by decide) (by decide)
  exact ⟨_, rfl, s, b, a⟩

end Verif
