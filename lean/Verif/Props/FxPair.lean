import Verif.Lemmas.FxPair
import Verif.Spec.Fx
import Verif.Props.Shipped
import Verif.Props.Period

/-!
# C29: the calendar, spot lag and cut-off of a currency pair
-/

namespace Verif

open Outcome

variable {d r : Int}

theorem Pair.name_eq (p : Pair) : p.name = p.ccys.2.code ++ p.ccys.1.code := by
  cases p <;> decide +kernel

theorem Ccy.code_length (c : Ccy) : c.code.length = 3 := by
  cases c <;> rfl

theorem Ccy.code_inj {a b : Ccy} (h : a.code = b.code) : a = b := by
  have e : ∀ c : Ccy, Ccy.fromCode c.code = some c := by
    intro c; cases c <;> decide +kernel
  have := e a
  rw [h, e b] at this
  simpa using this.symm

theorem Pair.ccys_of_name {p : Pair} {f g : Ccy} (h : p.name = f.code ++ g.code) :
    p.ccys = (g, f) := by
  rw [p.name_eq] at h
  obtain ⟨h1, h2⟩ := List.append_inj h (by rw [Ccy.code_length, Ccy.code_length])
  exact Prod.ext (Ccy.code_inj h2) (Ccy.code_inj h1)

/-- The first three letters name the foreign currency, the last three the domestic. -/
theorem C29_currencies {p : Pair} {f g : Ccy} (h : p.name = f.code ++ g.code) :
    p.frn = .ok f ∧ p.dom = .ok g := by
  have e := Pair.ccys_of_name h
  rw [p.frn_eq, p.dom_eq, e]
  exact ⟨rfl, rfl⟩

/-- Every pair is two different currencies, and no two pairs have the same name. -/
theorem C29_names (p q : Pair) :
    (∃ f g : Ccy, f ≠ g ∧ p.name = f.code ++ g.code) ∧ (p.name = q.name → p = q) := by
  constructor
  · refine ⟨p.ccys.2, p.ccys.1, ?_, p.name_eq⟩
    cases p <;> decide
  · intro h
    have e : ∀ p : Pair, Pair.all.find? (fun x => x.name == p.name) = some p := by
      intro p; cases p <;> decide +kernel
    have := e p
    rw [h, e q] at this
    simpa using this.symm

/-- Each currency follows the holidays of its own market. -/
theorem C29_home_market (c : Ccy) :
    (String.ofList c.code, c.country) ∈ homeMarket := by
  cases c <;> decide +kernel

/-- The calendar of a pair is open exactly when both currencies' calendars are. -/
theorem C29_calendar_open_iff {p : Pair} {f g : Ccy} (h : p.name = f.code ++ g.code) :
    p.calendar d = .ok true ↔ f.country.cal d = .ok true ∧ g.country.cal d = .ok true := by
  rw [p.calendar_eq, Pair.ccys_of_name h, C08_joint_open_iff]
  simp only [List.mem_cons, List.not_mem_nil, or_false, forall_eq_or_imp, forall_eq]
  exact and_comm

/-- Within the years the calendars cover, it is closed exactly when one of the two is
closed, and never fails. -/
theorem C29_calendar_closed_iff {p : Pair} {f g : Ccy} (h : p.name = f.code ++ g.code)
    (h1 : ymd 1901 1 1 ≤ d) (h2 : d ≤ ymd 2199 12 31) :
    p.calendar d = .ok false ↔ f.country.cal d = .ok false ∨ g.country.cal d = .ok false := by
  have k1 := shipped_classified f.country h1 h2 d le_rfl le_rfl
  have k2 := shipped_classified g.country h1 h2 d le_rfl le_rfl
  rw [p.calendar_eq, Pair.ccys_of_name h, C08_joint_closed_iff]
  · simp only [List.mem_cons, List.not_mem_nil, or_false, exists_eq_or_imp, exists_eq_left]
    exact or_comm
  · simp only [List.mem_cons, List.not_mem_nil, or_false, forall_eq_or_imp, forall_eq]
    exact ⟨k2, k1⟩

theorem pair_classified (p : Pair) {a b : Int} (h1 : ymd 1901 1 1 ≤ a)
    (h2 : b ≤ ymd 2199 12 31) : ClassifiedOn p.calendar a b := by
  intro x hx1 hx2
  have k1 := shipped_classified p.ccys.1.country (a := x) (b := x) (by omega) (by omega) x le_rfl
    le_rfl
  have k2 := shipped_classified p.ccys.2.country (a := x) (b := x) (by omega) (by omega) x le_rfl
    le_rfl
  rw [p.calendar_eq]
  simp only [joint]
  rcases k1 with k1 | k1 <;> rcases k2 with k2 | k2 <;> simp [k1, k2]

/-- One day for the four next-day pairs, two for every other. -/
theorem C29_spot_lag (p : Pair) :
    p.settles = if String.ofList p.name ∈ nextDayPairs then 1 else 2 := by
  cases p <;> decide +kernel

/-- The cut-off is 22:00 unless the pair is listed with an earlier one. -/
theorem C29_cutoff (p : Pair) :
    (∀ h m, (String.ofList p.name, h, m) ∈ earlyCutoffs → p.cutoff = h * 3600 + m * 60) ∧
    ((∀ h m, (String.ofList p.name, h, m) ∉ earlyCutoffs) → p.cutoff = 22 * 3600) := by
  have key : ∀ p : Pair, p.cutoff =
      match earlyCutoffs.find? (fun x => x.1 == String.ofList p.name) with
      | some x => x.2.1 * 3600 + x.2.2 * 60
      | none => 22 * 3600 := by
    intro p; cases p <;> decide +kernel
  have huniq : ∀ x ∈ earlyCutoffs, earlyCutoffs.find? (fun y => y.1 == x.1) = some x := by
    decide +kernel
  rw [key p]
  constructor
  · intro h m hm
    rw [huniq _ hm]
  · intro hn
    have : earlyCutoffs.find? (fun x => x.1 == String.ofList p.name) = none := by
      rw [List.find?_eq_none]
      rintro ⟨s, h, m⟩ hx he
      simp only [beq_iff_eq] at he
      exact hn h m (he ▸ hx)
    rw [this]

/-- Before the cut-off the valuation date stands. -/
theorem C29_before_cutoff (p : Pair) {time : Int} (h : time < p.cutoff) :
    p.effectiveValuationDate d time = .ok d := by
  unfold Pair.effectiveValuationDate; rw [if_neg (by omega)]

/-- At or after the cut-off the result, if any, is the first later day on which both
currencies are open. -/
theorem C29_after_cutoff {p : Pair} {f g : Ccy} {time : Int} (hn : p.name = f.code ++ g.code)
    (h : p.cutoff ≤ time) (hr : p.effectiveValuationDate d time = .ok r) :
    FirstCommonOpenAfter f.country.cal g.country.cal d r := by
  unfold Pair.effectiveValuationDate at hr
  rw [if_pos h, bind_eq_ok] at hr
  obtain ⟨e, he, hr⟩ := hr
  obtain ⟨rfl, -⟩ := valid_addDays.1 he
  obtain ⟨hf, -⟩ := rollFwd_ok.1 hr
  have ho := (C29_calendar_open_iff hn).1 hf.isOpen
  refine ⟨by have := hf.le; omega, ho.1, ho.2, fun x h1 h2 hc => ?_⟩
  have := hf.closed x (by omega) h2
  rw [(C29_calendar_open_iff hn).2 hc] at this
  simp at this

/-- Every month has a day on which both currencies of the pair are open. -/
theorem C29_common_open_day (p : Pair) {f g : Ccy} (hn : p.name = f.code ++ g.code)
    (h1 : 1901 ≤ yearOf d) (h2 : yearOf d ≤ 2199) :
    ∃ o, SameMonth o d ∧ f.country.cal o = .ok true ∧ g.country.cal o = .ok true := by
  have hm := monthOf_bounds d
  obtain ⟨k, a, b, c⟩ := p.months h1 h2 (monthOf d) hm.1 hm.2
  refine ⟨_, ⟨?_, ?_⟩, (C29_calendar_open_iff hn).1 c⟩
  · rw [yearOf_ymd hm.1 hm.2 a b]
  · rw [monthOf_ymd hm.1 hm.2 a b]

theorem pair_open_after (p : Pair) (h1 : ymd 1901 1 1 ≤ d) (h2 : d ≤ ymd 2199 11 30) :
    ∃ e, d < e ∧ e ≤ d + 62 ∧ e ≤ ymd 2199 12 31 ∧ p.calendar e = .ok true := by
  have hr := year_range (d := d) (a := 1901) (b := 2199) h1
    (le_trans h2 (by decide))
  have hm := monthOf_bounds d
  have hd := dayOf_bounds d
  have hl := monthLen_pos (yearOf d) (monthOf d)
  have e0 := ymd_yearOf d
  have up : ∀ z, yearOf z ≤ 2199 → z ≤ ymd 2199 12 31 := by
    intro z hz
    have s := yearOf_spec z
    have := yearStart_mono (show yearOf z + 1 ≤ 2200 by omega)
    have : yearStart 2200 = ymd 2199 12 31 := by decide
    omega
  have hms := monthStart_succ (yearOf d) (monthOf d) hm.1 hm.2
  rcases (show monthOf d < 12 ∨ monthOf d = 12 by omega) with h12 | h12
  · obtain ⟨e, a, b, c⟩ := p.months hr.1 hr.2 (monthOf d + 1) (by omega) (by omega)
    have := monthLen_pos (yearOf d) (monthOf d + 1)
    refine ⟨_, ?_, ?_, up _ ?_, c⟩
    · unfold ymd at *; omega
    · unfold ymd at *; omega
    · rw [yearOf_ymd (by omega) (by omega) a b]; omega
  · have hy : yearOf d + 1 ≤ 2199 := by
      by_contra hc
      have e : yearOf d = 2199 := by omega
      rw [e, h12] at e0
      have : ymd 2199 12 1 ≤ d := by rw [← e0]; unfold ymd; omega
      have : ymd 2199 11 30 < ymd 2199 12 1 := by decide
      omega
    obtain ⟨e, a, b, c⟩ := p.months (y := yearOf d + 1) (by omega) hy 1 (by omega) (by omega)
    have hys := yearStart_succ (yearOf d)
    have h13 : monthStart (leap (yearOf d)) 13 = 365 + leap (yearOf d) := by
      unfold monthStart; simp
    have h1' : monthStart (leap (yearOf d + 1)) 1 = 0 := by unfold monthStart; simp
    rw [h12, show (12 : Int) + 1 = 13 from rfl] at hms
    rw [h12] at e0 hl hd
    have := monthLen_pos (yearOf d + 1) 1
    refine ⟨_, ?_, ?_, up _ ?_, c⟩
    · unfold ymd at *; omega
    · unfold ymd at *; omega
    · rw [yearOf_ymd (by omega) (by omega) a b]; omega

/-- For every pair and every valuation date from 1901 to November 2199 the search
succeeds within two months. -/
theorem C29_after_cutoff_exists (p : Pair) {time : Int} (h : p.cutoff ≤ time)
    (h1 : ymd 1901 1 1 ≤ d) (h2 : d ≤ ymd 2199 11 30) :
    ∃ r, p.effectiveValuationDate d time = .ok r ∧ d < r ∧ r ≤ d + 62 := by
  obtain ⟨e, a1, a2, a3, a4⟩ := pair_open_after p h1 h2
  obtain ⟨r, hr, hre⟩ := exists_firstOpen (d := d + 1) (by omega) a4
    (pair_classified p (by omega) a3)
  have b1 : ymd 2199 12 31 ≤ maxDay := by decide
  have b2 : minDay ≤ ymd 1901 1 1 := by decide
  have := hr.le
  refine ⟨r, ?_, by omega, by omega⟩
  unfold Pair.effectiveValuationDate
  rw [if_pos h, bind_eq_ok]
  exact ⟨d + 1, valid_addDays.2 ⟨rfl, by unfold Valid; omega⟩, rollFwd_ok.2 ⟨hr, by omega⟩⟩

/-- Settlement: with the pair's own spot lag the result is an open day for both
currencies, in the month of the unadjusted far date `s`, and it is the first such day
from `s` on unless the month has none left. -/
theorem C29_settlement {p : Pair} {f g : Ccy} {period : Period} {val s : Int}
    (hn : p.name = f.code ++ g.code) (hv1 : ymd 1901 1 1 ≤ val) (hv2 : val ≤ ymd 2199 12 29)
    (hraw : RawFar period val (if String.ofList p.name ∈ nextDayPairs then 1 else 2) s)
    (hs1 : ymd 1901 1 1 ≤ s) (hs2 : s ≤ ymd 2199 12 31)
    (hw : ∀ n, period = .days n → -maxDurDays ≤ n ∧ n ≤ maxDurDays)
    (hw' : ∀ n, period = .weeks n → -maxDurDays ≤ n * 7 ∧ n * 7 ≤ maxDurDays)
    (hyr : ∀ n, period = .years n → n * 12 ≤ 4294967295) :
    ∃ r, p.settlementDate period val = .ok r ∧ SameMonth r s ∧
      f.country.cal r = .ok true ∧ g.country.cal r = .ok true ∧
      ((s ≤ r ∧ ∀ x, s ≤ x → x < r → ¬ (f.country.cal x = .ok true ∧ g.country.cal x = .ok true)) ∨
       (∀ x, s ≤ x → SameMonth x s → ¬ (f.country.cal x = .ok true ∧ g.country.cal x = .ok true)) ∧
        ∀ x, r < x → SameMonth x s → ¬ (f.country.cal x = .ok true ∧ g.country.cal x = .ok true)) := by
  have b1 : ymd 2199 12 31 < maxDay := by decide
  have b2 : minDay ≤ ymd 1901 1 1 := by decide
  have b3 : ymd 2199 12 29 + 2 = ymd 2199 12 31 := by decide
  have hlag := C29_spot_lag p
  have hl2 : p.settles = 1 ∨ p.settles = 2 := by rw [hlag]; split <;> simp
  rw [← hlag] at hraw
  have hy := year_range (d := s) (a := 1901) (b := 2199) hs1 hs2
  obtain ⟨o, o1, o2, o3⟩ := C29_common_open_day p hn hy.1 hy.2
  have mr : ∀ x, SameMonth x s → ymd 1901 1 1 ≤ x ∧ x ≤ ymd 2199 12 31 := fun x hx =>
    day_range (by rw [hx.1]; exact hy.1) (by rw [hx.1]; exact hy.2)
  have hbeg := sameMonth_monthBegin s
  have hend := sameMonth_monthEnd s
  have hmd : maxDurDays = 106751991167 := rfl
  obtain ⟨r, h1, h2, h3, h4⟩ := C18_settlement (c := p.calendar) (lag := p.settles)
    ⟨by omega, by omega⟩ hraw ⟨by omega, by omega⟩ ⟨by omega, by omega⟩ ⟨by omega, by omega⟩
    (by omega) hw hw' hyr (by omega) o1
    ((C29_calendar_open_iff hn).2 ⟨o2, o3⟩)
    (pair_classified p (mr _ hbeg).1 (mr _ hend).2)
  have ho := (C29_calendar_open_iff hn).1 h3
  have cl : ∀ x, p.calendar x = .ok false →
      ¬ (f.country.cal x = .ok true ∧ g.country.cal x = .ok true) := by
    intro x hx hc
    rw [(C29_calendar_open_iff hn).2 hc] at hx
    simp at hx
  refine ⟨r, h1, h2, ho.1, ho.2, ?_⟩
  rcases h4 with h4 | ⟨h4, h5⟩
  · exact .inl ⟨h4.le, fun x a b => cl x (h4.closed x a b)⟩
  · exact .inr ⟨fun x a b => cl x (h4 x a b), fun x a b hc => by
      have := h5.greatest x b ((C29_calendar_open_iff hn).2 hc)
      omega⟩

/-- The near leg of a swap tenor is the first day from its unadjusted date on which both currencies
are open; it exists and is less than ten weeks later. -/
theorem C29_near_date {p : Pair} {f g : Ccy} {period : Period} {val e : Int}
    (hn : p.name = f.code ++ g.code) (hv1 : ymd 1901 1 2 ≤ val) (hv2 : val ≤ ymd 2199 11 28)
    (he : RawNearDate period val (if String.ofList p.name ∈ nextDayPairs then 1 else 2) e) :
    ∃ r, p.nearDate period val = .ok (some r) ∧ FirstCommonOpenAfter f.country.cal g.country.cal (e - 1) r
      ∧ r ≤ e + 61 := by
  have b1 : ymd 2199 12 31 < maxDay := by decide
  have b2 : minDay ≤ ymd 1901 1 1 := by decide
  have b3 : ymd 2199 11 28 + 2 = ymd 2199 11 30 := by decide
  have b4 : ymd 1901 1 1 + 1 = ymd 1901 1 2 := by decide
  have b5 : ymd 2199 11 30 < ymd 2199 12 31 := by decide
  have hlag := C29_spot_lag p
  have hl2 : p.settles = 1 ∨ p.settles = 2 := by rw [hlag]; split <;> simp
  rw [← hlag] at he
  have hmd : maxDurDays = 106751991167 := rfl
  have hr : ∃ r, rollFwd p.calendar e = .ok r ∧ FirstOpenFrom p.calendar e r ∧ r ≤ e + 61 := by
    have h1 : val ≤ e ∧ e ≤ val + 2 := by rcases he with he | he | he <;> omega
    obtain ⟨o, a1, a2, a3, a4⟩ := pair_open_after p (d := e - 1) (by omega) (by omega)
    obtain ⟨r, hr, hre⟩ := exists_firstOpen (d := e) (by omega) a4
      (pair_classified p (by omega) a3)
    exact ⟨r, rollFwd_ok.2 ⟨hr, by omega⟩, hr, by omega⟩
  obtain ⟨r, hr1, hr2, hr3⟩ := hr
  refine ⟨r, ?_, ⟨by have := hr2.le; omega, ((C29_calendar_open_iff hn).1 hr2.isOpen).1,
    ((C29_calendar_open_iff hn).1 hr2.isOpen).2, fun x h1 h2 hc => ?_⟩, hr3⟩
  · have hoff : tryDays p.settles = .ok p.settles := by
      unfold tryDays; rw [if_pos (by omega)]
    unfold Pair.nearDate nearDateWithLag
    rcases he with ⟨rfl, he⟩ | ⟨rfl, he⟩ | ⟨rfl, he⟩
    · subst he; simp [hoff, hr1]
    · have : addDays val 1 = .ok e := valid_addDays.2 ⟨he, ⟨by omega, by omega⟩⟩
      simp [hoff, this, hr1]
    · have : addDays val p.settles = .ok e := valid_addDays.2 ⟨he, ⟨by omega, by omega⟩⟩
      simp [hoff, this, hr1]
  · have := hr2.closed x (by omega) h2
    rw [(C29_calendar_open_iff hn).2 hc] at this
    simp at this

/-- Every other tenor has no near date. -/
theorem C29_no_near_date (p : Pair) {period : Period} {val : Int} (h1 : period ≠ .on)
    (h2 : period ≠ .tn) (h3 : period ≠ .sn) : p.nearDate period val = .ok none := by
  have hl2 : p.settles = 1 ∨ p.settles = 2 := by rw [C29_spot_lag p]; split <;> simp
  have hmd : maxDurDays = 106751991167 := rfl
  have hoff : tryDays p.settles = .ok p.settles := by
    unfold tryDays; rw [if_pos (by omega)]
  unfold Pair.nearDate nearDateWithLag
  cases period <;> simp_all

/-- Day counters of the pairs. -/
theorem C29_day_count (p : Pair) :
    p.dayCountDenominator = if String.ofList p.name ∈ days360Pairs then 360 else 365 := by
  cases p <;> decide +kernel

/-- Refuted: a pair of two currencies whose money markets count Actual/360 does so, too.  EURCHF and
USDCHF count Actual/365. -/
theorem C29_day_count_false : ¬ ∀ (p : Pair) (f g : Ccy), p.name = f.code ++ g.code →
    f ∈ moneyMarket360 → g ∈ moneyMarket360 → p.dayCountDenominator = 360 := by
  intro h
  have := h .eurchf .eur .chf (by decide) (by decide) (by decide)
  exact absurd this (by decide)

/-- USDCAD spot-next and EURUSD overnight on Friday 30 June 2023. -/
example : Pair.usdcad.nearDate .sn (ymd 2023 6 30) = .ok (some (ymd 2023 7 5))
    ∧ Pair.eurusd.nearDate .on (ymd 2023 7 4) = .ok (some (ymd 2023 7 5))
    ∧ Pair.eurusd.nearDate (.weeks 1) (ymd 2023 7 4) = .ok none := by decide +kernel

example : ∃ r, Pair.usdcad.nearDate .sn (ymd 2023 6 30) = .ok (some r)
    ∧ FirstCommonOpenAfter Ccy.usd.country.cal Ccy.cad.country.cal (ymd 2023 6 30) r := by
  obtain ⟨r, h1, h2, -⟩ := C29_near_date (p := .usdcad) (f := .usd) (g := .cad) (period := .sn)
    (val := ymd 2023 6 30) (e := ymd 2023 6 30 + 1) (by decide) (by decide) (by decide)
    (Or.inr (Or.inr ⟨rfl, by decide +kernel⟩))
  exact ⟨r, h1, by simpa using h2⟩

/-- EURUSD: closed on 4 July 2023 (United States) and 1 May 2023 (euro area). -/
example : Pair.eurusd.calendar (ymd 2023 7 4) = .ok false ∧
    Pair.eurusd.calendar (ymd 2023 5 1) = .ok false ∧
    Pair.eurusd.calendar (ymd 2023 5 2) = .ok true := by decide +kernel

/-- USDCAD on Friday 30 June 2023 at 17:00: 3 July is closed in Canada, 4 July in the
United States. -/
example : Pair.usdcad.effectiveValuationDate (ymd 2023 6 30) (17 * 3600) = .ok (ymd 2023 7 5) ∧
    Pair.usdcad.effectiveValuationDate (ymd 2023 6 30) (17 * 3600 - 1) = .ok (ymd 2023 6 30) := by
  decide +kernel

example : Pair.usdcad.name = Ccy.usd.code ++ Ccy.cad.code := by decide

example : Pair.usdcad.settlementDate .spot (ymd 2023 10 16) = .ok (ymd 2023 10 17) ∧
    Pair.eurusd.settlementDate .spot (ymd 2023 10 16) = .ok (ymd 2023 10 18) := by decide +kernel

end Verif
