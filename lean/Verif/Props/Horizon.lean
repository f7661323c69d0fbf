import Verif.Spec.Horizon
import Verif.Props.Feasts
import Verif.Model.Cal.India
import Verif.Model.Cal.Thailand
import Verif.Model.Cal.Russia

/-! # C80: where the tables end -/

namespace Verif
open Outcome

set_option linter.unusedSimpArgs false

theorem ne_later {y lo : Int} (h : lo ≤ y) (k : Int) (hk : k < lo) : (y == k) = false :=
  beq_eq_false_iff_ne.2 (by omega)

theorem le_later {y lo : Int} (h : lo ≤ y) (k : Int) (hk : k < lo) : (y ≤ k) = False :=
  eq_false (by omega)

theorem ge_later {y lo : Int} (h : lo ≤ y) (k : Int) (hk : k ≤ lo) : (k ≤ y) = True :=
  eq_true (by omega)

theorem gt_later {y lo : Int} (h : lo ≤ y) (k : Int) (hk : k < lo) : (k < y) = True :=
  eq_true (by omega)

/-- As `closedOn_plain`, with weekends closed in the years in question only. -/
theorem closedOn_later {r : DateInfo → Bool} {lo hi : Int} {hol : Int → List Int}
    (hw : ∀ t : DateInfo, lo ≤ t.y → t.w.isWeekend = true → r t = false)
    (h : ∀ z, ¬ SatSun z → lo ≤ yearOf z → yearOf z ≤ hi → 1 ≤ dayOf z → dayOf z ≤ 31 →
      (r (info z) = false ↔ z ∈ hol (yearOf z))) :
    ClosedOn (plainCal r) lo hi hol := by
  intro d h1 h2
  refine ⟨_, rfl, ?_⟩
  by_cases hd : SatSun d
  · simp [hd, hw (info d) h1 (weekend_iff.2 hd)]
  · have := dayOf_bounds d
    have := monthLen_pos (yearOf d) (monthOf d)
    have := h d hd h1 h2 (by omega) (by omega)
    simp only [hd, not_false_eq_true, true_and, ← this, Bool.not_eq_false]

theorem mem_janFirst {z : Int} (h : 1 ≤ dayOf z) : z ∈ janFirst (yearOf z) ↔ dayOf z ≤ 5 ∧ monthOf z = 1 := by
  simp only [janFirst, List.mem_cons, List.not_mem_nil, or_false, eq_ymd (z := z) (m := 1) (k := 1) (by decide),
    eq_ymd (z := z) (m := 1) (k := 2) (by decide), eq_ymd (z := z) (m := 1) (k := 3) (by decide),
    eq_ymd (z := z) (m := 1) (k := 4) (by decide), eq_ymd (z := z) (m := 1) (k := 5) (by decide)]
  omega

theorem mem_thaiNewYear {z : Int} : z ∈ thaiNewYear (yearOf z) ↔
    (dayOf z = 1 ∨ (dayOf z = 3 ∧ weekdayOf z = .mon)) ∧ monthOf z = 1 := by
  simp only [thaiNewYear, List.mem_append, List.mem_cons, List.not_mem_nil, or_false, mem_ifOn,
    eq_ymd (z := z) (m := 1) (k := 1) (by decide), eq_ymd (z := z) (m := 1) (k := 3) (by decide)]
  tauto

theorem mem_songkran {z : Int} : z ∈ songkran (yearOf z) ↔
    (dayOf z = 13 ∨ dayOf z = 14 ∨ dayOf z = 15) ∧ monthOf z = 4 := by
  simp only [songkran, List.mem_cons, List.not_mem_nil, or_false,
    eq_ymd (z := z) (m := 4) (k := 13) (by decide), eq_ymd (z := z) (m := 4) (k := 14) (by decide),
    eq_ymd (z := z) (m := 4) (k := 15) (by decide)]
  tauto

theorem mem_songkranLate {z : Int} : z ∈ songkranLate (yearOf z) ↔
    dayOf z = 16 ∧ (weekdayOf z = .mon ∨ weekdayOf z = .tue) ∧ monthOf z = 4 := by
  simp only [songkranLate, List.mem_append, mem_ifOn, eq_ymd (z := z) (m := 4) (k := 16) (by decide)]
  tauto

/-- The Hong Kong table ends in 2025. -/
theorem hongKong_table {y d m : Int} (h : 2026 ≤ y) : HongKong.specialHolidays.contains (y, d, m) = false := by
  rw [← Bool.not_eq_true, List.contains_iff_mem]
  intro hm
  have := (by decide +kernel : ∀ e ∈ HongKong.specialHolidays, e.1 ≤ 2025) _ hm
  simp only at this
  omega

/-- From 2027 on Mainland China knows the first of January only: Labour Day, National Day and the spring
festival are open. -/
theorem C80_china : ClosedOn china 2027 262142 chinaFixed := by
  apply closedOn_later
  · intro t h1 h; unfold China.rule; simp only [h, Bool.true_or, cond_true]
  intro z hz h1 h2 hd1 hd2
  have hw := not_weekend_iff.2 hz
  unfold China.rule
  simp only [info, hw, ne_later h1, le_later h1, ge_later h1, gt_later h1, decide_true, decide_false, Bool.false_and, Bool.and_false, Bool.true_and, Bool.and_true, Bool.or_false, Bool.false_or, Bool.not_false, cond_false, Int.reduceLT, Int.reduceLE, gt_iff_lt, ge_iff_le]
  holidays chinaFixed

example : china (ymd 2027 1 1) = .ok false ∧ china (ymd 2027 10 1) = .ok true := by decide +kernel

/-- From 2027 on Taiwan has no lunar holidays. -/
theorem C80_taiwan : ClosedOn taiwan 2027 262142 taiwanFixed := by
  apply closedOn_later
  · intro t h1 h; unfold Taiwan.rule; simp only [h, Bool.true_or, cond_true]
  intro z hz h1 h2 hd1 hd2
  have hw := not_weekend_iff.2 hz
  unfold Taiwan.rule
  simp only [info, hw, ne_later h1, le_later h1, ge_later h1, gt_later h1, decide_true, decide_false, Bool.false_and, Bool.and_false, Bool.true_and, Bool.and_true, Bool.or_false, Bool.false_or, Bool.not_false, cond_false, Int.reduceLT, Int.reduceLE, gt_iff_lt, ge_iff_le]
  holidays taiwanFixed

example : taiwan (ymd 2029 2 28) = .ok false ∧ taiwan (lunarNewYear 2029) = .ok true := by decide +kernel

/-- From 2035 on Turkey has no Islamic feasts. -/
theorem C80_turkey : ClosedOn turkey 2035 262142 turkeyFixed := by
  apply closedOn_later
  · intro t h1 h; unfold Turkey.rule; simp only [h, Bool.true_or, cond_true]
  intro z hz h1 h2 hd1 hd2
  have hw := not_weekend_iff.2 hz
  unfold Turkey.rule
  simp only [info, hw, ne_later h1, le_later h1, ge_later h1, gt_later h1, decide_true, decide_false, Bool.false_and, Bool.and_false, Bool.true_and, Bool.and_true, Bool.or_false, Bool.false_or, Bool.not_false, cond_false, Int.reduceLT, Int.reduceLE, gt_iff_lt, ge_iff_le]
  holidays turkeyFixed

example : turkey (ymd 2035 1 1) = .ok false ∧ turkey (ramadanFeast 1458) = .ok true := by decide +kernel

/-- From 2051 on South Korea has no lunar holidays. -/
theorem C80_korea : ClosedOn southKorea 2051 262142 koreaFixed := by
  apply closedOn_later
  · intro t h1 h; unfold SouthKorea.rule; simp only [h, Bool.true_or, cond_true]
  intro z hz h1 h2 hd1 hd2
  have hw := not_weekend_iff.2 hz
  unfold SouthKorea.rule
  simp only [info, hw, ne_later h1, le_later h1, ge_later h1, gt_later h1, decide_true, decide_false, Bool.false_and, Bool.and_false, Bool.true_and, Bool.and_true, Bool.or_false, Bool.false_or, Bool.not_false, cond_false, Int.reduceLT, Int.reduceLE, gt_iff_lt, ge_iff_le]
  holidays koreaFixed

example : southKorea (ymd 2051 3 1) = .ok false ∧ southKorea (ymd 2051 2 10) = .ok true := by decide +kernel

/-- From 2021 on the Moscow exchange is open on the first days of January. -/
theorem C80_moscow : ClosedOn (russia (some .exchange)) 2021 262142 moscowFixed := by
  apply closedOn_later
  · intro t h1 h; simp [Russia.exchangeIsBusinessDay, Russia.isWorkingWeekend, ne_later h1, h]
  intro z hz h1 h2 hd1 hd2
  have hw := not_weekend_iff.2 hz
  unfold Russia.exchangeIsBusinessDay
  simp only [Russia.isExtraHolidayExchange, Russia.isWorkingWeekend, info, hw, ne_later h1, le_later h1, ge_later h1, gt_later h1, decide_true, decide_false, Bool.false_and, Bool.and_false, Bool.true_and, Bool.and_true, Bool.or_false, Bool.false_or, Bool.not_false, cond_false, Int.reduceLT, Int.reduceLE, gt_iff_lt, ge_iff_le]
  holidays moscowFixed

example : russia (some .exchange) (ymd 2021 2 23) = .ok false ∧ russia (some .exchange) (ymd 2021 1 7) = .ok true := by decide +kernel

/-- From 2021 on Russian settlement has fixed holidays only. -/
theorem C80_russia : ClosedOn (russia (some .settlement)) 2021 262142 russiaFixed := by
  apply closedOn_later
  · intro t h1 h; unfold Russia.settlementIsBusinessDay; simp only [h, Bool.true_or, cond_true]
  intro z hz h1 h2 hd1 hd2
  have hw := not_weekend_iff.2 hz
  unfold Russia.settlementIsBusinessDay
  simp only [Russia.isExtraHolidaySettlement, info, hw, ne_later h1, le_later h1, ge_later h1, gt_later h1, decide_true, decide_false, Bool.false_and, Bool.and_false, Bool.true_and, Bool.and_true, Bool.or_false, Bool.false_or, Bool.not_false, cond_false, Int.reduceLT, Int.reduceLE, gt_iff_lt, ge_iff_le]
  holidays russiaFixed, mem_janFirst hd1

example : russia (some .settlement) (ymd 2021 1 7) = .ok false ∧ russia (some .settlement) (ymd 2021 5 4) = .ok true := by decide +kernel

/-- From 2026 on Hong Kong has no lunar holidays. -/
theorem C80_hongKong : ClosedOn hongKong 2026 2199 hongKongFixed := by
  apply closedOn_easter (by decide) (by decide)
  · intro t em h; simp [HongKong.rule, h]
  intro z em hz h1 h2 hd1 hd2 he
  have hw := not_weekend_iff.2 hz
  unfold HongKong.rule
  simp only [HongKong.isFixedOrObservedHoliday, hongKong_table h1, info, hw, ne_later h1, le_later h1, ge_later h1, gt_later h1, decide_true, decide_false, Bool.false_and, Bool.and_false, Bool.true_and, Bool.and_true, Bool.or_false, Bool.false_or, Bool.not_false, cond_false, Int.reduceLT, Int.reduceLE, gt_iff_lt, ge_iff_le]
  holidays hongKongFixed, eq_easter_add he, eq_easter_sub he

example : hongKong (ymd 2026 7 1) = .ok false ∧ hongKong (lunarNewYear 2026) = .ok true := by decide +kernel

/-- From 2027 on Singapore has no lunar, Islamic or Hindu holidays. -/
theorem C80_singapore : ClosedOn singapore 2027 2199 singaporeFixed := by
  apply closedOn_easter (by decide) (by decide)
  · intro t em h; simp [Singapore.rule, h]
  intro z em hz h1 h2 hd1 hd2 he
  have hw := not_weekend_iff.2 hz
  unfold Singapore.rule
  simp only [info, hw, ne_later h1, le_later h1, ge_later h1, gt_later h1, decide_true, decide_false, Bool.false_and, Bool.and_false, Bool.true_and, Bool.and_true, Bool.or_false, Bool.false_or, Bool.not_false, cond_false, Int.reduceLT, Int.reduceLE, gt_iff_lt, ge_iff_le]
  holidays singaporeFixed, eq_easter_add he, eq_easter_sub he

example : singapore (ymd 2027 8 9) = .ok false ∧ singapore (lunarNewYear 2029) = .ok true := by decide +kernel

/-- From 2015 on Indonesia has no lunar or Islamic holidays. -/
theorem C80_indonesia : ClosedOn indonesia 2015 2199 indonesiaFixed := by
  apply closedOn_easter (by decide) (by decide)
  · intro t em h; simp [Indonesia.rule, h]
  intro z em hz h1 h2 hd1 hd2 he
  have hw := not_weekend_iff.2 hz
  unfold Indonesia.rule
  simp only [info, hw, ne_later h1, le_later h1, ge_later h1, gt_later h1, decide_true, decide_false, Bool.false_and, Bool.and_false, Bool.true_and, Bool.and_true, Bool.or_false, Bool.false_or, Bool.not_false, cond_false, Int.reduceLT, Int.reduceLE, gt_iff_lt, ge_iff_le]
  holidays indonesiaFixed, eq_easter_add he, eq_easter_sub he

example : indonesia (ymd 2015 8 17) = .ok false ∧ indonesia (ramadanFeast 1437) = .ok true := by decide +kernel

/-- From 2026 on India has no lunar holidays. -/
theorem C80_india : ClosedOn india 2026 2199 indiaFixed := by
  apply closedOn_easter (by decide) (by decide)
  · intro t em h; simp [India.rule, h]
  intro z em hz h1 h2 hd1 hd2 he
  have hw := not_weekend_iff.2 hz
  unfold India.rule
  simp only [info, hw, ne_later h1, le_later h1, ge_later h1, gt_later h1, decide_true, decide_false, Bool.false_and, Bool.and_false, Bool.true_and, Bool.and_true, Bool.or_false, Bool.false_or, Bool.not_false, cond_false, Int.reduceLT, Int.reduceLE, gt_iff_lt, ge_iff_le]
  holidays indiaFixed, eq_easter_add he, eq_easter_sub he

example : india (ymd 2026 1 26) = .ok false ∧ india (ramadanFeast 1447) = .ok true := by decide +kernel

/-- From 2026 on Thailand has no Buddhist holidays. -/
theorem C80_thailand : ClosedOn thailand 2026 2199 thailandFixed := by
  apply closedOn_easter (by decide) (by decide)
  · intro t em h; simp [Thailand.rule, h]
  intro z em hz h1 h2 hd1 hd2 he
  have hw := not_weekend_iff.2 hz
  unfold Thailand.rule
  simp only [info, hw, ne_later h1, le_later h1, ge_later h1, gt_later h1, decide_true, decide_false, Bool.false_and, Bool.and_false, Bool.true_and, Bool.and_true, Bool.or_false, Bool.false_or, Bool.not_false, cond_false, Int.reduceLT, Int.reduceLE, gt_iff_lt, ge_iff_le]
  holidays thailandFixed, mem_thaiNewYear, mem_songkran, mem_songkranLate, eq_easter_add he, eq_easter_sub he

example : thailand (ymd 2026 8 12) = .ok false ∧ thailand (ymd 2026 6 1) = .ok true := by decide +kernel

/-- In the years 2015 to 2018, for which there is no table, India has its fixed holidays only. -/
theorem C80_india_gap : ClosedOn india 2015 2018 indiaFixed := by
  apply closedOn_easter (by decide) (by decide)
  · intro t em h; simp [India.rule, h]
  intro z em hz h1 h2 hd1 hd2 he
  have hw := not_weekend_iff.2 hz
  have hn : ∀ k : Int, (k < 2015 ∨ 2018 < k) → (yearOf z == k) = false :=
    fun k hk => beq_eq_false_iff_ne.2 (by omega)
  unfold India.rule
  simp only [info, hw, hn, Int.reduceLT, or_true, true_or, Bool.false_and, Bool.or_false, Bool.false_or, cond_false]
  holidays indiaFixed, eq_easter_add he, eq_easter_sub he

/-- The Hindu festival of Diwali, 11 November 2015. -/
example : india (ymd 2015 1 26) = .ok false ∧ india (ymd 2015 11 11) = .ok true := by decide +kernel

/-- From 2051 on Tel Aviv has no holidays at all. -/
theorem C80_telAviv : ClosedOn (israel (some .telAviv)) 2051 262141 (fun _ => []) := by
  intro d h1 h2
  have hs := yearOf_spec d
  have h3 := yearStart_mono h1
  have h4 := yearStart_mono (show yearOf d + 1 ≤ 262142 by omega)
  have e1 : yearStart 2051 = 748747 := by decide
  have e2 : yearStart 262142 = 95745034 := by decide
  have e3 : minDay = -95746129 := by decide
  have e4 : maxDay = 95745399 := by decide
  change ∃ b, telAviv d = .ok b ∧ _
  unfold telAviv
  by_cases hw : isWeekend d = true
  · refine ⟨false, by rw [if_pos hw], ?_⟩
    have : SatSun d := weekend_iff.1 (by rw [isWeekend_eq]; exact hw)
    simp [this]
  · rw [if_neg hw, if_neg (by omega)]
    refine ⟨_, rfl, ?_⟩
    have hd : ¬ SatSun d := fun h => hw (by rw [← isWeekend_eq]; exact weekend_iff.2 h)
    have : Israel.telAvivHoliday d = false := by
      rw [← Bool.not_eq_true, telAvivHoliday_iff]
      rintro ⟨⟨-, h⟩, -⟩
      omega
    simp [hd, this]

/-- Rosh Hashanah 2051 (7 September) is open. -/
example : roshHashanah 2051 = ymd 2051 9 7 ∧ israel (some .telAviv) (ymd 2051 9 7) = .ok true := by
  decide +kernel

/-- From 2051 on the SHIR calendar has no Hebrew holidays. -/
theorem C80_shir : ClosedOn (israel (some .shir)) 2051 2199 shirFixed := by
  intro d h1 h2
  obtain ⟨e1, -, -⟩ := C13_western (y := yearOf d) (by omega) (by omega)
  change ∃ b, shir d = .ok b ∧ _
  unfold shir
  rw [e1, ok_bind]
  by_cases hw : isWeekend d = true
  · refine ⟨false, by rw [if_pos hw], ?_⟩
    have : SatSun d := weekend_iff.1 (by rw [isWeekend_eq]; exact hw)
    simp [this]
  · rw [if_neg hw]
    refine ⟨_, rfl, ?_⟩
    have hd : ¬ SatSun d := fun h => hw (by rw [← isWeekend_eq]; exact weekend_iff.2 h)
    have h5 := dayOf_bounds d
    have h6 := monthLen_pos (yearOf d) (monthOf d)
    have := shirHoliday_iff d _ (by omega) (by omega) (easter_shift e1 (by omega) (by omega))
    have hT : ¬ Tabled d := fun h => by unfold Tabled at h; omega
    have e : shirForeign (yearOf d) = shirFixed (yearOf d) := by
      simp [shirForeign, shirFixed, provided, show yearOf d ≠ 2022 by omega, show yearOf d ≠ 2023 by omega,
        show yearOf d ≠ 2024 by omega]
    simp only [hT, false_and, false_or, e] at this
    rw [← this, Bool.not_eq_true']
    simp [hd]

example : israel (some .shir) (ymd 2051 12 25) = .ok false ∧ israel (some .shir) (ymd 2051 9 7) = .ok true := by
  decide +kernel

end Verif
