import Verif.Lemmas.Shipped
import Verif.Props.Adjust
import Verif.Model.FxPair

/-!
# Common open days of two currencies

Every calendar month of 1901-2199 has a day on which both calendars of a pair are
open: a Wednesday outside the fixed holidays of both, or, in the years for which a
calendar carries an explicit holiday list, a day found by evaluating the calendars.
-/

namespace Verif

/-- `c` is open on every Wednesday of year `y` whose (month, day) is not in `E`. -/
def WedOpen (c : Cal) (E : List (Int × Int)) (y : Int) : Prop :=
  ∀ m d, 1 ≤ m → m ≤ 12 → 1 ≤ d → d ≤ monthLen y m → (ymd y m d - 1) % 7 = 2 → (m, d) ∉ E →
    c (ymd y m d) = .ok true

/-- Every month of year `y` has an open day. -/
def MonthsOpen (c : Cal) (y : Int) : Prop :=
  ∀ m, 1 ≤ m → m ≤ 12 → ∃ d, 1 ≤ d ∧ d ≤ monthLen y m ∧ c (ymd y m d) = .ok true

theorem MonthsOpen.mono {c c' : Cal} {y : Int} (h : MonthsOpen c y)
    (hc : ∀ n, yearOf n = y → c n = .ok true → c' n = .ok true) : MonthsOpen c' y := by
  intro m h1 h2
  obtain ⟨a, a1, a2, a3⟩ := h m h1 h2
  exact ⟨a, a1, a2, hc _ (yearOf_ymd h1 h2 a1 a2) a3⟩

theorem wed_plain {r : DateInfo → Bool} {y : Int} {E : List (Int × Int)}
    (h : ∀ t : DateInfo, t.y = y → 1 ≤ t.d → t.w = .wed → (t.m, t.d) ∉ E → r t = true) :
    WedOpen (plainCal r) E y := by
  intro m d hm1 hm2 hd1 hd2 hw hE
  unfold plainCal
  rw [info_ymd hm1 hm2 hd1 hd2]
  rw [h _ rfl hd1 (weekdayOf_eq_of_mod (by simpa [Weekday.num] using hw)) hE]

theorem wed_table {lookup : Int → Outcome Int} {r : DateInfo → Int → Bool} {y : Int}
    {E : List (Int × Int)} (hl : ∃ em, lookup y = .ok em ∧ (yearStart y + em - 1) % 7 = 0)
    (h : ∀ (t : DateInfo) (em : Int), t.y = y → 1 ≤ t.d → t.w = .wed → (t.dd - em) % 7 = 2 →
      (t.m, t.d) ∉ E → r t em = true) :
    WedOpen (fun date => do let em ← lookup (yearOf date); .ok (r (info date) em)) E y := by
  obtain ⟨em, h1, h2⟩ := hl
  intro m d hm1 hm2 hd1 hd2 hw hE
  simp only
  rw [yearOf_ymd hm1 hm2 hd1 hd2, h1, Outcome.ok_bind, info_ymd hm1 hm2 hd1 hd2]
  rw [h _ em rfl hd1 (weekdayOf_eq_of_mod (by simpa [Weekday.num] using hw)) ?_ hE]
  unfold ymd at hw
  simp only; omega

theorem wed_easter {r : DateInfo → Int → Bool} {y : Int} {E : List (Int × Int)}
    (h1 : 1901 ≤ y) (h2 : y ≤ 2199)
    (h : ∀ (t : DateInfo) (em : Int), t.y = y → 1 ≤ t.d → t.w = .wed → (t.dd - em) % 7 = 2 →
      (t.m, t.d) ∉ E → r t em = true) : WedOpen (easterCal r) E y :=
  wed_table (easter_monday_mod h1 h2) h

theorem wed_orthodox {r : DateInfo → Int → Bool} {y : Int} {E : List (Int × Int)}
    (h1 : 1901 ≤ y) (h2 : y ≤ 2199)
    (h : ∀ (t : DateInfo) (em : Int), t.y = y → 1 ≤ t.d → t.w = .wed → (t.dd - em) % 7 = 2 →
      (t.m, t.d) ∉ E → r t em = true) : WedOpen (orthodoxCal r) E y :=
  wed_table (orthodox_monday_mod h1 h2) h

/-- Every month leaves a Wednesday outside `E`, whatever the weekdays are. -/
def monthCovered (E : List (Int × Int)) : Bool :=
  (List.range 12).all fun m => (List.range 7).all fun r => pick 0 E (m + 1) 1 28 r

theorem WedOpen.joint {a b : Cal} {E1 E2 : List (Int × Int)} {y : Int} (ha : WedOpen a E1 y)
    (hb : WedOpen b E2 y) (hcov : monthCovered (E1 ++ E2) = true) :
    MonthsOpen (joint [a, b]) y := by
  intro m hm1 hm2
  simp only [monthCovered, List.all_eq_true, List.mem_range] at hcov
  have hml := monthLen_pos y m
  obtain ⟨r, hr7, hr⟩ : ∃ r : Nat, r < 7 ∧ ((3 : Int) - ymd y m 0) % 7 = r :=
    ⟨(((3 : Int) - ymd y m 0) % 7).toNat, by omega, by omega⟩
  have key := hcov (m - 1).toNat (by omega) r hr7
  have em : (((m - 1).toNat : Nat) : Int) + 1 = m := by omega
  rw [em] at key
  have hy : ∀ d, ymd y m d = ymd y m 0 + d := fun d => by unfold ymd; omega
  obtain ⟨d, h1, h2, ⟨j, hj, e⟩, f⟩ := pick_spec key
  rw [List.mem_append, not_or] at f
  have hw : (ymd y m d - 1) % 7 = 2 := by rw [hy]; omega
  refine ⟨d, h1, by omega, ?_⟩
  have q1 := ha m d hm1 hm2 h1 (by omega) hw f.1
  have q2 := hb m d hm1 hm2 h1 (by omega) hw f.2
  simp [Verif.joint, q1, q2]

/-- Month check of the years `y0, …, y0 + n - 1`. -/
def checkMonths (c : Cal) (y0 : Int) : Nat → Bool
  | 0 => true
  | n + 1 => ((List.range 12).all fun m => openIn c (ymd (y0 + n) (m + 1) 1) 28) &&
      checkMonths c y0 n

theorem months_of_check {c : Cal} {y0 : Int} {n : Nat} (h : checkMonths c y0 n = true) {y : Int}
    (h1 : y0 ≤ y) (h2 : y < y0 + n) : MonthsOpen c y := by
  induction n with
  | zero => omega
  | succ n ih =>
    rw [checkMonths, Bool.and_eq_true] at h
    rcases (show y = y0 + n ∨ y < y0 + n by omega) with rfl | h3
    · intro m hm1 hm2
      have key := h.1
      simp only [List.all_eq_true, List.mem_range] at key
      have hml := monthLen_pos (y0 + n) m
      have k1 := key (m - 1).toNat (by omega)
      have em : (((m - 1).toNat : Nat) : Int) + 1 = m := by omega
      rw [em] at k1
      obtain ⟨i, hi, e1⟩ := openIn_spec k1
      refine ⟨1 + i, by omega, by omega, ?_⟩
      rw [← e1]; congr 1; unfold ymd; omega
    · exact ih h.2 h3

theorem Target.wed {y : Int} (h1 : 1901 ≤ y) (h2 : y ≤ 2199) : WedOpen Shipped.target.cal Target.ruleExcl y :=
  wed_easter h1 h2 fun t em _ _ hw hm hE => Target.rule_open t em ⟨hw, hm⟩ hE

theorem UnitedKingdom.wed {y : Int} (h1 : 1901 ≤ y) (h2 : y ≤ 2199) : WedOpen (Shipped.unitedKingdom none).cal UnitedKingdom.settlementIsBusinessDayExcl y :=
  wed_easter h1 h2 fun t em _ _ hw hm hE => UnitedKingdom.settlementIsBusinessDay_open t em ⟨hw, hm⟩ hE

theorem UnitedStates.wed {y : Int} : WedOpen (Shipped.unitedStates none).cal UnitedStates.settlementIsBusinessDayExcl y :=
  wed_plain fun t _ hd hw hE => UnitedStates.settlementIsBusinessDay_open t hd (.inl hw) hE

theorem Japan.wed {y : Int} : WedOpen Shipped.japan.cal Japan.ruleExcl y :=
  wed_plain fun t _ _ hw hE => Japan.rule_open t (.inl hw) hE

theorem Canada.wed {y : Int} (h1 : 1901 ≤ y) (h2 : y ≤ 2199) : WedOpen (Shipped.canada none).cal Canada.settlementIsBusinessDayExcl y :=
  wed_easter h1 h2 fun t em _ _ hw hm hE => Canada.settlementIsBusinessDay_open t em ⟨hw, hm⟩ hE

theorem Australia.wed {y : Int} (h1 : 1901 ≤ y) (h2 : y ≤ 2199) : WedOpen (Shipped.australia none).cal Australia.settlementIsBusinessDayExcl y :=
  wed_easter h1 h2 fun t em _ _ hw hm hE => Australia.settlementIsBusinessDay_open t em (.inl ⟨hw, hm⟩) hE

theorem NewZealand.wed {y : Int} (h1 : 1901 ≤ y) (h2 : y ≤ 2199) (hy : y < 2022 ∨ 2052 < y) : WedOpen (Shipped.newZealand none).cal NewZealand.wellingtonIsBusinessDayExcl y :=
  wed_easter h1 h2 fun t em ey _ hw hm hE => NewZealand.wellingtonIsBusinessDay_open t em (by omega) ⟨hw, hm⟩ hE

theorem Switzerland.wed {y : Int} (h1 : 1901 ≤ y) (h2 : y ≤ 2199) : WedOpen Shipped.switzerland.cal Switzerland.ruleExcl y :=
  wed_easter h1 h2 fun t em _ _ hw hm hE => Switzerland.rule_open t em ⟨hw, hm⟩ hE

theorem Norway.wed {y : Int} (h1 : 1901 ≤ y) (h2 : y ≤ 2199) : WedOpen Shipped.norway.cal Norway.ruleExcl y :=
  wed_easter h1 h2 fun t em _ _ hw hm hE => Norway.rule_open t em ⟨hw, hm⟩ hE

theorem Sweden.wed {y : Int} (h1 : 1901 ≤ y) (h2 : y ≤ 2199) : WedOpen Shipped.sweden.cal Sweden.ruleExcl y :=
  wed_easter h1 h2 fun t em _ _ hw hm hE => Sweden.rule_open t em ⟨hw, hm⟩ hE

theorem Mexico.wed {y : Int} (h1 : 1901 ≤ y) (h2 : y ≤ 2199) : WedOpen Shipped.mexico.cal Mexico.ruleExcl y :=
  wed_easter h1 h2 fun t em _ _ hw hm hE => Mexico.rule_open t em ⟨hw, hm⟩ hE

theorem Turkey.wed {y : Int} (hy : y < 2004 ∨ 2034 < y) : WedOpen Shipped.turkey.cal Turkey.ruleExcl y :=
  wed_plain fun t ey _ hw hE => Turkey.rule_open t (by omega) hw hE

theorem Russia.wed {y : Int} (hy : y < 2012 ∨ 2020 < y) : WedOpen (Shipped.russia none).cal Russia.settlementIsBusinessDayExcl y :=
  wed_plain fun t ey hd hw hE => Russia.settlementIsBusinessDay_open t (by omega) hd hw hE

theorem Singapore.wed {y : Int} (h1 : 1901 ≤ y) (h2 : y ≤ 2199) (hy : y < 2004 ∨ 2026 < y) : WedOpen Shipped.singapore.cal Singapore.ruleExcl y :=
  wed_easter h1 h2 fun t em ey _ hw hm hE => Singapore.rule_open t em (by omega) ⟨hw, hm⟩ hE

theorem HongKong.wed {y : Int} (h1 : 1901 ≤ y) (h2 : y ≤ 2199) (hy : y < 2004 ∨ 2025 < y) : WedOpen Shipped.hongKong.cal HongKong.ruleExcl y :=
  wed_easter h1 h2 fun t em ey _ hw hm hE => HongKong.rule_open t em (by omega) ⟨hw, hm⟩ hE

theorem China.wed {y : Int} (hy : y < 2004 ∨ 2026 < y) : WedOpen Shipped.china.cal China.ruleExcl y :=
  wed_plain fun t ey _ hw hE => China.rule_open t (by omega) hw hE

theorem Poland.wed {y : Int} (h1 : 1901 ≤ y) (h2 : y ≤ 2199) : WedOpen (Shipped.poland none).cal Poland.settlementIsBusinessDayExcl y :=
  wed_easter h1 h2 fun t em _ _ hw hm hE => Poland.settlementIsBusinessDay_open t em ⟨hw, hm⟩ hE

theorem Hungary.wed {y : Int} (h1 : 1901 ≤ y) (h2 : y ≤ 2199) : WedOpen Shipped.hungary.cal Hungary.ruleExcl y :=
  wed_easter h1 h2 fun t em _ _ hw hm hE => Hungary.rule_open t em ⟨hw, hm⟩ hE

theorem CzechRepublic.wed {y : Int} (h1 : 1901 ≤ y) (h2 : y ≤ 2199) : WedOpen Shipped.czechRepublic.cal CzechRepublic.ruleExcl y :=
  wed_easter h1 h2 fun t em _ _ hw hm hE => CzechRepublic.rule_open t em ⟨hw, hm⟩ hE

theorem SouthAfrica.wed {y : Int} (h1 : 1901 ≤ y) (h2 : y ≤ 2199) : WedOpen Shipped.southAfrica.cal SouthAfrica.ruleExcl y :=
  wed_easter h1 h2 fun t em _ _ hw hm hE => SouthAfrica.rule_open t em (.inl ⟨hw, hm⟩) hE

theorem SouthKorea.wed {y : Int} (hy : y < 2004 ∨ 2050 < y) : WedOpen Shipped.southKorea.cal SouthKorea.ruleExcl y :=
  wed_plain fun t ey _ hw hE => SouthKorea.rule_open t (by omega) hw hE

theorem India.wed {y : Int} (h1 : 1901 ≤ y) (h2 : y ≤ 2199) (hy : y < 2005 ∨ 2025 < y) : WedOpen Shipped.india.cal India.ruleExcl y :=
  wed_easter h1 h2 fun t em ey _ hw hm hE => India.rule_open t em (by omega) ⟨hw, hm⟩ hE

theorem Brazil.wed {y : Int} (h1 : 1901 ≤ y) (h2 : y ≤ 2199) : WedOpen (Shipped.brazil none).cal Brazil.settlementIsBusinessDayExcl y :=
  wed_easter h1 h2 fun t em _ _ hw hm hE => Brazil.settlementIsBusinessDay_open t em ⟨hw, hm⟩ hE

theorem Denmark.wed {y : Int} (h1 : 1901 ≤ y) (h2 : y ≤ 2199) : WedOpen Shipped.denmark.cal Denmark.ruleExcl y :=
  wed_easter h1 h2 fun t em _ _ hw hm hE => Denmark.rule_open t em ⟨hw, hm⟩ hE

theorem Indonesia.wed {y : Int} (h1 : 1901 ≤ y) (h2 : y ≤ 2199) (hy : y < 2005 ∨ 2014 < y) : WedOpen Shipped.indonesia.cal Indonesia.ruleExcl y :=
  wed_easter h1 h2 fun t em ey _ hw hm hE => Indonesia.rule_open t em (by omega) ⟨hw, hm⟩ hE

theorem Taiwan.wed {y : Int} (hy : y < 2002 ∨ 2026 < y) : WedOpen Shipped.taiwan.cal Taiwan.ruleExcl y :=
  wed_plain fun t ey _ hw hE => Taiwan.rule_open t (by omega) hw hE

theorem Thailand.wed {y : Int} (h1 : 1901 ≤ y) (h2 : y ≤ 2199) (hy : y < 2000 ∨ 2025 < y) : WedOpen Shipped.thailand.cal Thailand.ruleExcl y :=
  wed_easter h1 h2 fun t em ey _ hw hm hE => Thailand.rule_open t em (by omega) (.inl ⟨hw, hm⟩) hE

theorem Romania.wed {y : Int} (h1 : 1901 ≤ y) (h2 : y ≤ 2199) : WedOpen Shipped.romania.cal Romania.ruleExcl y :=
  wed_orthodox h1 h2 fun t em _ _ hw hm hE => Romania.rule_open t em ⟨hw, hm⟩ hE

theorem Israel.wed {y : Int} (h1 : 1901 ≤ y) (h2 : y ≤ 2199) (hy : y < 2000 ∨ 2050 < y) :
    WedOpen (Shipped.israel none).cal Israel.shirExcl y :=
  fun _ _ a1 a2 a3 a4 hw hE => shir_wed h1 h2 hy a1 a2 a3 a4 hw hE

theorem eurgbp_months {y : Int} (h1 : 1901 ≤ y) (h2 : y ≤ 2199) :
    MonthsOpen (joint [Ccy.gbp.country.cal, Ccy.eur.country.cal]) y := by
  exact WedOpen.joint (UnitedKingdom.wed h1 h2) (Target.wed h1 h2) (by decide +kernel)

theorem eurusd_months {y : Int} (h1 : 1901 ≤ y) (h2 : y ≤ 2199) :
    MonthsOpen (joint [Ccy.usd.country.cal, Ccy.eur.country.cal]) y := by
  exact WedOpen.joint (UnitedStates.wed) (Target.wed h1 h2) (by decide +kernel)

theorem eurcad_months {y : Int} (h1 : 1901 ≤ y) (h2 : y ≤ 2199) :
    MonthsOpen (joint [Ccy.cad.country.cal, Ccy.eur.country.cal]) y := by
  exact WedOpen.joint (Canada.wed h1 h2) (Target.wed h1 h2) (by decide +kernel)

theorem eurjpy_months {y : Int} (h1 : 1901 ≤ y) (h2 : y ≤ 2199) :
    MonthsOpen (joint [Ccy.jpy.country.cal, Ccy.eur.country.cal]) y := by
  exact WedOpen.joint (Japan.wed) (Target.wed h1 h2) (by decide +kernel)

theorem eurchf_months {y : Int} (h1 : 1901 ≤ y) (h2 : y ≤ 2199) :
    MonthsOpen (joint [Ccy.chf.country.cal, Ccy.eur.country.cal]) y := by
  exact WedOpen.joint (Switzerland.wed h1 h2) (Target.wed h1 h2) (by decide +kernel)

theorem eurnok_months {y : Int} (h1 : 1901 ≤ y) (h2 : y ≤ 2199) :
    MonthsOpen (joint [Ccy.nok.country.cal, Ccy.eur.country.cal]) y := by
  exact WedOpen.joint (Norway.wed h1 h2) (Target.wed h1 h2) (by decide +kernel)

theorem eursek_months {y : Int} (h1 : 1901 ≤ y) (h2 : y ≤ 2199) :
    MonthsOpen (joint [Ccy.sek.country.cal, Ccy.eur.country.cal]) y := by
  exact WedOpen.joint (Sweden.wed h1 h2) (Target.wed h1 h2) (by decide +kernel)

theorem euraud_months {y : Int} (h1 : 1901 ≤ y) (h2 : y ≤ 2199) :
    MonthsOpen (joint [Ccy.aud.country.cal, Ccy.eur.country.cal]) y := by
  exact WedOpen.joint (Australia.wed h1 h2) (Target.wed h1 h2) (by decide +kernel)

theorem eurnzd_months {y : Int} (h1 : 1901 ≤ y) (h2 : y ≤ 2199) :
    MonthsOpen (joint [Ccy.nzd.country.cal, Ccy.eur.country.cal]) y := by
  rcases (show (2022 ≤ y ∧ y < 2022 + (31 : Nat)) ∨ (y < 2022 ∨ 2052 < y) by omega) with h | h
  · have hc : checkMonths (joint [Ccy.nzd.country.cal, Ccy.eur.country.cal]) 2022 31 = true := by
      decide +kernel
    exact months_of_check hc h.1 h.2
  · exact WedOpen.joint (NewZealand.wed h1 h2 (by omega)) (Target.wed h1 h2) (by decide +kernel)

theorem eurdkk_months {y : Int} (h1 : 1901 ≤ y) (h2 : y ≤ 2199) :
    MonthsOpen (joint [Ccy.dkk.country.cal, Ccy.eur.country.cal]) y := by
  exact WedOpen.joint (Denmark.wed h1 h2) (Target.wed h1 h2) (by decide +kernel)

theorem eurpln_months {y : Int} (h1 : 1901 ≤ y) (h2 : y ≤ 2199) :
    MonthsOpen (joint [Ccy.pln.country.cal, Ccy.eur.country.cal]) y := by
  exact WedOpen.joint (Poland.wed h1 h2) (Target.wed h1 h2) (by decide +kernel)

theorem eurhuf_months {y : Int} (h1 : 1901 ≤ y) (h2 : y ≤ 2199) :
    MonthsOpen (joint [Ccy.huf.country.cal, Ccy.eur.country.cal]) y := by
  exact WedOpen.joint (Hungary.wed h1 h2) (Target.wed h1 h2) (by decide +kernel)

theorem eurczk_months {y : Int} (h1 : 1901 ≤ y) (h2 : y ≤ 2199) :
    MonthsOpen (joint [Ccy.czk.country.cal, Ccy.eur.country.cal]) y := by
  exact WedOpen.joint (CzechRepublic.wed h1 h2) (Target.wed h1 h2) (by decide +kernel)

theorem eurron_months {y : Int} (h1 : 1901 ≤ y) (h2 : y ≤ 2199) :
    MonthsOpen (joint [Ccy.ron.country.cal, Ccy.eur.country.cal]) y := by
  exact WedOpen.joint (Romania.wed h1 h2) (Target.wed h1 h2) (by decide +kernel)

theorem gbpusd_months {y : Int} (h1 : 1901 ≤ y) (h2 : y ≤ 2199) :
    MonthsOpen (joint [Ccy.usd.country.cal, Ccy.gbp.country.cal]) y := by
  exact WedOpen.joint (UnitedStates.wed) (UnitedKingdom.wed h1 h2) (by decide +kernel)

theorem gbpcad_months {y : Int} (h1 : 1901 ≤ y) (h2 : y ≤ 2199) :
    MonthsOpen (joint [Ccy.cad.country.cal, Ccy.gbp.country.cal]) y := by
  exact WedOpen.joint (Canada.wed h1 h2) (UnitedKingdom.wed h1 h2) (by decide +kernel)

theorem gbpjpy_months {y : Int} (h1 : 1901 ≤ y) (h2 : y ≤ 2199) :
    MonthsOpen (joint [Ccy.jpy.country.cal, Ccy.gbp.country.cal]) y := by
  exact WedOpen.joint (Japan.wed) (UnitedKingdom.wed h1 h2) (by decide +kernel)

theorem gbpaud_months {y : Int} (h1 : 1901 ≤ y) (h2 : y ≤ 2199) :
    MonthsOpen (joint [Ccy.aud.country.cal, Ccy.gbp.country.cal]) y := by
  exact WedOpen.joint (Australia.wed h1 h2) (UnitedKingdom.wed h1 h2) (by decide +kernel)

theorem gbpnzd_months {y : Int} (h1 : 1901 ≤ y) (h2 : y ≤ 2199) :
    MonthsOpen (joint [Ccy.nzd.country.cal, Ccy.gbp.country.cal]) y := by
  rcases (show (2022 ≤ y ∧ y < 2022 + (31 : Nat)) ∨ (y < 2022 ∨ 2052 < y) by omega) with h | h
  · have hc : checkMonths (joint [Ccy.nzd.country.cal, Ccy.gbp.country.cal]) 2022 31 = true := by
      decide +kernel
    exact months_of_check hc h.1 h.2
  · exact WedOpen.joint (NewZealand.wed h1 h2 (by omega)) (UnitedKingdom.wed h1 h2) (by decide +kernel)

theorem gbpchf_months {y : Int} (h1 : 1901 ≤ y) (h2 : y ≤ 2199) :
    MonthsOpen (joint [Ccy.chf.country.cal, Ccy.gbp.country.cal]) y := by
  exact WedOpen.joint (Switzerland.wed h1 h2) (UnitedKingdom.wed h1 h2) (by decide +kernel)

theorem gbpnok_months {y : Int} (h1 : 1901 ≤ y) (h2 : y ≤ 2199) :
    MonthsOpen (joint [Ccy.nok.country.cal, Ccy.gbp.country.cal]) y := by
  exact WedOpen.joint (Norway.wed h1 h2) (UnitedKingdom.wed h1 h2) (by decide +kernel)

theorem gbpsek_months {y : Int} (h1 : 1901 ≤ y) (h2 : y ≤ 2199) :
    MonthsOpen (joint [Ccy.sek.country.cal, Ccy.gbp.country.cal]) y := by
  exact WedOpen.joint (Sweden.wed h1 h2) (UnitedKingdom.wed h1 h2) (by decide +kernel)

theorem audusd_months {y : Int} (h1 : 1901 ≤ y) (h2 : y ≤ 2199) :
    MonthsOpen (joint [Ccy.usd.country.cal, Ccy.aud.country.cal]) y := by
  exact WedOpen.joint (UnitedStates.wed) (Australia.wed h1 h2) (by decide +kernel)

theorem nzdusd_months {y : Int} (h1 : 1901 ≤ y) (h2 : y ≤ 2199) :
    MonthsOpen (joint [Ccy.usd.country.cal, Ccy.nzd.country.cal]) y := by
  rcases (show (2022 ≤ y ∧ y < 2022 + (31 : Nat)) ∨ (y < 2022 ∨ 2052 < y) by omega) with h | h
  · have hc : checkMonths (joint [Ccy.usd.country.cal, Ccy.nzd.country.cal]) 2022 31 = true := by
      decide +kernel
    exact months_of_check hc h.1 h.2
  · exact WedOpen.joint (UnitedStates.wed) (NewZealand.wed h1 h2 (by omega)) (by decide +kernel)

theorem usdchf_months {y : Int} (h1 : 1901 ≤ y) (h2 : y ≤ 2199) :
    MonthsOpen (joint [Ccy.chf.country.cal, Ccy.usd.country.cal]) y := by
  exact WedOpen.joint (Switzerland.wed h1 h2) (UnitedStates.wed) (by decide +kernel)

theorem usdnok_months {y : Int} (h1 : 1901 ≤ y) (h2 : y ≤ 2199) :
    MonthsOpen (joint [Ccy.nok.country.cal, Ccy.usd.country.cal]) y := by
  exact WedOpen.joint (Norway.wed h1 h2) (UnitedStates.wed) (by decide +kernel)

theorem usdsek_months {y : Int} (h1 : 1901 ≤ y) (h2 : y ≤ 2199) :
    MonthsOpen (joint [Ccy.sek.country.cal, Ccy.usd.country.cal]) y := by
  exact WedOpen.joint (Sweden.wed h1 h2) (UnitedStates.wed) (by decide +kernel)

theorem usdjpy_months {y : Int} (_ : 1901 ≤ y) (_ : y ≤ 2199) :
    MonthsOpen (joint [Ccy.jpy.country.cal, Ccy.usd.country.cal]) y := by
  exact WedOpen.joint (Japan.wed) (UnitedStates.wed) (by decide +kernel)

theorem usdsgd_months {y : Int} (h1 : 1901 ≤ y) (h2 : y ≤ 2199) :
    MonthsOpen (joint [Ccy.sgd.country.cal, Ccy.usd.country.cal]) y := by
  rcases (show (2004 ≤ y ∧ y < 2004 + (23 : Nat)) ∨ (y < 2004 ∨ 2026 < y) by omega) with h | h
  · have hc : checkMonths (joint [Ccy.sgd.country.cal, Ccy.usd.country.cal]) 2004 23 = true := by
      decide +kernel
    exact months_of_check hc h.1 h.2
  · exact WedOpen.joint (Singapore.wed h1 h2 (by omega)) (UnitedStates.wed) (by decide +kernel)

theorem usdhkd_months {y : Int} (h1 : 1901 ≤ y) (h2 : y ≤ 2199) :
    MonthsOpen (joint [Ccy.hkd.country.cal, Ccy.usd.country.cal]) y := by
  rcases (show (2004 ≤ y ∧ y < 2004 + (22 : Nat)) ∨ (y < 2004 ∨ 2025 < y) by omega) with h | h
  · have hc : checkMonths (joint [Ccy.hkd.country.cal, Ccy.usd.country.cal]) 2004 22 = true := by
      decide +kernel
    exact months_of_check hc h.1 h.2
  · exact WedOpen.joint (HongKong.wed h1 h2 (by omega)) (UnitedStates.wed) (by decide +kernel)

theorem usdcny_months {y : Int} (_ : 1901 ≤ y) (_ : y ≤ 2199) :
    MonthsOpen (joint [Ccy.cny.country.cal, Ccy.usd.country.cal]) y := by
  rcases (show (2004 ≤ y ∧ y < 2004 + (23 : Nat)) ∨ (y < 2004 ∨ 2026 < y) by omega) with h | h
  · have hc : checkMonths (joint [Ccy.cny.country.cal, Ccy.usd.country.cal]) 2004 23 = true := by
      decide +kernel
    exact months_of_check hc h.1 h.2
  · exact WedOpen.joint (China.wed (by omega)) (UnitedStates.wed) (by decide +kernel)

theorem usdpln_months {y : Int} (h1 : 1901 ≤ y) (h2 : y ≤ 2199) :
    MonthsOpen (joint [Ccy.pln.country.cal, Ccy.usd.country.cal]) y := by
  exact WedOpen.joint (Poland.wed h1 h2) (UnitedStates.wed) (by decide +kernel)

theorem usdhuf_months {y : Int} (h1 : 1901 ≤ y) (h2 : y ≤ 2199) :
    MonthsOpen (joint [Ccy.huf.country.cal, Ccy.usd.country.cal]) y := by
  exact WedOpen.joint (Hungary.wed h1 h2) (UnitedStates.wed) (by decide +kernel)

theorem usdczk_months {y : Int} (h1 : 1901 ≤ y) (h2 : y ≤ 2199) :
    MonthsOpen (joint [Ccy.czk.country.cal, Ccy.usd.country.cal]) y := by
  exact WedOpen.joint (CzechRepublic.wed h1 h2) (UnitedStates.wed) (by decide +kernel)

theorem usdzar_months {y : Int} (h1 : 1901 ≤ y) (h2 : y ≤ 2199) :
    MonthsOpen (joint [Ccy.zar.country.cal, Ccy.usd.country.cal]) y := by
  exact WedOpen.joint (SouthAfrica.wed h1 h2) (UnitedStates.wed) (by decide +kernel)

theorem usdkrw_months {y : Int} (_ : 1901 ≤ y) (_ : y ≤ 2199) :
    MonthsOpen (joint [Ccy.krw.country.cal, Ccy.usd.country.cal]) y := by
  rcases (show (2004 ≤ y ∧ y < 2004 + (47 : Nat)) ∨ (y < 2004 ∨ 2050 < y) by omega) with h | h
  · have hc : checkMonths (joint [Ccy.krw.country.cal, Ccy.usd.country.cal]) 2004 47 = true := by
      decide +kernel
    exact months_of_check hc h.1 h.2
  · exact WedOpen.joint (SouthKorea.wed (by omega)) (UnitedStates.wed) (by decide +kernel)

theorem usdinr_months {y : Int} (h1 : 1901 ≤ y) (h2 : y ≤ 2199) :
    MonthsOpen (joint [Ccy.inr.country.cal, Ccy.usd.country.cal]) y := by
  rcases (show (2005 ≤ y ∧ y < 2005 + (21 : Nat)) ∨ (y < 2005 ∨ 2025 < y) by omega) with h | h
  · have hc : checkMonths (joint [Ccy.inr.country.cal, Ccy.usd.country.cal]) 2005 21 = true := by
      decide +kernel
    exact months_of_check hc h.1 h.2
  · exact WedOpen.joint (India.wed h1 h2 (by omega)) (UnitedStates.wed) (by decide +kernel)

theorem usdbrl_months {y : Int} (h1 : 1901 ≤ y) (h2 : y ≤ 2199) :
    MonthsOpen (joint [Ccy.brl.country.cal, Ccy.usd.country.cal]) y := by
  exact WedOpen.joint (Brazil.wed h1 h2) (UnitedStates.wed) (by decide +kernel)

theorem usddkk_months {y : Int} (h1 : 1901 ≤ y) (h2 : y ≤ 2199) :
    MonthsOpen (joint [Ccy.dkk.country.cal, Ccy.usd.country.cal]) y := by
  exact WedOpen.joint (Denmark.wed h1 h2) (UnitedStates.wed) (by decide +kernel)

theorem usdidr_months {y : Int} (h1 : 1901 ≤ y) (h2 : y ≤ 2199) :
    MonthsOpen (joint [Ccy.idr.country.cal, Ccy.usd.country.cal]) y := by
  rcases (show (2005 ≤ y ∧ y < 2005 + (10 : Nat)) ∨ (y < 2005 ∨ 2014 < y) by omega) with h | h
  · have hc : checkMonths (joint [Ccy.idr.country.cal, Ccy.usd.country.cal]) 2005 10 = true := by
      decide +kernel
    exact months_of_check hc h.1 h.2
  · exact WedOpen.joint (Indonesia.wed h1 h2 (by omega)) (UnitedStates.wed) (by decide +kernel)

theorem usdtwd_months {y : Int} (_ : 1901 ≤ y) (_ : y ≤ 2199) :
    MonthsOpen (joint [Ccy.twd.country.cal, Ccy.usd.country.cal]) y := by
  rcases (show (2002 ≤ y ∧ y < 2002 + (25 : Nat)) ∨ (y < 2002 ∨ 2026 < y) by omega) with h | h
  · have hc : checkMonths (joint [Ccy.twd.country.cal, Ccy.usd.country.cal]) 2002 25 = true := by
      decide +kernel
    exact months_of_check hc h.1 h.2
  · exact WedOpen.joint (Taiwan.wed (by omega)) (UnitedStates.wed) (by decide +kernel)

theorem usdthb_months {y : Int} (h1 : 1901 ≤ y) (h2 : y ≤ 2199) :
    MonthsOpen (joint [Ccy.thb.country.cal, Ccy.usd.country.cal]) y := by
  rcases (show (2000 ≤ y ∧ y < 2000 + (26 : Nat)) ∨ (y < 2000 ∨ 2025 < y) by omega) with h | h
  · have hc : checkMonths (joint [Ccy.thb.country.cal, Ccy.usd.country.cal]) 2000 26 = true := by
      decide +kernel
    exact months_of_check hc h.1 h.2
  · exact WedOpen.joint (Thailand.wed h1 h2 (by omega)) (UnitedStates.wed) (by decide +kernel)

theorem usdils_months {y : Int} (h1 : 1901 ≤ y) (h2 : y ≤ 2199) :
    MonthsOpen (joint [Ccy.ils.country.cal, Ccy.usd.country.cal]) y := by
  rcases (show (2000 ≤ y ∧ y < 2000 + (51 : Nat)) ∨ (y < 2000 ∨ 2050 < y) by omega) with h | h
  · have hc : checkMonths (joint [Israel.fastS, Ccy.usd.country.cal]) 2000 51 = true := by
      decide +kernel
    refine (months_of_check hc h.1 h.2).mono fun n hn ho => ?_
    rw [C08_joint_open_iff] at ho ⊢
    simp only [List.mem_cons, List.not_mem_nil, or_false, forall_eq_or_imp, forall_eq] at ho ⊢
    refine ⟨?_, ho.2⟩
    have h3 := ho.1
    simp only [Israel.fastS, Outcome.ok.injEq, Bool.and_eq_true, Bool.not_eq_true',
      List.contains_eq_mem, decide_eq_false_iff_not, Bool.or_eq_false_iff, beq_eq_false_iff_ne] at h3
    obtain ⟨⟨o1, o2⟩, o3, o4⟩ := h3
    exact shir_of_not_holiday h1 h2 hn o1 o2 o3 (.inl (hn ▸ o4))
  · exact WedOpen.joint (Israel.wed h1 h2 (by omega)) (UnitedStates.wed) (by decide +kernel)

theorem usdron_months {y : Int} (h1 : 1901 ≤ y) (h2 : y ≤ 2199) :
    MonthsOpen (joint [Ccy.ron.country.cal, Ccy.usd.country.cal]) y := by
  exact WedOpen.joint (Romania.wed h1 h2) (UnitedStates.wed) (by decide +kernel)

theorem usdcad_months {y : Int} (h1 : 1901 ≤ y) (h2 : y ≤ 2199) :
    MonthsOpen (joint [Ccy.cad.country.cal, Ccy.usd.country.cal]) y := by
  exact WedOpen.joint (Canada.wed h1 h2) (UnitedStates.wed) (by decide +kernel)

theorem usdmxn_months {y : Int} (h1 : 1901 ≤ y) (h2 : y ≤ 2199) :
    MonthsOpen (joint [Ccy.mxn.country.cal, Ccy.usd.country.cal]) y := by
  exact WedOpen.joint (Mexico.wed h1 h2) (UnitedStates.wed) (by decide +kernel)

theorem usdtry_months {y : Int} (_ : 1901 ≤ y) (_ : y ≤ 2199) :
    MonthsOpen (joint [Ccy.«try».country.cal, Ccy.usd.country.cal]) y := by
  rcases (show (2004 ≤ y ∧ y < 2004 + (31 : Nat)) ∨ (y < 2004 ∨ 2034 < y) by omega) with h | h
  · have hc : checkMonths (joint [Ccy.«try».country.cal, Ccy.usd.country.cal]) 2004 31 = true := by
      decide +kernel
    exact months_of_check hc h.1 h.2
  · exact WedOpen.joint (Turkey.wed (by omega)) (UnitedStates.wed) (by decide +kernel)

theorem usdrub_months {y : Int} (_ : 1901 ≤ y) (_ : y ≤ 2199) :
    MonthsOpen (joint [Ccy.rub.country.cal, Ccy.usd.country.cal]) y := by
  rcases (show (2012 ≤ y ∧ y < 2012 + (9 : Nat)) ∨ (y < 2012 ∨ 2020 < y) by omega) with h | h
  · have hc : checkMonths (joint [Ccy.rub.country.cal, Ccy.usd.country.cal]) 2012 9 = true := by
      decide +kernel
    exact months_of_check hc h.1 h.2
  · exact WedOpen.joint (Russia.wed (by omega)) (UnitedStates.wed) (by decide +kernel)

theorem audnzd_months {y : Int} (h1 : 1901 ≤ y) (h2 : y ≤ 2199) :
    MonthsOpen (joint [Ccy.nzd.country.cal, Ccy.aud.country.cal]) y := by
  rcases (show (2022 ≤ y ∧ y < 2022 + (31 : Nat)) ∨ (y < 2022 ∨ 2052 < y) by omega) with h | h
  · have hc : checkMonths (joint [Ccy.nzd.country.cal, Ccy.aud.country.cal]) 2022 31 = true := by
      decide +kernel
    exact months_of_check hc h.1 h.2
  · exact WedOpen.joint (NewZealand.wed h1 h2 (by omega)) (Australia.wed h1 h2) (by decide +kernel)

theorem audcad_months {y : Int} (h1 : 1901 ≤ y) (h2 : y ≤ 2199) :
    MonthsOpen (joint [Ccy.cad.country.cal, Ccy.aud.country.cal]) y := by
  exact WedOpen.joint (Canada.wed h1 h2) (Australia.wed h1 h2) (by decide +kernel)

theorem audchf_months {y : Int} (h1 : 1901 ≤ y) (h2 : y ≤ 2199) :
    MonthsOpen (joint [Ccy.chf.country.cal, Ccy.aud.country.cal]) y := by
  exact WedOpen.joint (Switzerland.wed h1 h2) (Australia.wed h1 h2) (by decide +kernel)

theorem audjpy_months {y : Int} (h1 : 1901 ≤ y) (h2 : y ≤ 2199) :
    MonthsOpen (joint [Ccy.jpy.country.cal, Ccy.aud.country.cal]) y := by
  exact WedOpen.joint (Japan.wed) (Australia.wed h1 h2) (by decide +kernel)

theorem audsgd_months {y : Int} (h1 : 1901 ≤ y) (h2 : y ≤ 2199) :
    MonthsOpen (joint [Ccy.sgd.country.cal, Ccy.aud.country.cal]) y := by
  rcases (show (2004 ≤ y ∧ y < 2004 + (23 : Nat)) ∨ (y < 2004 ∨ 2026 < y) by omega) with h | h
  · have hc : checkMonths (joint [Ccy.sgd.country.cal, Ccy.aud.country.cal]) 2004 23 = true := by
      decide +kernel
    exact months_of_check hc h.1 h.2
  · exact WedOpen.joint (Singapore.wed h1 h2 (by omega)) (Australia.wed h1 h2) (by decide +kernel)

theorem nzdcad_months {y : Int} (h1 : 1901 ≤ y) (h2 : y ≤ 2199) :
    MonthsOpen (joint [Ccy.cad.country.cal, Ccy.nzd.country.cal]) y := by
  rcases (show (2022 ≤ y ∧ y < 2022 + (31 : Nat)) ∨ (y < 2022 ∨ 2052 < y) by omega) with h | h
  · have hc : checkMonths (joint [Ccy.cad.country.cal, Ccy.nzd.country.cal]) 2022 31 = true := by
      decide +kernel
    exact months_of_check hc h.1 h.2
  · exact WedOpen.joint (Canada.wed h1 h2) (NewZealand.wed h1 h2 (by omega)) (by decide +kernel)

theorem nzdchf_months {y : Int} (h1 : 1901 ≤ y) (h2 : y ≤ 2199) :
    MonthsOpen (joint [Ccy.chf.country.cal, Ccy.nzd.country.cal]) y := by
  rcases (show (2022 ≤ y ∧ y < 2022 + (31 : Nat)) ∨ (y < 2022 ∨ 2052 < y) by omega) with h | h
  · have hc : checkMonths (joint [Ccy.chf.country.cal, Ccy.nzd.country.cal]) 2022 31 = true := by
      decide +kernel
    exact months_of_check hc h.1 h.2
  · exact WedOpen.joint (Switzerland.wed h1 h2) (NewZealand.wed h1 h2 (by omega)) (by decide +kernel)

theorem nzdjpy_months {y : Int} (h1 : 1901 ≤ y) (h2 : y ≤ 2199) :
    MonthsOpen (joint [Ccy.jpy.country.cal, Ccy.nzd.country.cal]) y := by
  rcases (show (2022 ≤ y ∧ y < 2022 + (31 : Nat)) ∨ (y < 2022 ∨ 2052 < y) by omega) with h | h
  · have hc : checkMonths (joint [Ccy.jpy.country.cal, Ccy.nzd.country.cal]) 2022 31 = true := by
      decide +kernel
    exact months_of_check hc h.1 h.2
  · exact WedOpen.joint (Japan.wed) (NewZealand.wed h1 h2 (by omega)) (by decide +kernel)

theorem nzdsgd_months {y : Int} (h1 : 1901 ≤ y) (h2 : y ≤ 2199) :
    MonthsOpen (joint [Ccy.sgd.country.cal, Ccy.nzd.country.cal]) y := by
  rcases (show (2004 ≤ y ∧ y < 2004 + (49 : Nat)) ∨ (y < 2004 ∨ 2052 < y) by omega) with h | h
  · have hc : checkMonths (joint [Ccy.sgd.country.cal, Ccy.nzd.country.cal]) 2004 49 = true := by
      decide +kernel
    exact months_of_check hc h.1 h.2
  · exact WedOpen.joint (Singapore.wed h1 h2 (by omega)) (NewZealand.wed h1 h2 (by omega)) (by decide +kernel)

theorem cadjpy_months {y : Int} (h1 : 1901 ≤ y) (h2 : y ≤ 2199) :
    MonthsOpen (joint [Ccy.jpy.country.cal, Ccy.cad.country.cal]) y := by
  exact WedOpen.joint (Japan.wed) (Canada.wed h1 h2) (by decide +kernel)

theorem chfjpy_months {y : Int} (h1 : 1901 ≤ y) (h2 : y ≤ 2199) :
    MonthsOpen (joint [Ccy.jpy.country.cal, Ccy.chf.country.cal]) y := by
  exact WedOpen.joint (Japan.wed) (Switzerland.wed h1 h2) (by decide +kernel)

theorem cadchf_months {y : Int} (h1 : 1901 ≤ y) (h2 : y ≤ 2199) :
    MonthsOpen (joint [Ccy.chf.country.cal, Ccy.cad.country.cal]) y := by
  exact WedOpen.joint (Switzerland.wed h1 h2) (Canada.wed h1 h2) (by decide +kernel)

/-- The two currencies of a pair. -/
def Pair.ccys : Pair → Ccy × Ccy
  | .eurgbp => (.gbp, .eur)
  | .eurusd => (.usd, .eur)
  | .eurcad => (.cad, .eur)
  | .eurjpy => (.jpy, .eur)
  | .eurchf => (.chf, .eur)
  | .eurnok => (.nok, .eur)
  | .eursek => (.sek, .eur)
  | .euraud => (.aud, .eur)
  | .eurnzd => (.nzd, .eur)
  | .eurdkk => (.dkk, .eur)
  | .eurpln => (.pln, .eur)
  | .eurhuf => (.huf, .eur)
  | .eurczk => (.czk, .eur)
  | .eurron => (.ron, .eur)
  | .gbpusd => (.usd, .gbp)
  | .gbpcad => (.cad, .gbp)
  | .gbpjpy => (.jpy, .gbp)
  | .gbpaud => (.aud, .gbp)
  | .gbpnzd => (.nzd, .gbp)
  | .gbpchf => (.chf, .gbp)
  | .gbpnok => (.nok, .gbp)
  | .gbpsek => (.sek, .gbp)
  | .audusd => (.usd, .aud)
  | .nzdusd => (.usd, .nzd)
  | .usdchf => (.chf, .usd)
  | .usdnok => (.nok, .usd)
  | .usdsek => (.sek, .usd)
  | .usdjpy => (.jpy, .usd)
  | .usdsgd => (.sgd, .usd)
  | .usdhkd => (.hkd, .usd)
  | .usdcny => (.cny, .usd)
  | .usdpln => (.pln, .usd)
  | .usdhuf => (.huf, .usd)
  | .usdczk => (.czk, .usd)
  | .usdzar => (.zar, .usd)
  | .usdkrw => (.krw, .usd)
  | .usdinr => (.inr, .usd)
  | .usdbrl => (.brl, .usd)
  | .usddkk => (.dkk, .usd)
  | .usdidr => (.idr, .usd)
  | .usdtwd => (.twd, .usd)
  | .usdthb => (.thb, .usd)
  | .usdils => (.ils, .usd)
  | .usdron => (.ron, .usd)
  | .usdcad => (.cad, .usd)
  | .usdmxn => (.mxn, .usd)
  | .usdtry => (.«try», .usd)
  | .usdrub => (.rub, .usd)
  | .audnzd => (.nzd, .aud)
  | .audcad => (.cad, .aud)
  | .audchf => (.chf, .aud)
  | .audjpy => (.jpy, .aud)
  | .audsgd => (.sgd, .aud)
  | .nzdcad => (.cad, .nzd)
  | .nzdchf => (.chf, .nzd)
  | .nzdjpy => (.jpy, .nzd)
  | .nzdsgd => (.sgd, .nzd)
  | .cadjpy => (.jpy, .cad)
  | .chfjpy => (.jpy, .chf)
  | .cadchf => (.chf, .cad)

theorem Pair.dom_eq (p : Pair) : p.dom = .ok p.ccys.1 := by
  cases p <;> decide +kernel

theorem Pair.frn_eq (p : Pair) : p.frn = .ok p.ccys.2 := by
  cases p <;> decide +kernel

theorem Pair.calendar_eq (p : Pair) :
    p.calendar = joint [p.ccys.1.country.cal, p.ccys.2.country.cal] := by
  funext d
  unfold Pair.calendar
  rw [p.dom_eq, p.frn_eq, Outcome.ok_bind, Outcome.ok_bind]

theorem Pair.months {y : Int} (h1 : 1901 ≤ y) (h2 : y ≤ 2199) :
    ∀ p : Pair, MonthsOpen p.calendar y
  | .eurgbp => by rw [Pair.calendar_eq]; exact eurgbp_months h1 h2
  | .eurusd => by rw [Pair.calendar_eq]; exact eurusd_months h1 h2
  | .eurcad => by rw [Pair.calendar_eq]; exact eurcad_months h1 h2
  | .eurjpy => by rw [Pair.calendar_eq]; exact eurjpy_months h1 h2
  | .eurchf => by rw [Pair.calendar_eq]; exact eurchf_months h1 h2
  | .eurnok => by rw [Pair.calendar_eq]; exact eurnok_months h1 h2
  | .eursek => by rw [Pair.calendar_eq]; exact eursek_months h1 h2
  | .euraud => by rw [Pair.calendar_eq]; exact euraud_months h1 h2
  | .eurnzd => by rw [Pair.calendar_eq]; exact eurnzd_months h1 h2
  | .eurdkk => by rw [Pair.calendar_eq]; exact eurdkk_months h1 h2
  | .eurpln => by rw [Pair.calendar_eq]; exact eurpln_months h1 h2
  | .eurhuf => by rw [Pair.calendar_eq]; exact eurhuf_months h1 h2
  | .eurczk => by rw [Pair.calendar_eq]; exact eurczk_months h1 h2
  | .eurron => by rw [Pair.calendar_eq]; exact eurron_months h1 h2
  | .gbpusd => by rw [Pair.calendar_eq]; exact gbpusd_months h1 h2
  | .gbpcad => by rw [Pair.calendar_eq]; exact gbpcad_months h1 h2
  | .gbpjpy => by rw [Pair.calendar_eq]; exact gbpjpy_months h1 h2
  | .gbpaud => by rw [Pair.calendar_eq]; exact gbpaud_months h1 h2
  | .gbpnzd => by rw [Pair.calendar_eq]; exact gbpnzd_months h1 h2
  | .gbpchf => by rw [Pair.calendar_eq]; exact gbpchf_months h1 h2
  | .gbpnok => by rw [Pair.calendar_eq]; exact gbpnok_months h1 h2
  | .gbpsek => by rw [Pair.calendar_eq]; exact gbpsek_months h1 h2
  | .audusd => by rw [Pair.calendar_eq]; exact audusd_months h1 h2
  | .nzdusd => by rw [Pair.calendar_eq]; exact nzdusd_months h1 h2
  | .usdchf => by rw [Pair.calendar_eq]; exact usdchf_months h1 h2
  | .usdnok => by rw [Pair.calendar_eq]; exact usdnok_months h1 h2
  | .usdsek => by rw [Pair.calendar_eq]; exact usdsek_months h1 h2
  | .usdjpy => by rw [Pair.calendar_eq]; exact usdjpy_months h1 h2
  | .usdsgd => by rw [Pair.calendar_eq]; exact usdsgd_months h1 h2
  | .usdhkd => by rw [Pair.calendar_eq]; exact usdhkd_months h1 h2
  | .usdcny => by rw [Pair.calendar_eq]; exact usdcny_months h1 h2
  | .usdpln => by rw [Pair.calendar_eq]; exact usdpln_months h1 h2
  | .usdhuf => by rw [Pair.calendar_eq]; exact usdhuf_months h1 h2
  | .usdczk => by rw [Pair.calendar_eq]; exact usdczk_months h1 h2
  | .usdzar => by rw [Pair.calendar_eq]; exact usdzar_months h1 h2
  | .usdkrw => by rw [Pair.calendar_eq]; exact usdkrw_months h1 h2
  | .usdinr => by rw [Pair.calendar_eq]; exact usdinr_months h1 h2
  | .usdbrl => by rw [Pair.calendar_eq]; exact usdbrl_months h1 h2
  | .usddkk => by rw [Pair.calendar_eq]; exact usddkk_months h1 h2
  | .usdidr => by rw [Pair.calendar_eq]; exact usdidr_months h1 h2
  | .usdtwd => by rw [Pair.calendar_eq]; exact usdtwd_months h1 h2
  | .usdthb => by rw [Pair.calendar_eq]; exact usdthb_months h1 h2
  | .usdils => by rw [Pair.calendar_eq]; exact usdils_months h1 h2
  | .usdron => by rw [Pair.calendar_eq]; exact usdron_months h1 h2
  | .usdcad => by rw [Pair.calendar_eq]; exact usdcad_months h1 h2
  | .usdmxn => by rw [Pair.calendar_eq]; exact usdmxn_months h1 h2
  | .usdtry => by rw [Pair.calendar_eq]; exact usdtry_months h1 h2
  | .usdrub => by rw [Pair.calendar_eq]; exact usdrub_months h1 h2
  | .audnzd => by rw [Pair.calendar_eq]; exact audnzd_months h1 h2
  | .audcad => by rw [Pair.calendar_eq]; exact audcad_months h1 h2
  | .audchf => by rw [Pair.calendar_eq]; exact audchf_months h1 h2
  | .audjpy => by rw [Pair.calendar_eq]; exact audjpy_months h1 h2
  | .audsgd => by rw [Pair.calendar_eq]; exact audsgd_months h1 h2
  | .nzdcad => by rw [Pair.calendar_eq]; exact nzdcad_months h1 h2
  | .nzdchf => by rw [Pair.calendar_eq]; exact nzdchf_months h1 h2
  | .nzdjpy => by rw [Pair.calendar_eq]; exact nzdjpy_months h1 h2
  | .nzdsgd => by rw [Pair.calendar_eq]; exact nzdsgd_months h1 h2
  | .cadjpy => by rw [Pair.calendar_eq]; exact cadjpy_months h1 h2
  | .chfjpy => by rw [Pair.calendar_eq]; exact chfjpy_months h1 h2
  | .cadchf => by rw [Pair.calendar_eq]; exact cadchf_months h1 h2

end Verif
