import Verif.Props.Adjust
import Mathlib.Algebra.Order.Ring.Int

/-! # C09-C12: advancing, end of month, counting business days -/

namespace Verif
open Outcome

variable {c : Cal} {d r : Int}

/-! ## C09 Advancing by business days -/

/-- Advancing by `n > 0` days returns `r` exactly when `r` is an open day after `d`
with exactly `n` open days in `(d, r]` (all days in between being classified). -/
theorem C09_advance_forward_iff {n : Int} (hn : 0 < n) (bdc : Bdc) (eom : Bool) (hd : Valid d) :
    advance c d (.days n) bdc eom = .ok r ↔
      r ≤ maxDay ∧ d < r ∧ c r = .ok true ∧ ClassifiedOn c (d + 1) r ∧
      (openCount c (Finset.Ioc d r) : Int) = n := by
  have h0 : n ≠ 0 := by omega
  have := hd.1
  rw [advance]
  simp only [h0, if_false, hn, if_true]
  rw [advanceFwd_ok c n.toNat (by omega)]
  constructor
  · rintro ⟨h1, h2, h3, h4, h5, h6⟩
    exact ⟨h2, h3, h4, fun x h7 h8 => h5 x (by omega) h8, by omega⟩
  · rintro ⟨h2, h3, h4, h5, h6⟩
    exact ⟨by omega, h2, h3, h4, fun x h7 h8 => h5 x (by omega) h8, by omega⟩

/-- Advancing by `n < 0` days returns `r` exactly when `r` is an open day before `d`
with exactly `-n` open days in `[r, d)`. -/
theorem C09_advance_backward_iff {n : Int} (hn : n < 0) (bdc : Bdc) (eom : Bool) (hd : Valid d) :
    advance c d (.days n) bdc eom = .ok r ↔
      minDay ≤ r ∧ r < d ∧ c r = .ok true ∧ ClassifiedOn c r (d - 1) ∧
      (openCount c (Finset.Ico r d) : Int) = -n := by
  have h0 : n ≠ 0 := by omega
  have h1' : ¬ 0 < n := by omega
  have := hd.2
  rw [advance]
  simp only [h0, if_false, h1']
  rw [advanceBack_ok c (-n).toNat (by omega)]
  constructor
  · rintro ⟨h1, h2, h3, h4, h5, h6⟩
    exact ⟨h2, h3, h4, fun x h7 h8 => h5 x h7 (by omega), by omega⟩
  · rintro ⟨h2, h3, h4, h5, h6⟩
    exact ⟨by omega, h2, h3, h4, fun x h7 h8 => h5 x h7 (by omega), by omega⟩

theorem openCount_shift (hdr : d ≤ r) (hd : c d = .ok true) (hr : c r = .ok true) :
    openCount c (Finset.Ioc d r) = openCount c (Finset.Ico d r) := by
  have e1 : Finset.Icc d r = insert d (Finset.Ioc d r) := by
    ext x; simp only [Finset.mem_Icc, Finset.mem_insert, Finset.mem_Ioc]; omega
  have e2 : Finset.Icc d r = insert r (Finset.Ico d r) := by
    ext x; simp only [Finset.mem_Icc, Finset.mem_insert, Finset.mem_Ico]; omega
  have h1 : openCount c (Finset.Icc d r) = openCount c (Finset.Ioc d r) + 1 := by
    unfold openCount
    rw [e1, Finset.filter_insert, if_pos hd, Finset.card_insert_of_notMem]
    simp
  have h2 : openCount c (Finset.Icc d r) = openCount c (Finset.Ico d r) + 1 := by
    unfold openCount
    rw [e2, Finset.filter_insert, if_pos hr, Finset.card_insert_of_notMem]
    simp
  omega

theorem C09_valid {n : Int} (hn : n ≠ 0) {bdc : Bdc} {eom : Bool} (hd : Valid d)
    (h : advance c d (.days n) bdc eom = .ok r) : Valid r ∧ c r = .ok true := by
  have h1 := hd.1
  have h2 := hd.2
  rcases lt_or_gt_of_ne hn with hn | hn
  · obtain ⟨a, b, e, _⟩ := (C09_advance_backward_iff hn bdc eom hd).1 h
    exact ⟨⟨a, by omega⟩, e⟩
  · obtain ⟨a, b, e, _⟩ := (C09_advance_forward_iff hn bdc eom hd).1 h
    exact ⟨⟨by omega, a⟩, e⟩

/-- From a business day, advancing by `n` and then by `-n` returns to the start. -/
theorem C09_round_trip {n : Int} (hn : n ≠ 0) (bdc bdc' : Bdc) (eom eom' : Bool) (hd : Valid d)
    (ho : c d = .ok true) (h : advance c d (.days n) bdc eom = .ok r) :
    advance c r (.days (-n)) bdc' eom' = .ok d := by
  have hv := C09_valid hn hd h
  rcases lt_or_gt_of_ne hn with hn | hn
  · obtain ⟨h1, h2, h3, h4, h5⟩ := (C09_advance_backward_iff hn bdc eom hd).1 h
    refine (C09_advance_forward_iff (by omega) bdc' eom' hv.1).2
      ⟨hd.2, h2, ho, fun x h6 h7 => ?_, ?_⟩
    · rcases eq_or_lt_of_le h7 with h8 | h8
      · rw [h8]; exact Or.inl ho
      · exact h4 x (by omega) (by omega)
    · rw [openCount_shift h2.le h3 ho, h5]
  · obtain ⟨h1, h2, h3, h4, h5⟩ := (C09_advance_forward_iff hn bdc eom hd).1 h
    refine (C09_advance_backward_iff (by omega) bdc' eom' hv.1).2
      ⟨hd.1, h2, ho, fun x h6 h7 => ?_, ?_⟩
    · rcases eq_or_lt_of_le h6 with h8 | h8
      · rw [← h8]; exact Or.inl ho
      · exact h4 x (by omega) (by omega)
    · rw [← openCount_shift h2.le ho h3, h5]; omega

/-- Steps in the same direction compose. -/
theorem C09_compose_same_sign {m n : Int} (hmn : (0 < m ∧ 0 < n) ∨ (m < 0 ∧ n < 0))
    (bdc bdc' bdc'' : Bdc) (eom eom' eom'' : Bool) (hd : Valid d) {s : Int}
    (h1 : advance c d (.days m) bdc eom = .ok r) (h2 : advance c r (.days n) bdc' eom' = .ok s) :
    advance c d (.days (m + n)) bdc'' eom'' = .ok s := by
  rcases hmn with ⟨hm, hn⟩ | ⟨hm, hn⟩
  · have hv := (C09_valid (by omega) hd h1).1
    obtain ⟨a1, a2, a3, a4, a5⟩ := (C09_advance_forward_iff hm bdc eom hd).1 h1
    obtain ⟨b1, b2, b3, b4, b5⟩ := (C09_advance_forward_iff hn bdc' eom' hv).1 h2
    refine (C09_advance_forward_iff (by omega) bdc'' eom'' hd).2
      ⟨b1, by omega, b3, fun x h3 h4 => ?_, ?_⟩
    · rcases le_or_gt x r with h5 | h5
      · exact a4 x h3 h5
      · exact b4 x (by omega) h4
    · rw [openCount_Ioc_split (b := r) (by omega) (by omega)]; push_cast; omega
  · have hv := (C09_valid (by omega) hd h1).1
    obtain ⟨a1, a2, a3, a4, a5⟩ := (C09_advance_backward_iff hm bdc eom hd).1 h1
    obtain ⟨b1, b2, b3, b4, b5⟩ := (C09_advance_backward_iff hn bdc' eom' hv).1 h2
    refine (C09_advance_backward_iff (by omega) bdc'' eom'' hd).2
      ⟨b1, by omega, b3, fun x h3 h4 => ?_, ?_⟩
    · rcases lt_or_ge x r with h5 | h5
      · exact b4 x h3 (by omega)
      · exact a4 x h5 h4
    · rw [openCount_Ico_split (b := r) (by omega) (by omega)]; push_cast; omega

/-- From a business day, steps in any directions compose (also when the total is
zero, for which any convention leaves the business day alone). -/
theorem C09_compose {m n : Int} (hm : m ≠ 0) (hn : n ≠ 0)
    (bdc bdc' bdc'' : Bdc) (eom eom' eom'' : Bool) (hd : Valid d) (ho : c d = .ok true) {s : Int}
    (h1 : advance c d (.days m) bdc eom = .ok r) (h2 : advance c r (.days n) bdc' eom' = .ok s) :
    advance c d (.days (m + n)) bdc'' eom'' = .ok s := by
  obtain ⟨hvr, hor⟩ := C09_valid hm hd h1
  obtain ⟨hvs, hos⟩ := C09_valid hn hvr h2
  rcases lt_or_gt_of_ne hm with hm' | hm' <;> rcases lt_or_gt_of_ne hn with hn' | hn'
  · exact C09_compose_same_sign (Or.inr ⟨hm', hn'⟩) bdc bdc' bdc'' eom eom' eom'' hd h1 h2
  · -- down then up
    obtain ⟨a1, a2, a3, a4, a5⟩ := (C09_advance_backward_iff hm' bdc eom hd).1 h1
    obtain ⟨b1, b2, b3, b4, b5⟩ := (C09_advance_forward_iff hn' bdc' eom' hvr).1 h2
    rw [← openCount_shift a2.le a3 ho] at a5
    rcases lt_trichotomy s d with h | h | h
    · have hc := openCount_Ioc_split (c := c) (a := r) (b := s) (e := d) b2.le h.le
      have hpos : 0 < openCount c (Finset.Ioc s d) := by
        unfold openCount; rw [Finset.card_pos]; exact ⟨d, by simp [ho, h]⟩
      refine (C09_advance_backward_iff (by omega) bdc'' eom'' hd).2
        ⟨hvs.1, h, hos, fun x h3 h4 => a4 x (by omega) h4, ?_⟩
      rw [← openCount_shift h.le hos ho]; omega
    · subst h
      have : m + n = 0 := by omega
      rw [this, advance]
      simp only [if_true]
      exact C05_business_day_fixed hd ho bdc''
    · have hc := openCount_Ioc_split (c := c) (a := r) (b := d) (e := s) a2.le h.le
      have hpos : 0 < openCount c (Finset.Ioc d s) := by
        unfold openCount; rw [Finset.card_pos]; exact ⟨s, by simp [hos, h]⟩
      refine (C09_advance_forward_iff (by omega) bdc'' eom'' hd).2
        ⟨hvs.2, h, hos, fun x h3 h4 => b4 x (by omega) h4, by omega⟩
  · -- up then down
    obtain ⟨a1, a2, a3, a4, a5⟩ := (C09_advance_forward_iff hm' bdc eom hd).1 h1
    obtain ⟨b1, b2, b3, b4, b5⟩ := (C09_advance_backward_iff hn' bdc' eom' hvr).1 h2
    rw [← openCount_shift b2.le hos hor] at b5
    rcases lt_trichotomy s d with h | h | h
    · have hc := openCount_Ioc_split (c := c) (a := s) (b := d) (e := r) h.le a2.le
      have hpos : 0 < openCount c (Finset.Ioc s d) := by
        unfold openCount; rw [Finset.card_pos]; exact ⟨d, by simp [ho, h]⟩
      refine (C09_advance_backward_iff (by omega) bdc'' eom'' hd).2
        ⟨hvs.1, h, hos, fun x h3 h4 => b4 x (by omega) (by omega), ?_⟩
      rw [← openCount_shift h.le hos ho]; omega
    · subst h
      have : m + n = 0 := by omega
      rw [this, advance]
      simp only [if_true]
      exact C05_business_day_fixed hd ho bdc''
    · have hc := openCount_Ioc_split (c := c) (a := d) (b := s) (e := r) h.le b2.le
      have hpos : 0 < openCount c (Finset.Ioc d s) := by
        unfold openCount; rw [Finset.card_pos]; exact ⟨s, by simp [hos, h]⟩
      refine (C09_advance_forward_iff (by omega) bdc'' eom'' hd).2
        ⟨hvs.2, h, hos, fun x h3 h4 => a4 x (by omega) (by omega), by omega⟩
  · exact C09_compose_same_sign (Or.inl ⟨hm', hn'⟩) bdc bdc' bdc'' eom eom' eom'' hd h1 h2

/-- Ten business days after Thursday 28 September 2023, and back. -/
example : advance weekendsOnly (ymd 2023 9 28) (.days 10) .following false = .ok (ymd 2023 10 12) ∧
    advance weekendsOnly (ymd 2023 10 12) (.days (-10)) .following false = .ok (ymd 2023 9 28) := by
  decide +kernel

example : advance weekendsOnly (ymd 2023 10 12) (.days (-10)) .nearest true = .ok (ymd 2023 9 28) :=
  C09_round_trip (by decide) .following .nearest false true (by decide +kernel) (by decide +kernel)
    (by decide +kernel)

/-! ## C11 End of month -/

/-- `last_day_of_month` is the greatest day of the month (except in the last
representable year). -/
theorem C11_lastDayOfMonth (hd : Valid d) (hy : yearOf d < 262142) :
    ∃ e, lastDayOfMonth d = .ok e ∧ IsGreatest {x | SameMonth x d} e :=
  ⟨monthEnd d, lastDayOfMonth_ok hd hy, sameMonth_monthEnd d, fun _ hx => le_monthEnd hx⟩

/-- In the last representable year it panics, in every month. -/
theorem C11_lastDayOfMonth_last_year_panics (hy : yearOf d = 262142) :
    lastDayOfMonth d = .panic ∧ endOfMonth c d = .panic := by
  refine ⟨lastDayOfMonth_panic hy, ?_⟩
  simp [endOfMonth, lastDayOfMonth_panic hy]

/-- `end_of_month` is the last business day of the month, whenever the month
contains one. -/
theorem C11_endOfMonth {o : Int} (hd : Valid d) (hy : yearOf d < 262142)
    (ho : SameMonth o d) (hopen : c o = .ok true) (hcl : ClassifiedOn c o (monthEnd d)) :
    ∃ e, endOfMonth c d = .ok e ∧ LastOpenOfMonth c d e := by
  obtain ⟨p, hp, hpo⟩ := exists_lastOpen (c := c) (le_monthEnd ho) hopen hcl
  have hple := hp.le
  have hs : SameMonth p d :=
    ((ho.trans (sameMonth_monthEnd d).symm).between hpo hple).trans ho
  have hv := valid_of_sameMonth hs hd
  refine ⟨p, ?_, hs, hp.isOpen, fun x hx hxo => ?_⟩
  · simp only [endOfMonth, lastDayOfMonth_ok hd hy, ok_bind]
    exact rollBack_ok.2 ⟨hp, hv.1⟩
  · by_contra hlt
    have := hp.closed x (by omega) (le_monthEnd hx)
    rw [this] at hxo; cases hxo

/-- Conversely a result that lies in the month is its last business day, and a
result outside the month means that the month had none. -/
theorem C11_endOfMonth_sound (hd : Valid d) {e : Int} (h : endOfMonth c d = .ok e) :
    c e = .ok true ∧
    (SameMonth e d → LastOpenOfMonth c d e) ∧
    (¬ SameMonth e d → ∀ x, SameMonth x d → c x = .ok false) := by
  have hy : yearOf d < 262142 := by
    rw [valid_iff_year] at hd
    rcases eq_or_lt_of_le hd.2 with h' | h'
    · rw [(C11_lastDayOfMonth_last_year_panics (c := c) h').2] at h; cases h
    · exact h'
  simp only [endOfMonth, lastDayOfMonth_ok hd hy, ok_bind] at h
  obtain ⟨hp, _⟩ := rollBack_ok.1 h
  have hle := hp.le
  refine ⟨hp.isOpen, fun hs => ⟨hs, hp.isOpen, fun x hx hxo => ?_⟩, fun hs x hx => ?_⟩
  · by_contra hlt
    have := hp.closed x (by omega) (le_monthEnd hx)
    rw [this] at hxo; cases hxo
  · refine hp.closed x ?_ (le_monthEnd hx)
    by_contra hlt
    exact hs (((hx.trans (sameMonth_monthEnd d).symm).between (x := e) (by omega) hle).trans hx)

/-- September 2023 ends on a Saturday: last day the 30th, last business day the
29th. -/
example : lastDayOfMonth (ymd 2023 9 4) = .ok (ymd 2023 9 30) ∧
    endOfMonth weekendsOnly (ymd 2023 9 4) = .ok (ymd 2023 9 29) ∧
    lastDayOfMonth (ymd 2024 2 4) = .ok (ymd 2024 2 29) ∧
    lastDayOfMonth (ymd 2024 12 4) = .ok (ymd 2024 12 31) ∧
    lastDayOfMonth (ymd 262142 3 4) = .panic := by
  decide +kernel

example : ∃ e, endOfMonth weekendsOnly (ymd 2023 9 4) = .ok e ∧
    LastOpenOfMonth weekendsOnly (ymd 2023 9 4) e :=
  C11_endOfMonth (o := ymd 2023 9 6) (by decide +kernel) (by decide +kernel)
    ⟨by decide +kernel, by decide +kernel⟩ (by decide +kernel)
    (fun x _ _ => by unfold weekendsOnly; cases isWeekend x <;> simp)

/-! ## C10 Advancing by months and years -/

/-- Without the end-of-month flag: add the months (clamping the day), then
adjust. -/
theorem C10_advance_months_iff {n : Nat} (bdc : Bdc) :
    advance c d (.months n) bdc false = .ok r ↔
      ∃ u, MonthsLater d n u ∧ Valid u ∧ adjust c u bdc = .ok r := by
  simp only [advance, addPeriod, bind_eq_ok, addMonths_ok]
  constructor
  · rintro ⟨u, ⟨h1, h2⟩, a, h3, h4⟩
    simp only [Bool.false_eq_true, if_false, ok.injEq] at h4
    subst h4
    exact ⟨u, h1, h2, h3⟩
  · rintro ⟨u, h1, h2, h3⟩
    exact ⟨u, ⟨h1, h2⟩, r, h3, by simp⟩

theorem C10_advance_years_iff {n : Nat} (hn : n * 12 ≤ 4294967295) (bdc : Bdc) :
    advance c d (.years n) bdc false = .ok r ↔
      ∃ u, MonthsLater d (12 * n) u ∧ Valid u ∧ adjust c u bdc = .ok r := by
  have e : checkU32 (n * 12) = .ok (n * 12) := by simp [checkU32, hn]
  simp only [advance, addPeriod, e, ok_bind, bind_eq_ok, addMonths_ok]
  push_cast
  rw [mul_comm (n : Int) 12]
  constructor
  · rintro ⟨u, ⟨h1, h2⟩, a, h3, h4⟩
    simp only [Bool.false_eq_true, if_false, ok.injEq] at h4
    subst h4
    exact ⟨u, h1, h2, h3⟩
  · rintro ⟨u, h1, h2, h3⟩
    exact ⟨u, ⟨h1, h2⟩, r, h3, by simp⟩

/-- With the end-of-month flag the result is the last business day of the month of
the adjusted date `a` (whenever that month has a business day; `o` is one). -/
theorem C10_advance_months_eom {n : Nat} {bdc : Bdc} {a o : Int} (hbdc : bdc ≠ .nearest)
    (ha : advance c d (.months n) bdc false = .ok a) (hy : yearOf a < 262142)
    (ho : SameMonth o a) (hopen : c o = .ok true) (hcl : ClassifiedOn c o (monthEnd a)) :
    ∃ e, advance c d (.months n) bdc true = .ok e ∧ LastOpenOfMonth c a e := by
  have ha' := ha
  rw [C10_advance_months_iff] at ha
  obtain ⟨u, h1, h2, h3⟩ := ha
  obtain ⟨e, he, hl⟩ := C11_endOfMonth (C05_result_valid bdc hbdc h2 h3) hy ho hopen hcl
  refine ⟨e, ?_, hl⟩
  have e1 : addMonths d n = .ok u := addMonths_ok.2 ⟨h1, h2⟩
  simp only [advance, addPeriod, e1, ok_bind, h3, if_true]
  exact he

/-- 31 January 2024 plus one month is 29 February; with the flag and four more
months, Sunday 30 June is the month end, last business day Friday 28. -/
example : advance weekendsOnly (ymd 2024 1 31) (.months 1) .modifiedFollowing false
      = .ok (ymd 2024 2 29) ∧
    advance weekendsOnly (ymd 2024 1 31) (.months 5) .modifiedFollowing true
      = .ok (ymd 2024 6 28) ∧
    advance weekendsOnly (ymd 2024 2 29) (.years 1) .modifiedFollowing false
      = .ok (ymd 2025 2 28) := by
  decide +kernel

/-- The flag moves any date to the month end, not only month-end dates. -/
theorem C10_eom_flag_moves_mid_month_dates :
    advance weekendsOnly (ymd 2024 1 10) (.months 1) .modifiedFollowing true
      = .ok (ymd 2024 2 29) := by
  decide +kernel

/-! ## C12 Counting business days -/

theorem countLoop_ok (c : Cal) (n : Nat) (d : Int) (hmax : d + n ≤ maxDay)
    (hcl : ∀ x, d ≤ x → x < d + n → c x = .ok true ∨ c x = .ok false) :
    countLoop c n d = .ok (openCount c (Finset.Ico d (d + n)) : Int) := by
  induction n generalizing d with
  | zero => simp [countLoop, openCount]
  | succ n ih =>
    push_cast at hmax hcl
    have hlt : d < maxDay := by omega
    rw [countLoop]
    simp only [hlt, if_true]
    have e := ih (d + 1) (by omega) (fun x h1 h2 => hcl x (by omega) (by omega))
    have hs := openCount_Ico_split (c := c) (a := d) (b := d + 1) (e := d + (n + 1))
      (by omega) (by omega)
    have h1 : Finset.Ico d (d + 1) = {d} := by
      ext x; simp only [Finset.mem_Ico, Finset.mem_singleton]; omega
    rw [h1] at hs
    rw [show d + 1 + (n : Int) = d + (n + 1) by omega] at e
    rcases hcl d le_rfl (by omega) with h | h
    · have hc : openCount c {d} = 1 := by
        unfold openCount; rw [Finset.filter_singleton, if_pos h]; simp
      simp only [h, ok_bind, e, if_true]
      push_cast
      rw [hs, hc]; push_cast; rfl
    · have hc : openCount c {d} = 0 := by
        unfold openCount; rw [Finset.filter_singleton, if_neg (by simp [h])]; simp
      simp only [h, ok_bind, e, Bool.false_eq_true, if_false]
      push_cast
      rw [hs, hc]; push_cast; rfl

/-- What the function really counts, for `from < to`: the open days of the
half-open interval that starts one day *later* when `include_first` is set.  This
is the documented count with the meaning of `include_first` inverted. -/
theorem C12_count_partial {a b : Int} (ha : minDay ≤ a) (hab : a < b) (hb : b < maxDay)
    (fst lst : Bool) (hcl : ClassifiedOn c a b) :
    businessDaysBetween c a b fst lst =
      .ok (openCount c (Finset.Ico (a + if fst then 1 else 0) (b + if lst then 1 else 0)) : Int) := by
  have h1 : ¬ a > b := by omega
  have hv1 : Valid (b + if lst then 1 else 0) := by unfold Valid; split <;> omega
  have hv2 : Valid (a + if fst then 1 else 0) := by unfold Valid; split <;> omega
  simp only [businessDaysBetween, h1, if_false, bdbOrdered, addDays, hv1, hv2, if_true, ok_bind]
  set hi := b + (if lst then 1 else 0 : Int) with hhi
  set lo := a + (if fst then 1 else 0 : Int) with hlo
  have hr : lo ≤ hi ∧ a ≤ lo ∧ hi ≤ maxDay ∧ lo ≤ a + 1 ∧ hi ≤ b + 1 := by
    rw [hhi, hlo]; refine ⟨?_, ?_, ?_, ?_, ?_⟩ <;> (try split) <;> (try split) <;> omega
  have hmaxmin : maxDay - minDay < 18446744073709551616 := by decide +kernel
  have hus : asUsize (hi - lo) = (hi - lo).toNat := by
    unfold asUsize
    rw [Int.emod_eq_of_lt (by omega) (by omega)]
  rw [hus, countLoop_ok c _ lo (by omega) (fun x h2 h3 => hcl x (by omega) (by omega))]
  rw [show lo + ((hi - lo).toNat : Int) = hi by omega]

/-- Swapping the dates negates the result. -/
theorem C12_swap {a b : Int} (hab : a ≠ b) (fst lst : Bool) {n : Int}
    (h : businessDaysBetween c a b fst lst = .ok n) :
    businessDaysBetween c b a fst lst = .ok (-n) := by
  unfold businessDaysBetween at *
  rcases lt_or_gt_of_ne hab with h1 | h1
  · rw [if_neg (by omega)] at h
    rw [if_pos (by omega), h]; rfl
  · rw [if_pos (by omega), map_eq_ok] at h
    obtain ⟨m, hm, rfl⟩ := h
    rw [if_neg (by omega), hm]
    simp

/-- Refutation: with the default flags (first day included, last excluded) the
count from Monday 2 to Tuesday 3 October 2023 is 0, although Monday is a business
day. -/
theorem C12_include_first_false :
    weekendsOnly (ymd 2023 10 2) = .ok true ∧
    businessDaysBetween weekendsOnly (ymd 2023 10 2) (ymd 2023 10 3) true false = .ok 0 ∧
    businessDaysBetween weekendsOnly (ymd 2023 10 2) (ymd 2023 10 3) false false = .ok 1 := by
  decide +kernel

/-- Consequence: with the default flags counts over adjacent intervals do not add
up; the common end point is lost. -/
theorem C12_not_additive_false :
    businessDaysBetween weekendsOnly (ymd 2023 10 2) (ymd 2023 10 4) true false = .ok 1 ∧
    businessDaysBetween weekendsOnly (ymd 2023 10 2) (ymd 2023 10 3) true false = .ok 0 ∧
    businessDaysBetween weekendsOnly (ymd 2023 10 3) (ymd 2023 10 4) true false = .ok 0 := by
  decide +kernel

/-- The loop counter is bounded by the end of the date range. -/
theorem countLoop_saturates (c : Cal) (n : Nat) (d : Int) (hn : maxDay - d ≤ n) :
    countLoop c n d = countLoop c (maxDay - d).toNat d := by
  induction n generalizing d with
  | zero =>
    have : (maxDay - d).toNat = 0 := by omega
    rw [this]
  | succ n ih =>
    by_cases h : d < maxDay
    · obtain ⟨k, hk⟩ : ∃ k, (maxDay - d).toNat = k + 1 := ⟨(maxDay - d).toNat - 1, by omega⟩
      have e := ih (d + 1) (by push_cast at hn; omega)
      have hk' : (maxDay - (d + 1)).toNat = k := by omega
      rw [hk, countLoop, countLoop, e, hk']
    · have : (maxDay - d).toNat = 0 := by omega
      rw [this, countLoop, countLoop]
      simp [h]

/-- Equal dates with the default flags do not give 0: the (negative) day count is
reinterpreted as a huge `usize` and every business day up to the end of the
representable range is counted. -/
theorem C12_equal_dates_false {a : Int} (ha : minDay ≤ a) (hb : a < maxDay)
    (hcl : ClassifiedOn c a maxDay) :
    businessDaysBetween c a a true false =
      .ok (openCount c (Finset.Ico (a + 1) maxDay) : Int) := by
  have hv1 : Valid (a + 0) := by unfold Valid; omega
  have hv2 : Valid (a + 1) := by unfold Valid; omega
  have hus : asUsize (a + 0 - (a + 1)) = 18446744073709551615 := by
    unfold asUsize
    rw [show a + 0 - (a + 1) = -1 by omega]; rfl
  have hmm : maxDay - minDay < 18446744073709551615 := by decide +kernel
  simp only [businessDaysBetween, gt_iff_lt, lt_irrefl, if_false, bdbOrdered, addDays,
    Bool.false_eq_true, if_true, hv1, hv2, ok_bind]
  rw [hus, countLoop_saturates c _ _ (by push_cast; omega),
    countLoop_ok c _ _ (by omega) (fun x h1 h2 => hcl x (by omega) (by omega))]
  rw [show a + 1 + ((maxDay - (a + 1)).toNat : Int) = maxDay by omega]

/-- September 2023 has 21 business days. -/
example : businessDaysBetween weekendsOnly (ymd 2023 9 1) (ymd 2023 9 30) false true = .ok 21 ∧
    businessDaysBetween weekendsOnly (ymd 2023 9 30) (ymd 2023 9 1) false true = .ok (-21) := by
  decide +kernel

end Verif
