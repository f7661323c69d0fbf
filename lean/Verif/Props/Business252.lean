import Verif.Props.DayCount
import Verif.Props.Shipped

/-!
# C28, continued: Business/252 across months
-/

namespace Verif

open Outcome

variable {c : Cal} {d d1 d2 : Int}

/-- The first days of months from `a` (inclusive) to `b` (exclusive). -/
def monthStarts (a b : Int) : Finset Int := (Finset.Ico a b).filter fun x => dayOf x = 1

/-- The first day of the next month. -/
theorem next_month_start (h1 : dayOf d = 1) (hm : monthIndex d < monthIndex d2) (hv : Valid d2) (hd : minDay ≤ d) :
    ∃ r, addPeriod d (.months 1) = .ok r ∧ dayOf r = 1 ∧ monthIndex r = monthIndex d + 1 ∧ d < r ∧ r ≤ d2 := by
  obtain ⟨r, hr⟩ := MonthsLater.exists d 1
  have hl := monthLen_pos (yearOf r) (monthOf r)
  have hday : dayOf r = 1 := by rw [hr.day, h1]; omega
  have hidx : monthIndex r = monthIndex d + 1 := by
    have := hr.month
    unfold monthIndex
    omega
  have hlt : d < r := by
    by_contra hc
    have := monthIndex_mono (show r ≤ d by omega)
    omega
  have hle : r ≤ d2 := by
    rcases eq_or_lt_of_le (show monthIndex r ≤ monthIndex d2 by omega) with h | h
    · have := dayOf_sub h
      have := (dayOf_bounds d2).1
      omega
    · by_contra hc
      have := monthIndex_mono (show d2 ≤ r by omega)
      omega
  refine ⟨r, ?_, hday, hidx, hlt, hle⟩
  exact addMonths_ok.2 ⟨hr, by omega, by have := hv.2; omega⟩

theorem monthStarts_step {r e : Int} (h1 : dayOf d = 1) (hr : dayOf r = 1)
    (hi : monthIndex r = monthIndex d + 1) (hdr : d < r) (hre : r ≤ e) :
    monthStarts d e = insert d (monthStarts r e) ∧ d ∉ monthStarts r e := by
  constructor
  · ext x
    simp only [monthStarts, Finset.mem_filter, Finset.mem_Ico, Finset.mem_insert]
    constructor
    · rintro ⟨⟨a1, a2⟩, a3⟩
      by_cases hx : r ≤ x
      · exact Or.inr ⟨⟨hx, a2⟩, a3⟩
      · left
        have m1 := monthIndex_mono a1
        have m2 := monthIndex_mono (show x ≤ r by omega)
        rcases (show monthIndex x = monthIndex d ∨ monthIndex x = monthIndex r by omega) with h | h
        · have := dayOf_sub h; omega
        · have := dayOf_sub h; omega
    · rintro (rfl | ⟨⟨a1, a2⟩, a3⟩)
      · exact ⟨⟨le_refl _, by omega⟩, h1⟩
      · exact ⟨⟨by omega, a2⟩, a3⟩
  · simp only [monthStarts, Finset.mem_filter, Finset.mem_Ico]
    omega

theorem bdb_open (hd : minDay ≤ d) (h : d < d2) (h2 : d2 < maxDay) (hcl : ClassifiedOn c d d2) :
    businessDaysBetween c d d2 true false = .ok (openCount c (Finset.Ioo d d2) : Int) := by
  rw [C12_count_partial hd h h2 true false hcl]
  have : Finset.Ico (d + 1) (d2 + 0) = Finset.Ioo d d2 := by
    ext x; simp only [Finset.mem_Ico, Finset.mem_Ioo]; omega
  simp only [if_true, Bool.false_eq_true, if_false]
  rw [this]

theorem sameMonthB_iff (a b : Int) : sameMonthB a b = true ↔ monthIndex a = monthIndex b := by
  rw [← sameMonth_iff]
  simp [sameMonthB, SameMonth]

/-- The loop over the months adds, for every first day of a month before the last one, the open days
up to the end date. -/
theorem b252Loop_eq (hv : Valid d2) (h2 : d2 < maxDay) {o : Outcome Int}
    (ho : businessDaysBetween c (monthBegin d2) d2 true false = o) (n : Nat) :
    ∀ (fuel : Nat) (d t : Int), dayOf d = 1 → minDay ≤ d → d ≤ d2 → monthIndex d2 - monthIndex d = n →
      n < fuel → ClassifiedOn c d d2 →
      b252Loop c d2 fuel d t =
        (o >>= fun e => .ok (t + ∑ m ∈ monthStarts d (monthBegin d2), (openCount c (Finset.Ioo m d2) : Int) + e)) := by
  have hmb : monthIndex (monthBegin d2) = monthIndex d2 := sameMonth_iff.1 (sameMonth_monthBegin d2)
  have hdb : dayOf (monthBegin d2) = 1 := by
    rw [monthBegin_eq, dayOf_ymd (monthOf_bounds d2).1 (monthOf_bounds d2).2 (le_refl _)
      (by have := monthLen_pos (yearOf d2) (monthOf d2); omega)]
  have hble : monthBegin d2 ≤ d2 := monthBegin_le (SameMonth.refl d2)
  induction n with
  | zero =>
    intro fuel d t h1 hd hdd hi hf hcl
    obtain ⟨k, rfl⟩ : ∃ k, fuel = k + 1 := ⟨fuel - 1, by omega⟩
    have e : d = monthBegin d2 := by
      have : monthIndex d = monthIndex (monthBegin d2) := by omega
      have := dayOf_sub this
      omega
    subst e
    have hs : sameMonthB (monthBegin d2) d2 = true := (sameMonthB_iff _ _).2 hmb
    have hempty : monthStarts (monthBegin d2) (monthBegin d2) = ∅ := by simp [monthStarts]
    rw [b252Loop, ho, hempty]
    rcases o with e | e | _
    · simp only [ok_bind, hs, if_true, Finset.sum_empty, add_zero]
    · rfl
    · rfl
  | succ n ih =>
    intro fuel d t h1 hd hdd hi hf hcl
    obtain ⟨k, rfl⟩ : ∃ k, fuel = k + 1 := ⟨fuel - 1, by omega⟩
    have hlt : d < d2 := by
      rcases eq_or_lt_of_le hdd with h | h
      · subst h; omega
      · exact h
    obtain ⟨r, a1, a2, a3, a4, a5⟩ := next_month_start h1 (show monthIndex d < monthIndex d2 by omega) hv hd
    have hs : ¬ sameMonthB d d2 = true := by rw [sameMonthB_iff]; omega
    have hrb : r ≤ monthBegin d2 := by
      by_contra hc
      have := monthIndex_mono (show monthBegin d2 ≤ r by omega)
      have e : monthIndex (monthBegin d2) = monthIndex r := by
        have := monthIndex_mono a5; omega
      have := dayOf_sub e
      omega
    rw [b252Loop, bdb_open hd hlt h2 hcl, ok_bind, if_neg hs, a1, ok_bind,
      ih k r _ a2 (by omega) a5 (by omega) (by omega) (fun x b1 b2 => hcl x (by omega) b2)]
    obtain ⟨s1, s2⟩ := monthStarts_step h1 a2 a3 a4 hrb
    rw [s1, Finset.sum_insert s2]
    congr 1
    funext e
    congr 1
    ring

/-- The months between two representable dates. -/
theorem monthIndex_sub_lt (h1 : Valid d1) (h2 : Valid d2) : monthIndex d2 - monthIndex d1 < 6399999 := by
  have a := (valid_iff_year d1).1 h1
  have b := (valid_iff_year d2).1 h2
  have := monthOf_bounds d1
  have := monthOf_bounds d2
  unfold monthIndex
  omega

/-- What the counter does across months, `o` being its last count (within the last month). -/
theorem b252_across (hd : minDay ≤ d1) (h2 : d2 < maxDay) (hm : monthIndex d1 < monthIndex d2)
    (hcl : ClassifiedOn c d1 d2) {o : Outcome Int}
    (ho : businessDaysBetween c (monthBegin d2) d2 true false = o) :
    ∃ m1, dayOf m1 = 1 ∧ d1 < m1 ∧ m1 ≤ monthBegin d2 ∧ (∀ x, d1 < x → x < m1 → dayOf x ≠ 1) ∧
      b252DayCount c d1 d2 = (o >>= fun e => .ok ((openCount c (Finset.Ioo d1 m1) : Int)
        + ∑ m ∈ monthStarts m1 (monthBegin d2), (openCount c (Finset.Ioo m d2) : Int) + e)) := by
  have hlt : d1 < d2 := by
    by_contra hc
    have := monthIndex_mono (show d2 ≤ d1 by omega)
    omega
  have hv2 : Valid d2 := ⟨by omega, by omega⟩
  have hv1 : Valid d1 := ⟨hd, by omega⟩
  have hs : ¬ sameMonthB d1 d2 = true := by rw [sameMonthB_iff]; omega
  have hmb : monthIndex (monthBegin d1) = monthIndex d1 := sameMonth_iff.1 (sameMonth_monthBegin d1)
  have hdb : dayOf (monthBegin d1) = 1 := by
    rw [monthBegin_eq, dayOf_ymd (monthOf_bounds d1).1 (monthOf_bounds d1).2 (le_refl _)
      (by have := monthLen_pos (yearOf d1) (monthOf d1); omega)]
  have hble : monthBegin d1 ≤ d1 := monthBegin_le (SameMonth.refl d1)
  have hvb : Valid (monthBegin d1) := valid_of_sameMonth (sameMonth_monthBegin d1) hv1
  have hfirst : fromYmdOpt (yearOf d1) (monthOf d1) 1 = some (monthBegin d1) :=
    fromYmdOpt_eq_some.2 ⟨hvb, (sameMonth_monthBegin d1).1, (sameMonth_monthBegin d1).2, hdb⟩
  obtain ⟨m1, a1, a2, a3, a4, a5⟩ := next_month_start hdb (show monthIndex (monthBegin d1) < monthIndex d2 by omega) hv2 hvb.1
  have hdm : d1 < m1 := by
    by_contra hc
    have := monthIndex_mono (show m1 ≤ d1 by omega)
    omega
  have hmb2 : monthIndex (monthBegin d2) = monthIndex d2 := sameMonth_iff.1 (sameMonth_monthBegin d2)
  have hdb2 : dayOf (monthBegin d2) = 1 := by
    rw [monthBegin_eq, dayOf_ymd (monthOf_bounds d2).1 (monthOf_bounds d2).2 (le_refl _)
      (by have := monthLen_pos (yearOf d2) (monthOf d2); omega)]
  have hm1b : m1 ≤ monthBegin d2 := by
    by_contra hc
    have h3 := monthIndex_mono (show monthBegin d2 ≤ m1 by omega)
    have h4 := monthIndex_mono a5
    have := dayOf_sub (show monthIndex (monthBegin d2) = monthIndex m1 by omega)
    omega
  refine ⟨m1, a2, hdm, hm1b, ?_, ?_⟩
  · intro x b1 b2 b3
    have m1' := monthIndex_mono b1.le
    have m2' := monthIndex_mono b2.le
    rcases (show monthIndex x = monthIndex (monthBegin d1) ∨ monthIndex x = monthIndex m1 by omega) with h | h
    · have := dayOf_sub h; omega
    · have := dayOf_sub h; omega
  · have hle := monthIndex_sub_lt (show Valid m1 from ⟨by omega, by omega⟩) hv2
    have hge := monthIndex_mono a5
    unfold b252DayCount
    rw [if_neg (by rw [not_or]; exact ⟨hs, by omega⟩), hfirst]
    simp only [unwrap, ok_bind]
    rw [a1, ok_bind, bdb_open hd hdm (by omega) (fun x b1 b2 => hcl x b1 (by omega)), ok_bind,
      b252Loop_eq hv2 h2 ho (monthIndex d2 - monthIndex m1).toNat 6400000 m1 _ a2 (by omega) a5 (by omega)
        (by omega) (fun x b1 b2 => hcl x (by omega) b2)]

/-- The count runs into a date on which the calendar panics. -/
theorem countLoop_panic {x : Int} (hx : x < maxDay) (hp : c x = .panic) (n : Nat) :
    ∀ d : Int, d ≤ x → x < d + n → (∀ y, d ≤ y → y < x → c y = .ok true ∨ c y = .ok false) →
      countLoop c n d = .panic := by
  induction n with
  | zero => intro d h1 h2; exfalso; push_cast at h2; omega
  | succ n ih =>
    intro d h1 h2 hcl
    push_cast at h2
    have hlt : d < maxDay := by omega
    rw [countLoop]
    simp only [hlt, if_true]
    rcases eq_or_lt_of_le h1 with h | h
    · subst h; rw [hp]; rfl
    · have e := ih (d + 1) (by omega) (by omega) (fun y b1 b2 => hcl y (by omega) b2)
      rcases hcl d le_rfl h with g | g <;> rw [g, ok_bind, e] <;> rfl

theorem bdb_equal {a : Int} (ha : minDay ≤ a) (hb : a < maxDay) :
    businessDaysBetween c a a true false = countLoop c (maxDay - (a + 1)).toNat (a + 1) := by
  have hv1 : Valid (a + 0) := by unfold Valid; omega
  have hv2 : Valid (a + 1) := by unfold Valid; omega
  have hus : asUsize (a + 0 - (a + 1)) = 18446744073709551615 := by
    unfold asUsize
    rw [show a + 0 - (a + 1) = -1 by omega]; rfl
  have hmm : maxDay - minDay < 18446744073709551615 := by decide +kernel
  simp only [businessDaysBetween, gt_iff_lt, lt_irrefl, if_false, bdbOrdered, addDays,
    Bool.false_eq_true, if_true, hv1, hv2, ok_bind]
  rw [hus, countLoop_saturates c _ _ (by push_cast; omega)]

theorem monthBegin_of_first (h : dayOf d = 1) : monthBegin d = d := by
  have e : monthIndex (monthBegin d) = monthIndex d := sameMonth_iff.1 (sameMonth_monthBegin d)
  have hdb : dayOf (monthBegin d) = 1 := by
    rw [monthBegin_eq, dayOf_ymd (monthOf_bounds d).1 (monthOf_bounds d).2 (le_refl _)
      (by have := monthLen_pos (yearOf d) (monthOf d); omega)]
  have := dayOf_sub e
  omega

theorem monthIndex_lt_of_not_same (h : d1 < d2) (hs : ¬ SameMonth d1 d2) : monthIndex d1 < monthIndex d2 := by
  have := monthIndex_mono h.le
  have : monthIndex d1 ≠ monthIndex d2 := fun e => hs (sameMonth_iff.2 e)
  omega

/-- **What is counted across months.**  With `m₁` the first day of the month after `d1`: the open days
strictly between `d1` and `m₁`, and then, for *every* first day `m` of a month up to `d2`, the open days
strictly between `m` and `d2` - so an open day is counted once for every month start before it. -/
theorem C28_exact (hd : minDay ≤ d1) (h2 : d2 < maxDay) (h : d1 < d2) (hs : ¬ SameMonth d1 d2)
    (hday : dayOf d2 ≠ 1) (hcl : ClassifiedOn c d1 d2) :
    ∃ m1, dayOf m1 = 1 ∧ d1 < m1 ∧ m1 < d2 ∧ (∀ x, d1 < x → x < m1 → dayOf x ≠ 1) ∧
      b252DayCount c d1 d2 = .ok ((openCount c (Finset.Ioo d1 m1) : Int)
        + ∑ m ∈ (Finset.Ioo d1 d2).filter (fun x => dayOf x = 1), (openCount c (Finset.Ioo m d2) : Int)) := by
  have hm := monthIndex_lt_of_not_same h hs
  have hmb : monthIndex (monthBegin d2) = monthIndex d2 := sameMonth_iff.1 (sameMonth_monthBegin d2)
  have hdb : dayOf (monthBegin d2) = 1 := by
    rw [monthBegin_eq, dayOf_ymd (monthOf_bounds d2).1 (monthOf_bounds d2).2 (le_refl _)
      (by have := monthLen_pos (yearOf d2) (monthOf d2); omega)]
  have hle : monthBegin d2 ≤ d2 := monthBegin_le (SameMonth.refl d2)
  have hlt : monthBegin d2 < d2 := by
    rcases eq_or_lt_of_le hle with e | e
    · rw [e] at hdb; exact absurd hdb hday
    · exact e
  have hlo : d1 < monthBegin d2 := by
    by_contra hc
    have := monthIndex_mono (show monthBegin d2 ≤ d1 by omega)
    omega
  obtain ⟨m1, a1, a2, a3, a4, a5⟩ := b252_across hd h2 hm hcl
    (bdb_open (c := c) (by omega) hlt h2 (fun x b1 b2 => hcl x (by omega) b2))
  refine ⟨m1, a1, a2, by omega, a4, ?_⟩
  rw [a5, ok_bind]
  have hset : (Finset.Ioo d1 d2).filter (fun x => dayOf x = 1) = insert (monthBegin d2) (monthStarts m1 (monthBegin d2)) := by
    ext x
    simp only [monthStarts, Finset.mem_filter, Finset.mem_Ioo, Finset.mem_Ico, Finset.mem_insert]
    constructor
    · rintro ⟨⟨b1, b2⟩, b3⟩
      by_cases hx : monthBegin d2 ≤ x
      · left
        have k1 := monthIndex_mono hx
        have k2 := monthIndex_mono b2.le
        have := dayOf_sub (show monthIndex x = monthIndex (monthBegin d2) by omega)
        omega
      · right
        refine ⟨⟨?_, by omega⟩, b3⟩
        by_contra hc
        exact a4 x b1 (by omega) b3
    · rintro (rfl | ⟨⟨b1, b2⟩, b3⟩)
      · exact ⟨⟨hlo, hlt⟩, hdb⟩
      · exact ⟨⟨by omega, by omega⟩, b3⟩
  have hnot : monthBegin d2 ∉ monthStarts m1 (monthBegin d2) := by
    simp only [monthStarts, Finset.mem_filter, Finset.mem_Ico]; omega
  rw [hset, Finset.sum_insert hnot]
  congr 1
  ring

/-- With one change of month only the first day of the period and the first day of the second month are
lost. -/
theorem C28_next_month {m1 : Int} (hd : minDay ≤ d1) (h2 : d2 < maxDay) (hm : dayOf m1 = 1) (h1 : d1 < m1)
    (h : m1 < d2) (honly : ∀ x, d1 < x → x < d2 → dayOf x = 1 → x = m1) (hday : dayOf d2 ≠ 1)
    (hcl : ClassifiedOn c d1 d2) :
    b252DayCount c d1 d2 = .ok ((openCount c (Finset.Ico d1 d2) : Int)
      - (if c d1 = .ok true then 1 else 0) - (if c m1 = .ok true then 1 else 0)) := by
  have hs : ¬ SameMonth d1 d2 := by
    intro e
    have k := sameMonth_iff.1 e
    have k1 := monthIndex_mono h1.le
    have k2 := monthIndex_mono h.le
    have := dayOf_sub (show monthIndex m1 = monthIndex d1 by omega)
    have := (dayOf_bounds d1).1
    omega
  obtain ⟨m, a1, a2, a3, a4, a5⟩ := C28_exact hd h2 (by omega) hs hday hcl
  obtain rfl : m = m1 := honly m a2 a3 a1
  have hset : (Finset.Ioo d1 d2).filter (fun x => dayOf x = 1) = {m} := by
    ext x
    simp only [Finset.mem_filter, Finset.mem_Ioo, Finset.mem_singleton]
    constructor
    · rintro ⟨⟨b1, b2⟩, b3⟩; exact honly x b1 b2 b3
    · rintro rfl; exact ⟨⟨a2, a3⟩, a1⟩
  rw [a5, hset, Finset.sum_singleton]
  have one (x : Int) : openCount c (Finset.Ico x (x + 1)) = if c x = .ok true then 1 else 0 := by
    have h1 : Finset.Ico x (x + 1) = {x} := by
      ext y; simp only [Finset.mem_Ico, Finset.mem_singleton]; omega
    rw [h1]
    unfold openCount; rw [Finset.filter_singleton]; split <;> simp
  have oo (a b : Int) : Finset.Ioo a b = Finset.Ico (a + 1) b := by
    ext y; simp only [Finset.mem_Ico, Finset.mem_Ioo]; omega
  have s1 := openCount_Ico_split (c := c) (a := d1) (b := d1 + 1) (e := d2) (by omega) (by omega)
  have s2 := openCount_Ico_split (c := c) (a := d1 + 1) (b := m) (e := d2) (by omega) (by omega)
  have s3 := openCount_Ico_split (c := c) (a := m) (b := m + 1) (e := d2) (by omega) (by omega)
  rw [oo, oo, s1, s2, s3, one, one]
  push_cast
  congr 1
  ring

/-- A period that ends on the first day of a month: every open day from there to the end of the
representable dates is added. -/
theorem C28_month_start_false (hd : minDay ≤ d1) (h2 : d2 < maxDay) (h : d1 < d2) (hday : dayOf d2 = 1)
    (hcl : ClassifiedOn c d1 maxDay) :
    ∃ n : Int, b252DayCount c d1 d2 = .ok n ∧ (openCount c (Finset.Ioo d2 maxDay) : Int) ≤ n := by
  have hs : ¬ SameMonth d1 d2 := by
    intro e
    have := dayOf_sub (sameMonth_iff.1 e)
    have := (dayOf_bounds d1).1
    omega
  have hm := monthIndex_lt_of_not_same h hs
  have hmb := monthBegin_of_first hday
  obtain ⟨m1, a1, a2, a3, a4, a5⟩ := b252_across hd h2 hm (fun x b1 b2 => hcl x b1 (by omega))
    (o := .ok (openCount c (Finset.Ico (d2 + 1) maxDay) : Int))
    (by rw [hmb]; exact C12_equal_dates_false (c := c) (by omega) h2 (fun x b1 b2 => hcl x (by omega) b2))
  rw [ok_bind] at a5
  refine ⟨_, a5, ?_⟩
  have e : Finset.Ico (d2 + 1) maxDay = Finset.Ioo d2 maxDay := by
    ext y; simp only [Finset.mem_Ico, Finset.mem_Ioo]; omega
  rw [e]
  have : (0 : Int) ≤ ∑ m ∈ monthStarts m1 (monthBegin d2), (openCount c (Finset.Ioo m d2) : Int) :=
    Finset.sum_nonneg fun i _ => Int.natCast_nonneg _
  omega

/-- The calendars that look up Easter panic instead, as their table ends in 2199: with them (Brazil among
them) Business/252 cannot be used for a period that ends on the first day of a month, nor for an empty
one. -/
theorem C28_easter_panic_false (s : Shipped) (he : s.usesEaster = true) (hw : s ≠ .poland (some .wse))
    (h1 : ymd 1901 1 1 ≤ d1) (h : d1 ≤ d2) (h2 : d2 ≤ ymd 2199 12 31) (hday : d1 = d2 ∨ dayOf d2 = 1) :
    b252DayCount s.cal d1 d2 = .panic := by
  have hmax : ymd 2200 1 1 < maxDay := by decide
  have hmin : minDay ≤ ymd 1901 1 1 := by decide
  have hy : ymd 2199 12 31 + 1 = ymd 2200 1 1 := by decide
  have hp : s.cal (ymd 2200 1 1) = .panic := C15_panics_outside s he hw (Or.inr (by decide))
  have hcl : ClassifiedOn s.cal d1 (ymd 2199 12 31) := shipped_classified s h1 (le_refl _)
  have hlast : businessDaysBetween s.cal d2 d2 true false = .panic := by
    rw [bdb_equal (by omega) (by omega)]
    exact countLoop_panic hmax hp _ _ (by omega) (by omega) (fun y b1 b2 => hcl y (by omega) (by omega))
  rcases eq_or_lt_of_le h with e | hlt
  · subst e
    have hs : sameMonthB d1 d1 = true := (sameMonthB_iff _ _).2 rfl
    rw [b252DayCount, if_pos (Or.inl hs), hlast]
  · have hday : dayOf d2 = 1 := hday.resolve_left (by omega)
    have hs : ¬ SameMonth d1 d2 := by
      intro e
      have := dayOf_sub (sameMonth_iff.1 e)
      have := (dayOf_bounds d1).1
      omega
    have hmb := monthBegin_of_first hday
    obtain ⟨m1, a1, a2, a3, a4, a5⟩ := b252_across (c := s.cal) (by omega) (by omega)
      (monthIndex_lt_of_not_same hlt hs) (fun x b1 b2 => hcl x b1 (by omega)) (o := .panic)
      (by rw [hmb]; exact hlast)
    rw [a5]; rfl

/-- From 1 September to 1 October 2023 there are 21 business days; the code counts more than ten
million. -/
theorem C28_september_false :
    (∃ n, b252DayCount weekendsOnly (ymd 2023 9 1) (ymd 2023 10 1) = .ok n ∧ 10000000 ≤ n) ∧
    openCount weekendsOnly (Finset.Ico (ymd 2023 9 1) (ymd 2023 10 1)) = 21 := by
  refine ⟨?_, by decide +kernel⟩
  obtain ⟨n, h1, h2⟩ := C28_month_start_false (c := weekendsOnly) (d1 := ymd 2023 9 1) (d2 := ymd 2023 10 1)
    (by decide) (by decide) (by decide) (by decide) (fun x _ _ => by
      unfold weekendsOnly; cases isWeekend x <;> simp)
  refine ⟨n, h1, le_trans ?_ h2⟩
  have hmon : (Finset.image (fun k : Nat => ymd 2023 10 2 + 7 * (k : Int)) (Finset.range 10000000)) ⊆
      (Finset.Ioo (ymd 2023 10 1) maxDay).filter (fun x => weekendsOnly x = .ok true) := by
    intro x hx
    simp only [Finset.mem_image, Finset.mem_range] at hx
    obtain ⟨k, hk, rfl⟩ := hx
    have e1 : ymd 2023 10 1 = ymd 2023 10 2 - 1 := by decide
    have e2 : ymd 2023 10 2 + 70000000 < maxDay := by decide
    have e3 : ymd 2023 10 2 % 7 = 1 := by decide
    simp only [Finset.mem_filter, Finset.mem_Ioo]
    refine ⟨by omega, ?_⟩
    have hw : isWeekend (ymd 2023 10 2 + 7 * (k : Int)) = false := by
      unfold isWeekend weekdayOf
      have : (ymd 2023 10 2 + 7 * (k : Int) - 1) % 7 = 0 := by omega
      simp [this]
    unfold weekendsOnly
    rw [hw]; rfl
  have hcard := Finset.card_le_card hmon
  rw [Finset.card_image_of_injective _ (fun a b hab => by simpa using hab), Finset.card_range] at hcard
  unfold openCount
  exact_mod_cast hcard

/-- From 15 September to 10 October 2023: the first day of the period, a Friday, is lost; the first day of
October, a Sunday, is not. -/
example : b252DayCount weekendsOnly (ymd 2023 9 15) (ymd 2023 10 10) = .ok 16 ∧
    openCount weekendsOnly (Finset.Ico (ymd 2023 9 15) (ymd 2023 10 10)) = 17 := by decide +kernel

/-- The hypotheses of `C28_exact` and `C28_next_month` are met by these dates. -/
example : minDay ≤ ymd 2023 9 15 ∧ ymd 2023 10 10 < maxDay ∧ ¬ SameMonth (ymd 2023 9 15) (ymd 2023 10 10) ∧
    dayOf (ymd 2023 10 10) ≠ 1 ∧ ClassifiedOn weekendsOnly (ymd 2023 9 15) (ymd 2023 10 10) ∧
    (Finset.Ioo (ymd 2023 9 15) (ymd 2023 10 10)).filter (fun x => dayOf x = 1) = {ymd 2023 10 1} := by
  refine ⟨by decide, by decide, ?_, by decide, fun x _ _ => by unfold weekendsOnly; cases isWeekend x <;> simp,
    by decide +kernel⟩
  intro e; revert e; unfold SameMonth; decide

/-- A Brazilian bond from 2 January 2024 to 1 January 2026. -/
example : b252DayCount (brazil (some .settlement)) (ymd 2024 1 2) (ymd 2026 1 1) = .panic :=
  C28_easter_panic_false (.brazil (some .settlement)) rfl (by decide) (by decide) (by decide) (by decide)
    (Or.inr (by decide))

end Verif
