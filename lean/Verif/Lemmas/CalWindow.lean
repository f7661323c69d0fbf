import Verif.Model.CalBase
import Verif.Spec.Shipped
import Verif.Lemmas.Date
import Verif.Props.Easter
import Verif.Lemmas.CalAttr
import Mathlib.Tactic.IntervalCases

/-! # Finding open days in the shipped calendars

Two tools.  `half_of_excl`: most calendars are open on every Wednesday (or
Tuesday) that is not one of a short list of fixed dates, and such Wednesdays
exist in every half-month.  `half_of_check`: for the years in which a calendar
has an explicit list of one-off holidays, a computation by the kernel. -/

namespace Verif

theorem condT (a b c : Bool) : (cond a b c = true) ↔ (a = true ∧ b = true) ∨ (a = false ∧ c = true) := by
  cases a <;> simp

theorem condF (a b c : Bool) :
    (cond a b c = false) ↔ (a = true ∧ b = false) ∨ (a = false ∧ c = false) := by
  cases a <;> simp

attribute [excl_rules] condT condF Bool.cond_false_left Bool.cond_true_left Bool.cond_false_right
  Bool.cond_true_right cond_true cond_false Weekday.isWeekend inRange Bool.false_or Bool.or_false
  Bool.true_or Bool.or_true
  Bool.false_and Bool.and_false Bool.true_and Bool.and_true Bool.not_false Bool.not_true
  Bool.not_not ne_eq Bool.not_eq_true Bool.not_eq_false
  Bool.or_eq_true Bool.and_eq_true Bool.not_eq_true' Bool.or_eq_false_iff Bool.and_eq_false_iff
  Bool.not_eq_false' beq_iff_eq beq_eq_false_iff_ne decide_eq_true_eq decide_eq_false_iff_not
  reduceCtorEq eq_self not_true_eq_false not_false_eq_true and_true true_and and_false false_and or_false false_or or_true
  true_or false_imp_iff imp_false not_not or_imp forall_const List.mem_cons Prod.mk.injEq List.not_mem_nil

/-- Closes one goal of the form "this holiday clause applies, so the date is one
of the fixed dates": use the month first, so that most fixed dates drop out. -/
macro "cal_fin" : tactic => `(tactic| first
  | (simp +contextual only [or_and_right, and_or_left, Int.reduceEq, implies_true, excl_rules]; done)
  | (intro ⟨_, hm⟩; simp only [hm, Int.reduceEq, excl_rules]; omega)
  | (intro ⟨hm, _⟩; simp only [hm, Int.reduceEq, excl_rules]; omega)
  | (intro h; omega))

theorem isWeekend_eq (d : Int) : (weekdayOf d).isWeekend = isWeekend d := by
  unfold isWeekend; cases weekdayOf d <;> rfl

/-- A day `d` of the half-month `lo..hi` of month `m` that is not in `E` and that
is a Wednesday (or up to `n` days before one) if day `r` (mod 7) is a Wednesday. -/
def pick (n : Nat) (E : List (Int × Int)) (m lo : Int) (len : Nat) (r : Int) : Bool :=
  (List.range len).any fun k => (List.range (n + 1)).any fun j =>
    (lo + (k : Int) + (j : Int)) % 7 == r && !E.contains (m, lo + (k : Int))

/-- Every half-month has a suitable day, whatever the weekdays are. -/
def covered (n : Nat) (E : List (Int × Int)) : Bool :=
  (List.range 12).all fun m => (List.range 7).all fun r =>
    pick n E (m + 1) 1 15 r && pick n E (m + 1) 16 13 r

theorem pick_spec {n : Nat} {E : List (Int × Int)} {m lo : Int} {len : Nat} {r : Int}
    (h : pick n E m lo len r = true) :
    ∃ d, lo ≤ d ∧ d < lo + len ∧ (∃ j : Nat, j ≤ n ∧ (d + j) % 7 = r) ∧ (m, d) ∉ E := by
  simp only [pick, List.any_eq_true, List.mem_range, Bool.and_eq_true, beq_iff_eq,
    Bool.not_eq_true', List.contains_eq_mem, decide_eq_false_iff_not] at h
  obtain ⟨k, hk, j, hj, h1, h2⟩ := h
  exact ⟨lo + k, by omega, by omega, ⟨j, by omega, h1⟩, h2⟩

theorem weekdayOf_eq_of_mod {d : Int} {w : Weekday} (h : (d - 1) % 7 = w.num) :
    weekdayOf d = w := weekday_num_inj (by rw [weekday_num, h])

/-- If `c` is open on every Wednesday (for `n = 1` also on every Tuesday) outside
the fixed dates `E`, and `E` leaves a choice, every half-month has an open day. -/
theorem half_of_excl {c : Cal} {y : Int} {n : Nat} {E : List (Int × Int)}
    (hcov : covered n E = true)
    (h : ∀ m d, 1 ≤ m → m ≤ 12 → 1 ≤ d → d ≤ monthLen y m →
      (∃ j : Nat, j ≤ n ∧ (ymd y m d - 1) % 7 = (2 - (j : Int)) % 7) → (m, d) ∉ E →
      c (ymd y m d) = .ok true) : HalfMonthsOpen c y := by
  intro m hm1 hm2
  simp only [covered, List.all_eq_true, List.mem_range, Bool.and_eq_true] at hcov
  have hml := monthLen_pos y m
  obtain ⟨r, hr7, hr⟩ : ∃ r : Nat, r < 7 ∧ ((3 : Int) - ymd y m 0) % 7 = r :=
    ⟨(((3 : Int) - ymd y m 0) % 7).toNat, by omega, by omega⟩
  have key := hcov (m - 1).toNat (by omega) r hr7
  have em : (((m - 1).toNat : Nat) : Int) + 1 = m := by omega
  rw [em] at key
  have hy : ∀ d, ymd y m d = ymd y m 0 + d := fun d => by unfold ymd; omega
  obtain ⟨k1, k2⟩ := key
  constructor
  · obtain ⟨d, a, b, ⟨j, hj, e⟩, f⟩ := pick_spec k1
    refine ⟨d, a, by omega, h m d hm1 hm2 a (by omega) ⟨j, hj, ?_⟩ f⟩
    rw [hy]; omega
  · obtain ⟨d, a, b, ⟨j, hj, e⟩, f⟩ := pick_spec k2
    refine ⟨d, a, by omega, h m d hm1 hm2 (by omega) (by omega) ⟨j, hj, ?_⟩ f⟩
    rw [hy]; omega

/-- The tuple of a day given by year, month and day. -/
theorem info_ymd {y m d : Int} (hm1 : 1 ≤ m) (hm2 : m ≤ 12) (hd1 : 1 ≤ d)
    (hd2 : d ≤ monthLen y m) :
    info (ymd y m d) = ⟨d, weekdayOf (ymd y m d), m, y, monthStart (leap y) m + d⟩ := by
  unfold info
  rw [yearOf_ymd hm1 hm2 hd1 hd2, monthOf_ymd hm1 hm2 hd1 hd2, dayOf_ymd hm1 hm2 hd1 hd2,
    ordinal_ymd hm1 hm2 hd1 hd2]

/-- Plain calendars: open on Wednesdays (and Tuesdays) outside `E`. -/
theorem half_plain {r : DateInfo → Bool} {y : Int} {n : Nat} {E : List (Int × Int)}
    (hcov : covered n E = true)
    (h : ∀ t : DateInfo, t.y = y → 1 ≤ t.d → (t.w = .wed ∨ n = 1 ∧ t.w = .tue) → (t.m, t.d) ∉ E →
      r t = true)
    (hn : n ≤ 1) : HalfMonthsOpen (plainCal r) y := by
  refine half_of_excl hcov fun m d hm1 hm2 hd1 hd2 ⟨j, hj, hw⟩ hE => ?_
  unfold plainCal
  rw [info_ymd hm1 hm2 hd1 hd2]
  rw [h _ rfl hd1 ?_ hE]
  rcases (show j = 0 ∨ j = 1 by omega) with rfl | rfl
  · exact .inl (weekdayOf_eq_of_mod (by simpa [Weekday.num] using hw))
  · exact .inr ⟨by omega, weekdayOf_eq_of_mod (by simpa [Weekday.num] using hw)⟩

/-- The Easter entry of a table year is the ordinal of a Monday. -/
theorem easter_monday_mod {y : Int} (h1 : 1901 ≤ y) (h2 : y ≤ 2199) :
    ∃ em, easterMonday y = .ok em ∧ (yearStart y + em - 1) % 7 = 0 := by
  obtain ⟨a, b, c⟩ := C13_western h1 h2
  refine ⟨_, a, ?_⟩
  have e : yearStart y + ordinal (easterSunday y + 1) = easterSunday y + 1 := by
    unfold ordinal; rw [b]; omega
  rw [e, ← weekday_num, c]; rfl

theorem orthodox_monday_mod {y : Int} (h1 : 1901 ≤ y) (h2 : y ≤ 2199) :
    ∃ em, orthodoxEasterMonday y = .ok em ∧ (yearStart y + em - 1) % 7 = 0 := by
  obtain ⟨a, b, c⟩ := C13_orthodox h1 h2
  refine ⟨_, a, ?_⟩
  have e : yearStart y + ordinal (orthodoxEasterSunday y + 1) = orthodoxEasterSunday y + 1 := by
    unfold ordinal; rw [b]; omega
  rw [e, ← weekday_num, c]; rfl

/-- Calendars with movable feasts: open on Wednesdays outside `E`; the day is
known not to be a whole number of weeks plus anything but two days after Easter
Monday. -/
theorem half_table {lookup : Int → Outcome Int} {r : DateInfo → Int → Bool} {y : Int} {n : Nat}
    {E : List (Int × Int)}
    (hl : ∃ em, lookup y = .ok em ∧ (yearStart y + em - 1) % 7 = 0)
    (hcov : covered n E = true)
    (h : ∀ (t : DateInfo) (em : Int), t.y = y → 1 ≤ t.d →
      (t.w = .wed ∧ (t.dd - em) % 7 = 2 ∨ n = 1 ∧ t.w = .tue ∧ (t.dd - em) % 7 = 1) →
      (t.m, t.d) ∉ E → r t em = true)
    (hn : n ≤ 1) :
    HalfMonthsOpen (fun date => do let em ← lookup (yearOf date); .ok (r (info date) em)) y := by
  obtain ⟨em, h1, h2⟩ := hl
  refine half_of_excl hcov fun m d hm1 hm2 hd1 hd2 ⟨j, hj, hw⟩ hE => ?_
  rw [yearOf_ymd hm1 hm2 hd1 hd2, h1, Outcome.ok_bind, info_ymd hm1 hm2 hd1 hd2]
  rw [h _ em rfl hd1 ?_ hE]
  unfold ymd at hw
  rcases (show j = 0 ∨ j = 1 by omega) with rfl | rfl
  · refine .inl ⟨weekdayOf_eq_of_mod (by simpa [Weekday.num, ymd] using hw), ?_⟩
    simp only at hw ⊢; omega
  · refine .inr ⟨by omega, weekdayOf_eq_of_mod (by simpa [Weekday.num, ymd] using hw), ?_⟩
    simp only at hw ⊢; omega

theorem half_easter {r : DateInfo → Int → Bool} {y : Int} {n : Nat} {E : List (Int × Int)}
    (h1 : 1901 ≤ y) (h2 : y ≤ 2199) (hcov : covered n E = true)
    (h : ∀ (t : DateInfo) (em : Int), t.y = y → 1 ≤ t.d →
      (t.w = .wed ∧ (t.dd - em) % 7 = 2 ∨ n = 1 ∧ t.w = .tue ∧ (t.dd - em) % 7 = 1) →
      (t.m, t.d) ∉ E → r t em = true)
    (hn : n ≤ 1) : HalfMonthsOpen (easterCal r) y :=
  half_table (easter_monday_mod h1 h2) hcov h hn

theorem half_orthodox {r : DateInfo → Int → Bool} {y : Int} {n : Nat} {E : List (Int × Int)}
    (h1 : 1901 ≤ y) (h2 : y ≤ 2199) (hcov : covered n E = true)
    (h : ∀ (t : DateInfo) (em : Int), t.y = y → 1 ≤ t.d →
      (t.w = .wed ∧ (t.dd - em) % 7 = 2 ∨ n = 1 ∧ t.w = .tue ∧ (t.dd - em) % 7 = 1) →
      (t.m, t.d) ∉ E → r t em = true)
    (hn : n ≤ 1) : HalfMonthsOpen (orthodoxCal r) y :=
  half_table (orthodox_monday_mod h1 h2) hcov h hn

theorem HalfMonthsOpen.mono {c c' : Cal} {y : Int} (h : HalfMonthsOpen c y)
    (hc : ∀ n, yearOf n = y → c n = .ok true → c' n = .ok true) : HalfMonthsOpen c' y := by
  intro m h1 h2
  obtain ⟨⟨a, a1, a2, a3⟩, ⟨b, b1, b2, b3⟩⟩ := h m h1 h2
  have hml := monthLen_pos y m
  exact ⟨⟨a, a1, a2, hc _ (yearOf_ymd h1 h2 a1 (by omega)) a3⟩,
    ⟨b, b1, b2, hc _ (yearOf_ymd h1 h2 (by omega) b2) b3⟩⟩

/-- Does the calendar open on one of `len` days from day `d` of month `m`? -/
def openIn (c : Cal) (start : Int) : Nat → Bool
  | 0 => false
  | n + 1 => (match c (start + n) with | .ok b => b | _ => false) || openIn c start n

theorem openIn_spec {c : Cal} {start : Int} {n : Nat} (h : openIn c start n = true) :
    ∃ k : Nat, k < n ∧ c (start + k) = .ok true := by
  induction n with
  | zero => simp [openIn] at h
  | succ n ih =>
    rw [openIn, Bool.or_eq_true] at h
    rcases h with h | h
    · refine ⟨n, by omega, ?_⟩
      cases hc : c (start + n) with
      | ok b => rw [hc] at h; simp only at h; rw [h]
      | fail e => rw [hc] at h; simp at h
      | panic => rw [hc] at h; simp at h
    · obtain ⟨k, hk, e⟩ := ih h
      exact ⟨k, by omega, e⟩

/-- Half-month check of a whole year. -/
def checkYear (c : Cal) (y : Int) : Bool :=
  (List.range 12).all fun m => openIn c (ymd y (m + 1) 1) 15 && openIn c (ymd y (m + 1) 16) 13

/-- Check of the years `y0, …, y0 + n - 1`. -/
def checkYears (c : Cal) (y0 : Int) : Nat → Bool
  | 0 => true
  | n + 1 => checkYear c (y0 + n) && checkYears c y0 n

theorem checkYears_spec {c : Cal} {y0 : Int} {n : Nat} (h : checkYears c y0 n = true) {y : Int}
    (h1 : y0 ≤ y) (h2 : y < y0 + n) : checkYear c y = true := by
  induction n with
  | zero => omega
  | succ n ih =>
    rw [checkYears, Bool.and_eq_true] at h
    rcases (show y = y0 + n ∨ y < y0 + n by omega) with rfl | h3
    · exact h.1
    · exact ih h.2 h3

theorem half_of_check {c : Cal} {y0 : Int} {n : Nat} (h : checkYears c y0 n = true) {y : Int}
    (h1 : y0 ≤ y) (h2 : y < y0 + n) : HalfMonthsOpen c y := by
  have key := checkYears_spec h h1 h2
  simp only [checkYear, List.all_eq_true, List.mem_range, Bool.and_eq_true] at key
  intro m hm1 hm2
  have hml := monthLen_pos y m
  obtain ⟨k1, k2⟩ := key (m - 1).toNat (by omega)
  have em : (((m - 1).toNat : Nat) : Int) + 1 = m := by omega
  rw [em] at k1 k2
  obtain ⟨i, hi, e1⟩ := openIn_spec k1
  obtain ⟨j, hj, e2⟩ := openIn_spec k2
  refine ⟨⟨1 + i, by omega, by omega, ?_⟩, ⟨16 + j, by omega, by omega, ?_⟩⟩
  · rw [← e1]; congr 1; unfold ymd; omega
  · rw [← e2]; congr 1; unfold ymd; omega

end Verif
