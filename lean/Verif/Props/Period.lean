import Verif.Props.Advance
import Mathlib.Tactic.Ring

/-! # C16-C19: tenors and FX settlement dates -/

namespace Verif
open Outcome

variable {c : Cal} {d r : Int}

/-- Specification of "`r` is the tenor `p` after `d`". -/
def IsTenorLater (d : Int) : Period → Int → Prop
  | .on, r => r = d + 1
  | .tn, r => r = d + 1
  | .spot, r => r = d
  | .sn, r => r = d + 1
  | .days n, r => r = d + n
  | .weeks n, r => r = d + 7 * n
  | .months n, r => MonthsLater d n r
  | .years n, r => MonthsLater d (12 * n) r

/-! ## C16 Tenor arithmetic -/

/-- Months and years: same day of the month, clamped to the month's length. -/
theorem C16_add_months_iff (n : Nat) :
    addPeriod d (.months n) = .ok r ↔ MonthsLater d n r ∧ Valid r := addMonths_ok

theorem C16_add_years_eq_months (n : Nat) (h : n * 12 ≤ 4294967295) :
    addPeriod d (.years n) = addPeriod d (.months (12 * n)) := by
  have e : checkU32 (n * 12) = .ok (n * 12) := by simp [checkU32, h]
  simp only [addPeriod, e, ok_bind]
  congr 1
  push_cast; ring

theorem C16_add_days_iff (n : Int) :
    addPeriod d (.days n) = .ok r ↔ -maxDurDays ≤ n ∧ n ≤ maxDurDays ∧ r = d + n ∧ Valid r := by
  simp only [addPeriod, tryDays]
  split
  · rename_i h
    simp only [ok_bind, valid_addDays]
    constructor
    · rintro ⟨rfl, h2⟩; exact ⟨h.1, h.2, rfl, h2⟩
    · rintro ⟨_, _, rfl, h2⟩; exact ⟨rfl, h2⟩
  · rename_i h
    simp only [fail_bind, reduceCtorEq, false_iff]
    rintro ⟨h1, h2, _⟩
    exact h ⟨h1, h2⟩

theorem maxDur_i64 {n : Int} (h : -maxDurDays ≤ n * 7 ∧ n * 7 ≤ maxDurDays) :
    checkI64 (n * 7) = .ok (n * 7) := by
  unfold maxDurDays at h
  unfold checkI64
  rw [if_pos]
  omega

theorem C16_add_weeks_eq_days (n : Int) (h : -maxDurDays ≤ n * 7 ∧ n * 7 ≤ maxDurDays) :
    addPeriod d (.weeks n) = addPeriod d (.days (7 * n)) := by
  simp only [addPeriod, maxDur_i64 h, ok_bind, mul_comm 7 n]

/-- Later start dates never give earlier results. -/
theorem C16_months_mono_date {d1 d2 k r1 r2 : Int} (h : d1 ≤ d2) (h1 : MonthsLater d1 k r1)
    (h2 : MonthsLater d2 k r2) : r1 ≤ r2 := by
  have b1 := monthOf_bounds r1
  have b2 := monthOf_bounds r2
  have m := monthIndex_mono h
  have m1 := h1.month
  have m2 := h2.month
  have hidx : monthIndex d1 = monthIndex d2 ∨ monthIndex d1 < monthIndex d2 := by omega
  unfold monthIndex at hidx m
  rcases hidx with hidx | hidx
  · have hy : yearOf r1 = yearOf r2 := by omega
    have hm : monthOf r1 = monthOf r2 := by omega
    have e := dayOf_sub (a := d1) (b := d2) (by unfold monthIndex; omega)
    have e' := dayOf_sub (a := r1) (b := r2) (by unfold monthIndex; omega)
    have q1 := h1.day
    have q2 := h2.day
    rw [hy, hm] at q1
    omega
  · have := ymd_lt_of_monthIndex (y := yearOf r1) (m := monthOf r1) (d := dayOf r1)
      (y' := yearOf r2) (m' := monthOf r2) (d' := dayOf r2) b1.1 b1.2 (dayOf_bounds r1).2 b2.1 b2.2
      (dayOf_bounds r2).1 (by omega)
    rw [ymd_yearOf, ymd_yearOf] at this
    omega

/-- Longer tenors give strictly later dates. -/
theorem C16_months_mono_tenor {k1 k2 r1 r2 : Int} (h : k1 < k2) (h1 : MonthsLater d k1 r1)
    (h2 : MonthsLater d k2 r2) : r1 < r2 := by
  have b1 := monthOf_bounds r1
  have b2 := monthOf_bounds r2
  have m1 := h1.month
  have m2 := h2.month
  have := ymd_lt_of_monthIndex (y := yearOf r1) (m := monthOf r1) (d := dayOf r1)
      (y' := yearOf r2) (m' := monthOf r2) (d' := dayOf r2) b1.1 b1.2 (dayOf_bounds r1).2 b2.1 b2.2
      (dayOf_bounds r2).1 (by omega)
  rwa [ymd_yearOf, ymd_yearOf] at this

/-- Adding and then subtracting days, weeks or an overnight tenor is the
identity. -/
theorem C16_add_sub_days (hd : Valid d) (p : Period)
    (hp : (∀ n, p ≠ .months n) ∧ ∀ n, p ≠ .years n) (h : addPeriod d p = .ok r) :
    subPeriod r p = .ok d := by
  have key : ∀ k, addDays d k = .ok r → addDays r (-k) = .ok d := by
    intro k hk
    obtain ⟨rfl, _⟩ := valid_addDays.1 hk
    rw [valid_addDays]
    exact ⟨by omega, by rw [show d + k + -k = d by omega]; exact hd⟩
  cases p
  case on => exact key 1 h
  case tn => exact key 1 h
  case sn => exact key 1 h
  case spot => simp only [addPeriod, ok.injEq] at h; subst h; rfl
  case days n =>
    simp only [addPeriod, subPeriod, bind_eq_ok] at h ⊢
    obtain ⟨a, ha, h⟩ := h
    exact ⟨a, ha, key a h⟩
  case weeks n =>
    simp only [addPeriod, subPeriod, bind_eq_ok] at h ⊢
    obtain ⟨a, ha, b, hb, h⟩ := h
    exact ⟨a, ha, b, hb, key b h⟩
  case months n => exact absurd rfl (hp.1 n)
  case years n => exact absurd rfl (hp.2 n)

/-- Adding and then subtracting months: back in the same month, never later than
the start, and exactly the start when its day is at most 28. -/
theorem C16_add_sub_months {k u v : Int} (h1 : MonthsLater d k u) (h2 : MonthsLater u (-k) v) :
    SameMonth v d ∧ v ≤ d ∧ (dayOf d ≤ 28 → v = d) := by
  have bd := monthOf_bounds d
  have bv := monthOf_bounds v
  have m1 := h1.month
  have m2 := h2.month
  have hs : SameMonth v d := ⟨by omega, by omega⟩
  have e := sameMonth_dayOf hs
  have q1 := h1.day
  have q2 := h2.day
  have l1 := monthLen_pos (yearOf u) (monthOf u)
  have l2 := monthLen_pos (yearOf v) (monthOf v)
  refine ⟨hs, by omega, fun h => by omega⟩

/-- 31 January 2024 + 1 month = 29 February; minus 1 month = 29 January. -/
example : addPeriod (ymd 2024 1 31) (.months 1) = .ok (ymd 2024 2 29) ∧
    subPeriod (ymd 2024 2 29) (.months 1) = .ok (ymd 2024 1 29) ∧
    addPeriod (ymd 2024 2 29) (.years 1) = .ok (ymd 2025 2 28) ∧
    addPeriod (ymd 2023 11 30) (.months 3) = .ok (ymd 2024 2 29) ∧
    addPeriod (ymd 2024 1 31) (.weeks 2) = .ok (ymd 2024 2 14) := by
  decide +kernel

example : MonthsLater (ymd 2024 1 31) 1 (ymd 2024 2 29) :=
  ((C16_add_months_iff 1).1 (by decide +kernel)).1

/-! ## C17 No silent wrap-around -/

/-- Whatever `date + tenor` returns is the mathematically correct, representable
date. -/
theorem C17_add_correct (hd : Valid d) (p : Period) (h : addPeriod d p = .ok r) :
    IsTenorLater d p r ∧ Valid r := by
  cases p
  case spot => simp only [addPeriod, ok.injEq] at h; subst h; exact ⟨rfl, hd⟩
  case days n =>
    obtain ⟨_, _, h3, h4⟩ := (C16_add_days_iff n).1 h
    exact ⟨h3, h4⟩
  case weeks n =>
    simp only [addPeriod, bind_eq_ok] at h
    obtain ⟨a, ha, b, hb, h⟩ := h
    have ea : a = n * 7 := by
      unfold checkI64 at ha; split at ha <;> simp at ha; exact ha.symm
    have eb : b = a := by
      unfold tryDays at hb; split at hb <;> simp at hb; exact hb.symm
    obtain ⟨rfl, hv⟩ := valid_addDays.1 h
    refine ⟨?_, hv⟩
    simp only [IsTenorLater]; omega
  case months n => exact addMonths_ok.1 h
  case years n =>
    simp only [addPeriod, bind_eq_ok] at h
    obtain ⟨a, ha, h⟩ := h
    have ea : a = n * 12 := by
      unfold checkU32 at ha; split at ha <;> simp at ha; exact ha.symm
    subst ea
    obtain ⟨h1, h2⟩ := addMonths_ok.1 h
    refine ⟨?_, h2⟩
    simp only [IsTenorLater]
    push_cast at h1
    rwa [mul_comm] at h1
  all_goals
    obtain ⟨rfl, hv⟩ := valid_addDays.1 h
    exact ⟨rfl, hv⟩

/-- The correct date is returned whenever it is representable and the count is
within chrono's duration range. -/
theorem C17_add_complete (p : Period) (h : IsTenorLater d p r) (hr : Valid r)
    (hw : ∀ n, p = .days n → -maxDurDays ≤ n ∧ n ≤ maxDurDays)
    (hw' : ∀ n, p = .weeks n → -maxDurDays ≤ n * 7 ∧ n * 7 ≤ maxDurDays)
    (hy : ∀ n, p = .years n → n * 12 ≤ 4294967295) : addPeriod d p = .ok r := by
  cases p
  case spot => simp only [IsTenorLater] at h; subst h; rfl
  case days n => exact (C16_add_days_iff n).2 ⟨(hw n rfl).1, (hw n rfl).2, h, hr⟩
  case weeks n =>
    rw [C16_add_weeks_eq_days n (hw' n rfl)]
    refine (C16_add_days_iff _).2 ⟨?_, ?_, h, hr⟩
    · have := hw' n rfl; omega
    · have := hw' n rfl; omega
  case months n => exact addMonths_ok.2 ⟨h, hr⟩
  case years n =>
    rw [C16_add_years_eq_months n (hy n rfl)]
    refine addMonths_ok.2 ⟨?_, hr⟩
    simpa [IsTenorLater] using h
  all_goals
    simp only [IsTenorLater] at h
    subst h
    exact valid_addDays.2 ⟨rfl, hr⟩

/-- The error is returned exactly for day counts beyond chrono's duration range
(weeks: when seven times the count does not overflow). -/
theorem C17_add_error_iff (p : Period) (e : Err) :
    addPeriod d p = .fail e ↔ e = .periodOutOfBounds ∧
      ((∃ n, p = .days n ∧ ¬ (-maxDurDays ≤ n ∧ n ≤ maxDurDays)) ∨
       (∃ n, p = .weeks n ∧ checkI64 (n * 7) ≠ .panic ∧
         ¬ (-maxDurDays ≤ n * 7 ∧ n * 7 ≤ maxDurDays))) := by
  have ha : ∀ k, addDays d k ≠ .fail e := by
    intro k; unfold addDays; split <;> simp
  have hm : ∀ k, addMonths d k ≠ .fail e := by
    intro k; unfold addMonths
    simp only
    cases fromYmdOpt _ _ _ <;> simp [unwrap]
  cases p
  case spot => simp [addPeriod]
  case on => simp [addPeriod, ha]
  case tn => simp [addPeriod, ha]
  case sn => simp [addPeriod, ha]
  case days n =>
    simp only [addPeriod, tryDays]
    split
    · rename_i h; simp [ha, h]
    · rename_i h
      simp only [fail_bind, fail.injEq]
      constructor
      · rintro rfl; exact ⟨rfl, Or.inl ⟨n, rfl, h⟩⟩
      · rintro ⟨rfl, _⟩; rfl
  case weeks n =>
    simp only [addPeriod, tryDays, checkI64]
    split
    · rename_i h1
      simp only [ok_bind]
      split
      · rename_i h; simp [ha, h]
      · rename_i h
        simp only [fail_bind, fail.injEq]
        constructor
        · rintro rfl; exact ⟨rfl, Or.inr ⟨n, rfl, by simp [h1], h⟩⟩
        · rintro ⟨rfl, _⟩; rfl
    · rename_i h1; simp [h1]
  case months n => simp [addPeriod, hm]
  case years n =>
    simp only [addPeriod, checkU32]
    split <;> simp [hm]

/-- `k * tenor` is the tenor with its count multiplied, or panics; it never
wraps. -/
theorem C17_mul_correct (k : Nat) (p q : Period) (h : mulPeriod k p = .ok q) :
    (∀ n, p = .days n → q = .days (n * k)) ∧ (∀ n, p = .weeks n → q = .weeks (n * k)) ∧
    (∀ n, p = .months n → q = .months (n * k)) ∧ (∀ n, p = .years n → q = .years (n * k)) := by
  have hi : ∀ {x y}, checkI64 x = .ok y → y = x := by
    intro x y h; unfold checkI64 at h; split at h <;> simp at h; exact h.symm
  have hu : ∀ {x y}, checkU32 x = .ok y → y = x := by
    intro x y h; unfold checkU32 at h; split at h <;> simp at h; exact h.symm
  cases p <;> simp only [mulPeriod, bind_eq_ok, ok.injEq] at h
  case days n => obtain ⟨a, ha, rfl⟩ := h; simp [hi ha]
  case weeks n => obtain ⟨a, ha, rfl⟩ := h; simp [hi ha]
  case months n => obtain ⟨a, ha, rfl⟩ := h; simp [hu ha]
  case years n => obtain ⟨a, ha, rfl⟩ := h; simp [hu ha]
  all_goals simp

/-- Out-of-range examples: an error for an absurd day count, a panic beyond
chrono's last date, a panic for `u32` overflow. -/
example : addPeriod (ymd 2024 1 31) (.days 106751991168) = .fail .periodOutOfBounds ∧
    addPeriod (ymd 262142 12 31) (.days 1) = .panic ∧
    addPeriod (ymd 2024 1 31) (.years 400000000) = .panic ∧
    mulPeriod 3 (.months 6) = .ok (.months 18) ∧ mulPeriod 4 (.years 2000000000) = .panic := by
  decide +kernel

/-! ## C18 Settlement dates -/

/-- The unadjusted far date of a tenor (`period.rs` doc table): one day for the
pre-spot tenors, spot lag plus tenor otherwise. -/
def RawFar (p : Period) (val lag s : Int) : Prop :=
  match p with
  | .on => s = val + 1
  | .tn => s = val + 2
  | p => IsTenorLater (val + lag) p s

/-- Settlement date: with `s` the unadjusted far date, whose month contains an open
day `o`, the result is a business day of the same month: the first open day from
`s` on if the month still has one, otherwise the last open day of the month. -/
theorem C18_settlement {p : Period} {val lag s o : Int} (hv : Valid val)
    (hraw : RawFar p val lag s) (hs : Valid s) (hmid : Valid (val + lag)) (hmid1 : Valid (val + 1))
    (hlag : -maxDurDays ≤ lag ∧ lag ≤ maxDurDays)
    (hw : ∀ n, p = .days n → -maxDurDays ≤ n ∧ n ≤ maxDurDays)
    (hw' : ∀ n, p = .weeks n → -maxDurDays ≤ n * 7 ∧ n * 7 ≤ maxDurDays)
    (hyr : ∀ n, p = .years n → n * 12 ≤ 4294967295)
    (hy : yearOf s < 262142) (ho : SameMonth o s) (hopen : c o = .ok true)
    (hcl : ClassifiedOn c (monthBegin s) (monthEnd s)) :
    ∃ r, settlementDateWithLag p val c lag = .ok r ∧ SameMonth r s ∧ c r = .ok true ∧
      (FirstOpenFrom c s r ∨
        ((∀ x, s ≤ x → SameMonth x s → c x = .ok false) ∧ LastOpenOfMonth c s r)) := by
  obtain ⟨e, he, hl⟩ := C11_endOfMonth hs hy ho hopen
    (fun x h1 h2 => hcl x (le_trans (monthBegin_le ho) h1) h2)
  have hev := valid_of_sameMonth hl.sameMonth hs
  have key : settlementDateWithLag p val c lag = rollFwd c (if s ≥ e then e else s) := by
    have hoff : tryDays lag = .ok lag := by simp [tryDays, hlag]
    have finish : ∀ t, addPeriod t p = .ok s →
        (addPeriod t p >>= fun s => endOfMonth c s >>= fun e =>
          rollFwd c (if s ≥ e then e else s)) = rollFwd c (if s ≥ e then e else s) := by
      intro t ht
      simp only [ht, ok_bind, he]
    cases p
    case on =>
      have : addPeriod val .on = .ok s :=
        C17_add_complete .on hraw hs (by simp) (by simp) (by simp)
      simp only [settlementDateWithLag, hoff, ok_bind]
      exact finish val this
    case tn =>
      have : addPeriod (val + 1) .tn = .ok s :=
        C17_add_complete .tn (by simp only [RawFar] at hraw; simp only [IsTenorLater]; omega) hs
          (by simp) (by simp) (by simp)
      have e1 : addDays val 1 = .ok (val + 1) := valid_addDays.2 ⟨rfl, hmid1⟩
      simp only [settlementDateWithLag, hoff, ok_bind, e1]
      exact finish _ this
    all_goals
      have e1 : addDays val lag = .ok (val + lag) := valid_addDays.2 ⟨rfl, hmid⟩
      simp only [RawFar] at hraw
      have := C17_add_complete _ hraw hs hw hw' hyr
      simp only [settlementDateWithLag, hoff, ok_bind, e1]
      exact finish _ this
  rw [key]
  by_cases hse : s ≥ e
  · rw [if_pos hse]
    refine ⟨e, rollFwd_of_open hev.2 hl.isOpen, hl.sameMonth, hl.isOpen, ?_⟩
    rcases eq_or_lt_of_le hse with h | h
    · left
      refine ⟨by omega, hl.isOpen, fun x h1 h2 => by omega⟩
    · right
      refine ⟨fun x h1 h2 => ?_, hl⟩
      rcases hcl x (monthBegin_le h2) (le_monthEnd h2) with h3 | h3
      · have := hl.greatest x h2 h3; omega
      · exact h3
  · rw [if_neg hse]
    obtain ⟨r, hr, hre⟩ := exists_firstOpen (c := c) (d := s) (b := e) (by omega) hl.isOpen
      (fun x h1 h2 => hcl x (le_trans (monthBegin_le (SameMonth.refl s)) h1)
        (le_trans h2 (le_monthEnd hl.sameMonth)))
    have hsm : SameMonth r s := hl.sameMonth.symm.between hr.le hre
    exact ⟨r, rollFwd_ok.2 ⟨hr, (valid_of_sameMonth hsm hs).2⟩, hsm, hr.isOpen, Or.inl hr⟩

/-- It coincides with the modified-following adjustment of the unadjusted date
(`b` is any open day at most 300 days later, so that the latter is defined). -/
theorem C18_settlement_eq_modifiedFollowing {p : Period} {val lag s o b : Int} (hv : Valid val)
    (hraw : RawFar p val lag s) (hs : Valid s) (hmid : Valid (val + lag)) (hmid1 : Valid (val + 1))
    (hlag : -maxDurDays ≤ lag ∧ lag ≤ maxDurDays)
    (hw : ∀ n, p = .days n → -maxDurDays ≤ n ∧ n ≤ maxDurDays)
    (hw' : ∀ n, p = .weeks n → -maxDurDays ≤ n * 7 ∧ n * 7 ≤ maxDurDays)
    (hyr : ∀ n, p = .years n → n * 12 ≤ 4294967295)
    (hy : yearOf s < 262142) (ho : SameMonth o s) (hopen : c o = .ok true)
    (hcl : ClassifiedOn c (monthBegin s) (max (monthEnd s) b))
    (hb1 : s ≤ b) (hb2 : b ≤ s + 300) (hbv : b ≤ maxDay) (hbo : c b = .ok true) :
    settlementDateWithLag p val c lag = adjust c s .modifiedFollowing := by
  obtain ⟨r, h1, h2, h3, h4⟩ := C18_settlement hv hraw hs hmid hmid1 hlag hw hw' hyr hy ho hopen
    (fun x h1 h2 => hcl x h1 (by omega))
  have hob := monthBegin_le ho
  have hsb := monthBegin_le (SameMonth.refl s)
  obtain ⟨q, k1, k2, k3, k4⟩ := C03_modifiedFollowing hs ho hopen hb1 hb2 hbv hbo
    (fun x h1 h2 => hcl x (by omega) (by omega))
  rw [h1, k1]
  congr 1
  rcases h4 with h4 | ⟨h4, h5⟩ <;> rcases k4 with ⟨f, k4, k5, rfl⟩ | ⟨k4, k5, k6⟩
  · exact h4.unique k4
  · have := k4 r h4.le h2
    rw [h3] at this; cases this
  · have := h4 q k4.le k5
    rw [k3] at this; cases this
  · have a1 := h5.greatest q k2 k3
    have a2 := k6.greatest r h2 h3
    omega

/-- `settlement_date` is the case of a spot lag of two calendar days. -/
theorem C18_settlement_default {p : Period} {val s o : Int} (hv : Valid val)
    (hraw : RawFar p val 2 s) (hs : Valid s) (hmid : Valid (val + 2)) (hmid1 : Valid (val + 1))
    (hw : ∀ n, p = .days n → -maxDurDays ≤ n ∧ n ≤ maxDurDays)
    (hw' : ∀ n, p = .weeks n → -maxDurDays ≤ n * 7 ∧ n * 7 ≤ maxDurDays)
    (hyr : ∀ n, p = .years n → n * 12 ≤ 4294967295)
    (hy : yearOf s < 262142) (ho : SameMonth o s) (hopen : c o = .ok true)
    (hcl : ClassifiedOn c (monthBegin s) (monthEnd s)) :
    ∃ r, settlementDate p val c = .ok r ∧ SameMonth r s ∧ c r = .ok true ∧
      (FirstOpenFrom c s r ∨
        ((∀ x, s ≤ x → SameMonth x s → c x = .ok false) ∧ LastOpenOfMonth c s r)) :=
  C18_settlement hv hraw hs hmid hmid1 (by decide) hw hw' hyr hy ho hopen hcl

/-- One month from Tuesday 29 August 2023 (spot 31 August): 30 September is a
Saturday after the last business day, so the settlement date is Friday the 29th. -/
example : settlementDate (.months 1) (ymd 2023 8 29) weekendsOnly = .ok (ymd 2023 9 29) ∧
    settlementDate (.weeks 1) (ymd 2023 8 29) weekendsOnly = .ok (ymd 2023 9 7) ∧
    RawFar (.weeks 1) (ymd 2023 8 29) 2 (ymd 2023 9 7) := by
  refine ⟨by decide +kernel, by decide +kernel, ?_⟩
  simp only [RawFar, IsTenorLater]; decide +kernel

/-! ## C19 Near and far legs -/

/-- Refutation 1: tom-next traded on Friday 6 October 2023; both legs fall on Monday
the 9th. -/
theorem C19_near_eq_far_false :
    nearDate .tn (ymd 2023 10 6) weekendsOnly = .ok (some (ymd 2023 10 9)) ∧
    settlementDate .tn (ymd 2023 10 6) weekendsOnly = .ok (ymd 2023 10 9) := by
  decide +kernel

/-- Refutation 2: the month-end cap can even put the far leg before the near leg
(tom-next on Friday 28 April 2023: near leg 1 May, far leg 28 April). -/
theorem C19_near_after_far_false :
    nearDate .tn (ymd 2023 4 28) weekendsOnly = .ok (some (ymd 2023 5 1)) ∧
    settlementDate .tn (ymd 2023 4 28) weekendsOnly = .ok (ymd 2023 4 28) := by
  decide +kernel

/-- Refutation 3: overnight on Friday 29 September 2023 has both legs on that
Friday. -/
theorem C19_overnight_month_end_false :
    nearDate .on (ymd 2023 9 29) weekendsOnly = .ok (some (ymd 2023 9 29)) ∧
    settlementDate .on (ymd 2023 9 29) weekendsOnly = .ok (ymd 2023 9 29) := by
  decide +kernel

/-- Unadjusted near date of a swap tenor. -/
def rawNear (p : Period) (val lag : Int) : Int :=
  match p with
  | .on => val
  | .tn => val + 1
  | _ => val + lag

/-- What does hold: the near date is a business day on or after the unadjusted near
date, and if that unadjusted date is itself a business day and the month of the
following day still has an open day from it on, then the near leg is strictly before
the far leg.  Missing: the cases of the three refutations (near date on a holiday, far
date after the last business day of its month). -/
theorem C19_near_lt_far_partial {p : Period} {val lag o : Int} (hp : p = .on ∨ p = .tn ∨ p = .sn)
    (hval : Valid val) (hv1 : Valid (val + 1)) (hvl : Valid (val + lag))
    (hs : Valid (rawNear p val lag + 1))
    (hlag : -maxDurDays ≤ lag ∧ lag ≤ maxDurDays)
    (hy : yearOf (rawNear p val lag + 1) < 262142)
    (hopen : c (rawNear p val lag) = .ok true)
    (ho : SameMonth o (rawNear p val lag + 1)) (hoo : c o = .ok true)
    (hoge : rawNear p val lag + 1 ≤ o)
    (hcl : ClassifiedOn c (monthBegin (rawNear p val lag + 1)) (monthEnd (rawNear p val lag + 1))) :
    ∃ n f, nearDateWithLag p val c lag = .ok (some n) ∧ settlementDateWithLag p val c lag = .ok f ∧
      c n = .ok true ∧ c f = .ok true ∧ n < f := by
  have hn : nearDateWithLag p val c lag = .ok (some (rawNear p val lag)) := by
    have hoff : tryDays lag = .ok lag := by simp [tryDays, hlag]
    have e1 : addDays val 1 = .ok (val + 1) := valid_addDays.2 ⟨rfl, hv1⟩
    have e2 : addDays val lag = .ok (val + lag) := valid_addDays.2 ⟨rfl, hvl⟩
    rcases hp with rfl | rfl | rfl
    · have : rollFwd c val = .ok val := rollFwd_of_open hval.2 hopen
      simp [nearDateWithLag, hoff, this, rawNear]
    · have : rollFwd c (val + 1) = .ok (val + 1) := rollFwd_of_open hv1.2 hopen
      simp [nearDateWithLag, hoff, e1, this, rawNear]
    · have : rollFwd c (val + lag) = .ok (val + lag) := rollFwd_of_open hvl.2 hopen
      simp [nearDateWithLag, hoff, e2, this, rawNear]
  have hraw : RawFar p val lag (rawNear p val lag + 1) := by
    rcases hp with rfl | rfl | rfl <;> simp only [RawFar, rawNear, IsTenorLater] <;> omega
  obtain ⟨r, h1, h2, h3, h4⟩ := C18_settlement (p := p) hval hraw hs hvl hv1 hlag
    (by rcases hp with rfl | rfl | rfl <;> simp) (by rcases hp with rfl | rfl | rfl <;> simp)
    (by rcases hp with rfl | rfl | rfl <;> simp) hy ho hoo hcl
  refine ⟨_, r, hn, h1, hopen, h3, ?_⟩
  rcases h4 with h4 | ⟨h4, _⟩
  · have := h4.le; omega
  · have := h4 o hoge ho
    rw [hoo] at this; cases this

/-- `near_date` and `settlement_date` are the case of a spot lag of two days. -/
theorem C19_default_lag_partial {p : Period} {val o : Int} (hp : p = .on ∨ p = .tn ∨ p = .sn)
    (hval : Valid val) (hv1 : Valid (val + 1)) (hvl : Valid (val + 2))
    (hs : Valid (rawNear p val 2 + 1)) (hy : yearOf (rawNear p val 2 + 1) < 262142)
    (hopen : c (rawNear p val 2) = .ok true)
    (ho : SameMonth o (rawNear p val 2 + 1)) (hoo : c o = .ok true) (hoge : rawNear p val 2 + 1 ≤ o)
    (hcl : ClassifiedOn c (monthBegin (rawNear p val 2 + 1)) (monthEnd (rawNear p val 2 + 1))) :
    ∃ n f, nearDate p val c = .ok (some n) ∧ settlementDate p val c = .ok f ∧
      c n = .ok true ∧ c f = .ok true ∧ n < f :=
  C19_near_lt_far_partial hp hval hv1 hvl hs (by decide) hy hopen ho hoo hoge hcl

/-- Spot-next on Tuesday 3 October 2023 meets the hypotheses: legs 5 and 6
October. -/
example : ∃ n f, nearDateWithLag .sn (ymd 2023 10 3) weekendsOnly 2 = .ok (some n) ∧
    settlementDateWithLag .sn (ymd 2023 10 3) weekendsOnly 2 = .ok f ∧ n < f := by
  obtain ⟨n, f, h1, h2, _, _, h3⟩ := C19_near_lt_far_partial (c := weekendsOnly) (p := .sn)
    (val := ymd 2023 10 3) (lag := 2) (o := ymd 2023 10 6) (by simp) (by decide +kernel)
    (by decide +kernel) (by decide +kernel) (by decide +kernel) (by decide +kernel)
    (by decide +kernel) (by decide +kernel) ⟨by decide +kernel, by decide +kernel⟩
    (by decide +kernel) (by decide +kernel)
    (fun x _ _ => by unfold weekendsOnly; cases isWeekend x <;> simp)
  exact ⟨n, f, h1, h2, h3⟩

example : nearDate .sn (ymd 2023 10 3) weekendsOnly = .ok (some (ymd 2023 10 5)) ∧
    settlementDate .sn (ymd 2023 10 3) weekendsOnly = .ok (ymd 2023 10 6) := by
  decide +kernel

end Verif
