import Verif.Lemmas.Month

/-! # C01-C08: business-day adjustment, for every calendar -/

namespace Verif
open Outcome

variable {c : Cal} {d r : Int}

/-! ## C01 Following -/

/-- `Following` returns `r` exactly when `r` is the first open day on or after `d`
(all days passed over being closed) and `r` is representable. -/
theorem C01_following_iff :
    adjust c d .following = .ok r ↔ FirstOpenFrom c d r ∧ r ≤ maxDay := rollFwd_ok

/-- For a calendar that never panics: `r` is the least open day that is `≥ d`. -/
theorem C01_following_isLeast (hc : Total c) (hd : Valid d) :
    adjust c d .following = .ok r ↔ IsLeast {x | Valid x ∧ d ≤ x ∧ c x = .ok true} r := by
  rw [C01_following_iff]
  constructor
  · rintro ⟨h, hr⟩
    refine ⟨⟨⟨le_trans hd.1 h.le, hr⟩, h.le, h.isOpen⟩, ?_⟩
    rintro x ⟨_, hx, ho⟩
    by_contra hlt
    have := h.closed x hx (by omega)
    rw [this] at ho; cases ho
  · rintro ⟨⟨hv, hle, ho⟩, hmin⟩
    refine ⟨⟨hle, ho, fun x h1 h2 => ?_⟩, hv.2⟩
    have hvx : Valid x := ⟨le_trans hd.1 h1, by have := hv.2; omega⟩
    rcases hc x hvx with h3 | h3
    · have : r ≤ x := hmin ⟨hvx, h1, h3⟩
      omega
    · exact h3

/-- The only ways not to return: the calendar panics on a day that has to be
looked at, or every representable day from `d` on is closed. -/
theorem C01_following_panic_iff (hd : Valid d) :
    adjust c d .following = .panic ↔
      (∃ x, d ≤ x ∧ x ≤ maxDay ∧ c x = .panic ∧ ∀ y, d ≤ y → y < x → c y = .ok false) ∨
      (∀ x, d ≤ x → x ≤ maxDay → c x = .ok false) := by
  have hd2 := hd.2
  have e : ∀ x : Int, x < d + ((maxDay - d + 1).toNat : Int) ↔ x ≤ maxDay := by
    intro x; omega
  change rollFwdFuel c _ d = .panic ↔ _
  rw [rollFwdFuel_panic]
  simp only [e]

/-- Saturday 30 September 2023 rolls to Monday 2 October. -/
example : adjust weekendsOnly (ymd 2023 9 30) .following = .ok (ymd 2023 10 2) := by
  decide +kernel

theorem total_weekendsOnly : Total weekendsOnly := by
  intro x _
  unfold weekendsOnly
  cases isWeekend x <;> simp

/-- The hypotheses of `C01_following_isLeast` are met by a shipped calendar. -/
example : IsLeast {x | Valid x ∧ ymd 2023 9 30 ≤ x ∧ weekendsOnly x = .ok true} (ymd 2023 10 2) :=
  (C01_following_isLeast total_weekendsOnly (by decide +kernel)).1 (by decide +kernel)

/-- A calendar that is closed for ever panics. -/
example : adjust (fun _ => .ok false) (ymd 2023 9 30) .following = .panic :=
  (C01_following_panic_iff (by decide +kernel)).2 (Or.inr fun _ _ _ => rfl)

/-! ## C02 Preceding -/

/-- `Preceding` returns `r` exactly when `r` is the last open day on or before
`d` and `r` is representable. -/
theorem C02_preceding_iff :
    adjust c d .preceding = .ok r ↔ LastOpenTo c d r ∧ minDay ≤ r := rollBack_ok

theorem C02_preceding_isGreatest (hc : Total c) (hd : Valid d) :
    adjust c d .preceding = .ok r ↔ IsGreatest {x | Valid x ∧ x ≤ d ∧ c x = .ok true} r := by
  rw [C02_preceding_iff]
  constructor
  · rintro ⟨h, hr⟩
    refine ⟨⟨⟨hr, le_trans h.le hd.2⟩, h.le, h.isOpen⟩, ?_⟩
    rintro x ⟨_, hx, ho⟩
    by_contra hlt
    have := h.closed x (by omega) hx
    rw [this] at ho; cases ho
  · rintro ⟨⟨hv, hle, ho⟩, hmax⟩
    refine ⟨⟨hle, ho, fun x h1 h2 => ?_⟩, hv.1⟩
    have hvx : Valid x := ⟨by have := hv.1; omega, le_trans h2 hd.2⟩
    rcases hc x hvx with h3 | h3
    · have : x ≤ r := hmax ⟨hvx, h2, h3⟩
      omega
    · exact h3

/-- Sunday 1 October 2023 rolls back to Friday 29 September. -/
example : adjust weekendsOnly (ymd 2023 10 1) .preceding = .ok (ymd 2023 9 29) := by
  decide +kernel

example : IsGreatest {x | Valid x ∧ x ≤ ymd 2023 10 1 ∧ weekendsOnly x = .ok true}
    (ymd 2023 9 29) :=
  (C02_preceding_isGreatest total_weekendsOnly (by decide +kernel)).1 (by decide +kernel)

/-! ## C03 Modified conventions -/

/-- `ModifiedFollowing` stays in the month.  `o` is some open day of the month of
`d`, `b` some open day at most 300 days after `d`, and the calendar is defined on
the days between.  The result is the `Following` date when that is in the month,
else the last open day of the month. -/
theorem C03_modifiedFollowing {o b : Int} (hd : Valid d)
    (ho : SameMonth o d) (hopen : c o = .ok true)
    (hb1 : d ≤ b) (hb2 : b ≤ d + 300) (hbv : b ≤ maxDay) (hbo : c b = .ok true)
    (hcl : ClassifiedOn c (min o d) b) :
    ∃ r, adjust c d .modifiedFollowing = .ok r ∧ SameMonth r d ∧ c r = .ok true ∧
      ((∃ f, FirstOpenFrom c d f ∧ SameMonth f d ∧ r = f) ∨
       ((∀ x, d ≤ x → SameMonth x d → c x = .ok false) ∧ LastOpenTo c d r ∧
        LastOpenOfMonth c d r)) := by
  obtain ⟨f, hf, hfb⟩ := exists_firstOpen (c := c) hb1 hbo
    (fun x h1 h2 => hcl x (by omega) h2)
  have hfle := hf.le
  have hroll : rollFwd c d = .ok f := rollFwd_ok.2 ⟨hf, by omega⟩
  have hov := valid_of_sameMonth ho hd
  by_cases hm : monthOf f = monthOf d
  · have hs : SameMonth f d := (sameMonth_of_close hfle (by omega) hm.symm).symm
    refine ⟨f, ?_, hs, hf.isOpen, Or.inl ⟨f, hf, hs, rfl⟩⟩
    simp [adjust, hroll, hm]
  · have hclosed : ∀ x, d ≤ x → SameMonth x d → c x = .ok false := by
      intro x h1 h2
      apply hf.closed x h1
      by_contra hlt
      have := (h2.symm.between (x := f) hfle (by omega)).2
      exact hm this
    have hod : o < d := by
      by_contra hlt
      have := hclosed o (by omega) ho
      rw [this] at hopen; cases hopen
    obtain ⟨p, hp, hpo⟩ := exists_lastOpen (c := c) (d := d) (b := o) (by omega) hopen
      (fun x h1 h2 => hcl x (by omega) (by omega))
    have hple := hp.le
    have hs : SameMonth p d := (ho.between hpo hple).trans ho
    have hroll2 : rollBack c d = .ok p := rollBack_ok.2 ⟨hp, by have := hov.1; omega⟩
    refine ⟨p, ?_, hs, hp.isOpen, Or.inr ⟨hclosed, hp, ⟨hs, hp.isOpen, ?_⟩⟩⟩
    · simp [adjust, hroll, hm, hroll2]
    · intro x hx hxo
      by_contra hlt
      rcases le_total x d with h | h
      · have := hp.closed x (by omega) h
        rw [this] at hxo; cases hxo
      · have := hclosed x h hx
        rw [this] at hxo; cases hxo

/-- `ModifiedPreceding` stays in the month. -/
theorem C03_modifiedPreceding {o b : Int} (hd : Valid d)
    (ho : SameMonth o d) (hopen : c o = .ok true)
    (hb1 : b ≤ d) (hb2 : d - 300 ≤ b) (hbv : minDay ≤ b) (hbo : c b = .ok true)
    (hcl : ClassifiedOn c b (max o d)) :
    ∃ r, adjust c d .modifiedPreceding = .ok r ∧ SameMonth r d ∧ c r = .ok true ∧
      ((∃ f, LastOpenTo c d f ∧ SameMonth f d ∧ r = f) ∨
       ((∀ x, x ≤ d → SameMonth x d → c x = .ok false) ∧ FirstOpenFrom c d r ∧
        FirstOpenOfMonth c d r)) := by
  obtain ⟨f, hf, hfb⟩ := exists_lastOpen (c := c) hb1 hbo
    (fun x h1 h2 => hcl x h1 (by omega))
  have hfle := hf.le
  have hroll : rollBack c d = .ok f := rollBack_ok.2 ⟨hf, by omega⟩
  have hov := valid_of_sameMonth ho hd
  by_cases hm : monthOf f = monthOf d
  · have hs : SameMonth f d := sameMonth_of_close hfle (by omega) hm
    refine ⟨f, ?_, hs, hf.isOpen, Or.inl ⟨f, hf, hs, rfl⟩⟩
    simp [adjust, hroll, hm]
  · have hclosed : ∀ x, x ≤ d → SameMonth x d → c x = .ok false := by
      intro x h1 h2
      refine hf.closed x ?_ h1
      by_contra hlt
      have := ((h2.between (x := f) (by omega) hfle).trans h2).2
      exact hm this
    have hod : d < o := by
      by_contra hlt
      have := hclosed o (by omega) ho
      rw [this] at hopen; cases hopen
    obtain ⟨p, hp, hpo⟩ := exists_firstOpen (c := c) (d := d) (b := o) (by omega) hopen
      (fun x h1 h2 => hcl x (by omega) (by omega))
    have hple := hp.le
    have hs : SameMonth p d := ho.symm.between hple hpo
    have hroll2 : rollFwd c d = .ok p := rollFwd_ok.2 ⟨hp, by have := hov.2; omega⟩
    refine ⟨p, ?_, hs, hp.isOpen, Or.inr ⟨hclosed, hp, ⟨hs, hp.isOpen, ?_⟩⟩⟩
    · simp [adjust, hroll, hm, hroll2]
    · intro x hx hxo
      by_contra hlt
      rcases le_total x d with h | h
      · have := hclosed x h hx
        rw [this] at hxo; cases hxo
      · have := hp.closed x h (by omega)
        rw [this] at hxo; cases hxo

/-- The bound of 300 days on closures is needed: the code compares month numbers
only, so a calendar closed for a year moves the date to the next year.  (Closed
on 2023-01-31 .. 2024-01-01, open otherwise.) -/
theorem C03_long_closure_leaves_month :
    let c : Cal := fun x => .ok (decide (x < ymd 2023 1 31 ∨ ymd 2024 1 1 < x))
    adjust c (ymd 2023 1 31) .modifiedFollowing = .ok (ymd 2024 1 2) ∧
      SameMonth (ymd 2023 1 30) (ymd 2023 1 31) ∧ c (ymd 2023 1 30) = .ok true := by
  refine ⟨by decide +kernel, ⟨by decide +kernel, by decide +kernel⟩, by decide +kernel⟩

/-- Saturday 30 September 2023 is moved back to Friday (Following leaves the
month), Saturday 1 April 2023 with ModifiedPreceding forward to Monday. -/
example : adjust weekendsOnly (ymd 2023 9 30) .modifiedFollowing = .ok (ymd 2023 9 29) ∧
    adjust weekendsOnly (ymd 2023 4 1) .modifiedPreceding = .ok (ymd 2023 4 3) := by
  decide +kernel

/-- The hypotheses of `C03_modifiedFollowing` hold for that date. -/
example : ∃ r, adjust weekendsOnly (ymd 2023 9 30) .modifiedFollowing = .ok r ∧
    SameMonth r (ymd 2023 9 30) := by
  obtain ⟨r, h1, h2, _⟩ := C03_modifiedFollowing (c := weekendsOnly) (d := ymd 2023 9 30)
    (o := ymd 2023 9 29) (b := ymd 2023 10 2) (by decide +kernel)
    ⟨by decide +kernel, by decide +kernel⟩
    (by decide +kernel) (by decide +kernel) (by decide +kernel) (by decide +kernel)
    (by decide +kernel) (fun x _ _ => by unfold weekendsOnly; cases isWeekend x <;> simp)
  exact ⟨r, h1, h2⟩

/-! ## C04 HalfMonthModifiedFollowing -/

/-- A date in the first half of the month (days 1-15) whose half contains an open
day stays in that half. -/
theorem C04_firstHalf {o b : Int} (hd : Valid d) (h15 : dayOf d ≤ 15)
    (ho : SameMonth o d) (ho15 : dayOf o ≤ 15) (hopen : c o = .ok true)
    (hb1 : d ≤ b) (hb2 : b ≤ d + 300) (hbv : b ≤ maxDay) (hbo : c b = .ok true)
    (hcl : ClassifiedOn c (min o d) b) :
    ∃ r, adjust c d .halfMonthModifiedFollowing = .ok r ∧ SameMonth r d ∧ dayOf r ≤ 15 ∧
      c r = .ok true ∧ (FirstOpenFrom c d r ∨ LastOpenTo c d r) := by
  obtain ⟨f, hf, hfb⟩ := exists_firstOpen (c := c) hb1 hbo
    (fun x h1 h2 => hcl x (by omega) h2)
  have hfle := hf.le
  have hroll : rollFwd c d = .ok f := rollFwd_ok.2 ⟨hf, by omega⟩
  have hov := valid_of_sameMonth ho hd
  by_cases hm : monthOf f = monthOf d ∧ dayOf f ≤ 15
  · have hs : SameMonth f d := (sameMonth_of_close hfle (by omega) hm.1.symm).symm
    refine ⟨f, ?_, hs, hm.2, hf.isOpen, Or.inl hf⟩
    have : ¬ (dayOf d ≤ 15 ∧ dayOf f > 15) := by omega
    simp [adjust, hroll, hm.1]
    omega
  · have hod : o < d := by
      by_contra hlt
      have hof : f ≤ o := by
        by_contra hlt2
        have := hf.closed o (by omega) (by omega)
        rw [this] at hopen; cases hopen
      have hs : SameMonth f d := ho.symm.between hfle hof
      have := sameMonth_dayOf (hs.trans ho.symm)
      exact hm ⟨hs.2, by omega⟩
    obtain ⟨p, hp, hpo⟩ := exists_lastOpen (c := c) (d := d) (b := o) (by omega) hopen
      (fun x h1 h2 => hcl x (by omega) (by omega))
    have hple := hp.le
    have hs : SameMonth p d := (ho.between hpo hple).trans ho
    have hday := sameMonth_dayOf hs
    have hroll2 : rollBack c d = .ok p := rollBack_ok.2 ⟨hp, by have := hov.1; omega⟩
    refine ⟨p, ?_, hs, by omega, hp.isOpen, Or.inr hp⟩
    by_cases hm1 : monthOf f = monthOf d
    · have : dayOf f > 15 := by
        by_contra h
        exact hm ⟨hm1, by omega⟩
      simp [adjust, hroll, hm1, hroll2, h15, this]
    · simp [adjust, hroll, hm1, hroll2]

/-- From the 16th on the convention is `ModifiedFollowing`. -/
theorem C04_secondHalf (h16 : 15 < dayOf d) :
    adjust c d .halfMonthModifiedFollowing = adjust c d .modifiedFollowing := by
  have : ¬ (dayOf d ≤ 15) := by omega
  simp [adjust, this]

/-- Saturday 15 July 2023: Following is Monday the 17th, so the date is moved back
to Friday the 14th; ModifiedFollowing would give the 17th. -/
example : adjust weekendsOnly (ymd 2023 7 15) .halfMonthModifiedFollowing = .ok (ymd 2023 7 14) ∧
    adjust weekendsOnly (ymd 2023 7 15) .modifiedFollowing = .ok (ymd 2023 7 17) ∧
    dayOf (ymd 2023 7 15) ≤ 15 ∧ 15 < dayOf (ymd 2023 7 16) := by
  decide +kernel

example : ∃ r, adjust weekendsOnly (ymd 2023 7 15) .halfMonthModifiedFollowing = .ok r ∧
    dayOf r ≤ 15 := by
  obtain ⟨r, h1, _, h2, _⟩ := C04_firstHalf (c := weekendsOnly) (d := ymd 2023 7 15)
    (o := ymd 2023 7 3) (b := ymd 2023 7 17) (by decide +kernel) (by decide +kernel)
    ⟨by decide +kernel, by decide +kernel⟩
    (by decide +kernel) (by decide +kernel) (by decide +kernel) (by decide +kernel)
    (by decide +kernel) (by decide +kernel)
    (fun x _ _ => by unfold weekendsOnly; cases isWeekend x <;> simp)
  exact ⟨r, h1, h2⟩

/-! ## C05 Idempotence -/

/-- Every convention leaves a business day alone. -/
theorem C05_business_day_fixed (hd : Valid d) (h : c d = .ok true) (bdc : Bdc) :
    adjust c d bdc = .ok d := by
  have h1 := rollFwd_of_open hd.2 h
  have h2 := rollBack_of_open hd.1 h
  cases bdc
  case halfMonthModifiedFollowing =>
    simp only [adjust, h1, ok_bind, ne_eq, not_true_eq_false, if_false]
    rw [if_neg (by omega)]
  case nearest =>
    have := hd.1
    have := hd.2
    have e : ∃ k, (min (maxDay - d) (d - minDay) + 1).toNat = k + 1 :=
      ⟨(min (maxDay - d) (d - minDay)).toNat, by omega⟩
    obtain ⟨k, e⟩ := e
    simp [adjust, e, nearestFuel, h]
  all_goals simp [adjust, h1, h2]

/-- Every result except those of `Unadjusted` and `Nearest` is a business day. -/
theorem C05_result_open (bdc : Bdc) (h1 : bdc ≠ .unadjusted) (h2 : bdc ≠ .nearest)
    (h : adjust c d bdc = .ok r) : c r = .ok true := by
  have hf : ∀ {x y}, rollFwd c x = .ok y → c y = .ok true := fun h => (rollFwd_ok.1 h).1.isOpen
  have hb : ∀ {x y}, rollBack c x = .ok y → c y = .ok true := fun h => (rollBack_ok.1 h).1.isOpen
  cases bdc
  case unadjusted => exact absurd rfl h1
  case nearest => exact absurd rfl h2
  case following => exact hf h
  case preceding => exact hb h
  case modifiedFollowing =>
    rw [adjust, bind_eq_ok] at h
    obtain ⟨a, ha, h⟩ := h
    split at h
    · exact hb h
    · simp only [ok.injEq] at h; subst h; exact hf ha
  case halfMonthModifiedFollowing =>
    rw [adjust, bind_eq_ok] at h
    obtain ⟨a, ha, h⟩ := h
    split at h
    · exact hb h
    · split at h
      · exact hb h
      · simp only [ok.injEq] at h; subst h; exact hf ha
  case modifiedPreceding =>
    rw [adjust, bind_eq_ok] at h
    obtain ⟨a, ha, h⟩ := h
    split at h
    · exact hf h
    · simp only [ok.injEq] at h; subst h; exact hb ha

/-- Adjusted dates stay representable. -/
theorem C05_result_valid (bdc : Bdc) (h2 : bdc ≠ .nearest) (hd : Valid d)
    (h : adjust c d bdc = .ok r) : Valid r := by
  have hf : ∀ {y}, rollFwd c d = .ok y → Valid y := fun h =>
    ⟨le_trans hd.1 (rollFwd_ok.1 h).1.le, (rollFwd_ok.1 h).2⟩
  have hb : ∀ {y}, rollBack c d = .ok y → Valid y := fun h =>
    ⟨(rollBack_ok.1 h).2, le_trans (rollBack_ok.1 h).1.le hd.2⟩
  cases bdc
  case unadjusted => simp only [adjust, ok.injEq] at h; subst h; exact hd
  case nearest => exact absurd rfl h2
  case following => exact hf h
  case preceding => exact hb h
  case modifiedFollowing =>
    rw [adjust, bind_eq_ok] at h
    obtain ⟨a, ha, h⟩ := h
    split at h
    · exact hb h
    · simp only [ok.injEq] at h; subst h; exact hf ha
  case halfMonthModifiedFollowing =>
    rw [adjust, bind_eq_ok] at h
    obtain ⟨a, ha, h⟩ := h
    split at h
    · exact hb h
    · split at h
      · exact hb h
      · simp only [ok.injEq] at h; subst h; exact hf ha
  case modifiedPreceding =>
    rw [adjust, bind_eq_ok] at h
    obtain ⟨a, ha, h⟩ := h
    split at h
    · exact hf h
    · simp only [ok.injEq] at h; subst h; exact hb ha

/-- Adjusting twice is adjusting once, for every convention except `Nearest`
(which is not idempotent, see `C05_nearest_not_idempotent_false`). -/
theorem C05_idempotent_partial (bdc : Bdc) (h2 : bdc ≠ .nearest) (hd : Valid d)
    (h : adjust c d bdc = .ok r) : adjust c r bdc = .ok r := by
  by_cases h1 : bdc = .unadjusted
  · subst h1; rfl
  · exact C05_business_day_fixed (C05_result_valid bdc h2 hd h) (C05_result_open bdc h1 h2 h) bdc

/-- `Nearest` oscillates between Saturday and Sunday. -/
theorem C05_nearest_not_idempotent_false :
    adjust weekendsOnly (ymd 2023 9 30) .nearest = .ok (ymd 2023 10 1) ∧
    adjust weekendsOnly (ymd 2023 10 1) .nearest = .ok (ymd 2023 9 30) := by
  decide +kernel

example : adjust weekendsOnly (ymd 2023 9 29) .halfMonthModifiedFollowing = .ok (ymd 2023 9 29) :=
  C05_business_day_fixed (by decide +kernel) (by decide +kernel) _

example : adjust weekendsOnly (ymd 2023 9 29) .modifiedFollowing = .ok (ymd 2023 9 29) :=
  C05_idempotent_partial (d := ymd 2023 9 30) _ (by decide) (by decide +kernel) (by decide +kernel)

/-! ## C06 Monotonicity -/

theorem C06_following_mono {d1 d2 r1 r2 : Int} (h : d1 ≤ d2)
    (h1 : adjust c d1 .following = .ok r1) (h2 : adjust c d2 .following = .ok r2) :
    r1 ≤ r2 ∧ d1 ≤ r1 := by
  obtain ⟨f1, _⟩ := rollFwd_ok.1 h1
  obtain ⟨f2, _⟩ := rollFwd_ok.1 h2
  refine ⟨?_, f1.le⟩
  by_contra hlt
  have := f1.closed r2 (le_trans h f2.le) (by omega)
  rw [f2.isOpen] at this; cases this

theorem C06_preceding_mono {d1 d2 r1 r2 : Int} (h : d1 ≤ d2)
    (h1 : adjust c d1 .preceding = .ok r1) (h2 : adjust c d2 .preceding = .ok r2) :
    r1 ≤ r2 ∧ r2 ≤ d2 := by
  obtain ⟨f1, _⟩ := rollBack_ok.1 h1
  obtain ⟨f2, _⟩ := rollBack_ok.1 h2
  refine ⟨?_, f2.le⟩
  by_contra hlt
  have := f2.closed r1 (by omega) (le_trans f1.le h)
  rw [f1.isOpen] at this; cases this

/-- Thursday to Saturday, adjusted: order preserved, results different. -/
example : adjust weekendsOnly (ymd 2023 9 28) .following = .ok (ymd 2023 9 28) ∧
    adjust weekendsOnly (ymd 2023 9 30) .following = .ok (ymd 2023 10 2) ∧
    adjust weekendsOnly (ymd 2023 9 28) .preceding = .ok (ymd 2023 9 28) ∧
    adjust weekendsOnly (ymd 2023 9 30) .preceding = .ok (ymd 2023 9 29) := by
  decide +kernel

/-! ## C07 Nearest -/

theorem nearestFuel_ok (c : Cal) (n : Nat) (d1 d2 a b : Int) :
    nearestFuel c n d1 d2 = .ok (a, b) ↔
      ∃ k : Nat, k < n ∧ a = d1 + k ∧ b = d2 - k ∧
        (c a = .ok true ∨ (c a = .ok false ∧ c b = .ok true)) ∧
        ∀ j : Nat, j < k → c (d1 + j) = .ok false ∧ c (d2 - j) = .ok false := by
  induction n generalizing d1 d2 with
  | zero => simp [nearestFuel]
  | succ n ih =>
    rw [nearestFuel]
    have lift : (c d1 = .ok false ∧ c d2 = .ok false) →
        ((∃ k : Nat, k < n ∧ a = d1 + 1 + k ∧ b = d2 - 1 - k ∧
            (c a = .ok true ∨ (c a = .ok false ∧ c b = .ok true)) ∧
            ∀ j : Nat, j < k → c (d1 + 1 + j) = .ok false ∧ c (d2 - 1 - j) = .ok false) ↔
         (∃ k : Nat, k < n + 1 ∧ a = d1 + k ∧ b = d2 - k ∧
            (c a = .ok true ∨ (c a = .ok false ∧ c b = .ok true)) ∧
            ∀ j : Nat, j < k → c (d1 + j) = .ok false ∧ c (d2 - j) = .ok false)) := by
      rintro ⟨hc1, hc2⟩
      constructor
      · rintro ⟨k, h1, h2, h3, h4, h5⟩
        refine ⟨k + 1, by omega, by push_cast; omega, by push_cast; omega, h4, ?_⟩
        intro j hj
        cases j with
        | zero => simpa using ⟨hc1, hc2⟩
        | succ j =>
          have := h5 j (by omega)
          push_cast
          rw [show d1 + ((j : Int) + 1) = d1 + 1 + j by omega,
            show d2 - ((j : Int) + 1) = d2 - 1 - j by omega]
          exact this
      · rintro ⟨k, h1, h2, h3, h4, h5⟩
        cases k with
        | zero =>
          simp only [Nat.cast_zero, add_zero, sub_zero] at h2 h3
          subst h2 h3
          rcases h4 with h4 | ⟨_, h4⟩
          · rw [hc1] at h4; cases h4
          · rw [hc2] at h4; cases h4
        | succ k =>
          refine ⟨k, by omega, by push_cast at h2; omega, by push_cast at h3; omega, h4, ?_⟩
          intro j hj
          have := h5 (j + 1) (by omega)
          push_cast at this
          rw [show d1 + ((j : Int) + 1) = d1 + 1 + j by omega,
            show d2 - ((j : Int) + 1) = d2 - 1 - j by omega] at this
          exact this
    have first : ∀ {P : Prop}, (c d1 = .ok false → P) → (c d1 = .ok false → c d2 = .ok false → False) →
        (∃ k : Nat, k < n + 1 ∧ a = d1 + k ∧ b = d2 - k ∧
            (c a = .ok true ∨ (c a = .ok false ∧ c b = .ok true)) ∧
            ∀ j : Nat, j < k → c (d1 + j) = .ok false ∧ c (d2 - j) = .ok false) →
        a = d1 ∧ b = d2 ∧ (c d1 = .ok true ∨ (c d1 = .ok false ∧ c d2 = .ok true)) := by
      rintro P _ hno ⟨k, h1, h2, h3, h4, h5⟩
      cases k with
      | zero =>
        simp only [Nat.cast_zero, add_zero, sub_zero] at h2 h3
        subst h2 h3
        exact ⟨rfl, rfl, h4⟩
      | succ k =>
        have := h5 0 (by omega)
        simp only [Nat.cast_zero, add_zero, sub_zero] at this
        exact absurd (hno this.1 this.2) id
    rcases hc : c d1 with x | e | _
    · cases x with
      | true =>
        simp only [ok_bind, if_true, ok.injEq, Prod.mk.injEq]
        constructor
        · rintro ⟨rfl, rfl⟩
          exact ⟨0, by omega, by simp, by simp, Or.inl hc, fun j hj => by omega⟩
        · intro h
          obtain ⟨h1, h2, _⟩ := first (P := True) (fun _ => trivial)
            (fun h _ => by rw [hc] at h; cases h) h
          exact ⟨h1.symm, h2.symm⟩
      | false =>
        simp only [ok_bind, Bool.false_eq_true, if_false]
        rcases hc2 : c d2 with y | e | _
        · cases y with
          | true =>
            simp only [ok_bind, if_true, ok.injEq, Prod.mk.injEq]
            constructor
            · rintro ⟨rfl, rfl⟩
              exact ⟨0, by omega, by simp, by simp, Or.inr ⟨hc, hc2⟩, fun j hj => by omega⟩
            · intro h
              obtain ⟨h1, h2, _⟩ := first (P := True) (fun _ => trivial)
                (fun _ h => by rw [hc2] at h; cases h) h
              exact ⟨h1.symm, h2.symm⟩
          | false =>
            simp only [ok_bind, Bool.false_eq_true, if_false]
            rw [ih, lift ⟨hc, hc2⟩]
        · simp only [fail_bind, reduceCtorEq, false_iff]
          intro h
          obtain ⟨_, _, h3⟩ := first (P := True) (fun _ => trivial)
                (fun _ h => by rw [hc2] at h; cases h) h
          rw [hc, hc2] at h3
          simp at h3
        · simp only [panic_bind, reduceCtorEq, false_iff]
          intro h
          obtain ⟨_, _, h3⟩ := first (P := True) (fun _ => trivial)
                (fun _ h => by rw [hc2] at h; cases h) h
          rw [hc, hc2] at h3
          simp at h3
    · simp only [fail_bind, reduceCtorEq, false_iff]
      intro h
      obtain ⟨_, _, h3⟩ := first (P := True) (fun _ => trivial)
            (fun h _ => by rw [hc] at h; cases h) h
      rw [hc] at h3
      simp at h3
    · simp only [panic_bind, reduceCtorEq, false_iff]
      intro h
      obtain ⟨_, _, h3⟩ := first (P := True) (fun _ => trivial)
            (fun h _ => by rw [hc] at h; cases h) h
      rw [hc] at h3
      simp at h3

/-- Exactly what `Nearest` returns: with `k` the distance to the nearest open day,
it is `d - k` when `d + k` is open (whether or not `d - k` is) and `d + k` when only
`d - k` is open. -/
theorem C07_nearest_exact (hd : Valid d) :
    adjust c d .nearest = .ok r ↔
      ∃ k : Int, 0 ≤ k ∧ d + k ≤ maxDay ∧ minDay ≤ d - k ∧
        (∀ j, 0 ≤ j → j < k → c (d + j) = .ok false ∧ c (d - j) = .ok false) ∧
        ((c (d + k) = .ok true ∧ r = d - k) ∨
         (c (d + k) = .ok false ∧ c (d - k) = .ok true ∧ r = d + k)) := by
  have hd1 := hd.1
  have hd2 := hd.2
  rw [adjust, bind_eq_ok]
  constructor
  · rintro ⟨⟨a, b⟩, hab, h⟩
    obtain ⟨k, h1, h2, h3, h4, h5⟩ := (nearestFuel_ok _ _ _ _ _ _).1 hab
    refine ⟨k, by omega, by omega, by omega, fun j hj1 hj2 => ?_, ?_⟩
    · have := h5 j.toNat (by omega)
      rwa [show (j.toNat : Int) = j by omega] at this
    · subst h2 h3
      rcases h4 with h4 | ⟨h4, h6⟩
      · simp only [h4, ok_bind, if_true, ok.injEq] at h
        exact Or.inl ⟨h4, h.symm⟩
      · simp only [h4, ok_bind, Bool.false_eq_true, if_false, ok.injEq] at h
        exact Or.inr ⟨h4, h6, h.symm⟩
  · rintro ⟨k, h1, h2, h3, h4, h5⟩
    refine ⟨(d + k, d - k), (nearestFuel_ok _ _ _ _ _ _).2 ⟨k.toNat, by omega, by omega, by omega,
      ?_, fun j hj => h4 j (by omega) (by omega)⟩, ?_⟩
    · rcases h5 with h5 | h5
      · exact Or.inl h5.1
      · exact Or.inr ⟨h5.1, h5.2.1⟩
    · rcases h5 with ⟨h5, rfl⟩ | ⟨h5, h6, rfl⟩
      · simp [h5]
      · simp [h5]

/-- The part of the property that holds: when the two candidates at the smallest
distance `k` are both open (in particular when `d` itself is open) the result is an
open day and no open day is closer.  Missing: the case where only one candidate
is open, for which the code returns the other, closed one. -/
theorem C07_nearest_partial {k : Int} (hd : Valid d) (hk : 0 ≤ k)
    (h1 : d + k ≤ maxDay) (h2 : minDay ≤ d - k)
    (h3 : ∀ j, 0 ≤ j → j < k → c (d + j) = .ok false ∧ c (d - j) = .ok false)
    (h4 : c (d + k) = .ok true) (h5 : c (d - k) = .ok true) :
    adjust c d .nearest = .ok (d - k) ∧ ∀ x, c x = .ok true → k ≤ |x - d| := by
  refine ⟨(C07_nearest_exact hd).2 ⟨k, hk, h1, h2, h3, Or.inl ⟨h4, rfl⟩⟩, fun x hx => ?_⟩
  by_contra hlt
  rcases le_total d x with h | h
  · rw [abs_of_nonneg (by omega)] at hlt
    have := (h3 (x - d) (by omega) (by omega)).1
    rw [show d + (x - d) = x by omega, hx] at this; cases this
  · rw [abs_of_nonpos (by omega)] at hlt
    have := (h3 (d - x) (by omega) (by omega)).2
    rw [show d - (d - x) = x by omega, hx] at this; cases this

/-- Refutation of the property: whenever exactly one of the two nearest
candidates is open, `Nearest` returns a closed day. -/
theorem C07_nearest_returns_holiday_false {k : Int} (hd : Valid d) (hk : 0 < k)
    (h1 : d + k ≤ maxDay) (h2 : minDay ≤ d - k)
    (h3 : ∀ j, 0 ≤ j → j < k → c (d + j) = .ok false ∧ c (d - j) = .ok false)
    (h4 : (c (d + k) = .ok true ∧ c (d - k) = .ok false) ∨
      (c (d + k) = .ok false ∧ c (d - k) = .ok true)) :
    ∃ r, adjust c d .nearest = .ok r ∧ c r = .ok false := by
  rcases h4 with ⟨h4, h5⟩ | ⟨h4, h5⟩
  · exact ⟨d - k, (C07_nearest_exact hd).2 ⟨k, hk.le, h1, h2, h3, Or.inl ⟨h4, rfl⟩⟩, h5⟩
  · exact ⟨d + k, (C07_nearest_exact hd).2 ⟨k, hk.le, h1, h2, h3, Or.inr ⟨h4, h5, rfl⟩⟩, h4⟩

/-- Concrete witness with a shipped calendar: the weekend calendar moves Saturday
30 September 2023 to Sunday. -/
theorem C07_nearest_weekend_false :
    adjust weekendsOnly (ymd 2023 9 30) .nearest = .ok (ymd 2023 10 1) ∧
    weekendsOnly (ymd 2023 10 1) = .ok false := by
  decide +kernel

/-- A closed Wednesday between two open days meets the hypotheses of the partial
theorem with `k = 1`. -/
example :
    let c : Cal := fun x => .ok (decide (x ≠ ymd 2023 9 27))
    adjust c (ymd 2023 9 27) .nearest = .ok (ymd 2023 9 26) := by
  intro c
  have := (C07_nearest_partial (c := c) (d := ymd 2023 9 27) (k := 1) (by decide +kernel)
    (by decide) (by decide +kernel) (by decide +kernel)
    (fun j h1 h2 => by
      have : j = 0 := by omega
      subst this; simp [c])
    (by decide +kernel) (by decide +kernel)).1
  rw [this]; decide +kernel

/-! ## C08 Joint calendars -/

/-- A joint calendar is open iff every member is open. -/
theorem C08_joint_open_iff (l : List Cal) (d : Int) :
    joint l d = .ok true ↔ ∀ c ∈ l, c d = .ok true := by
  induction l with
  | nil => simp [joint]
  | cons c cs ih =>
    rw [joint, bind_eq_ok]
    constructor
    · rintro ⟨b, hb, h⟩
      cases b with
      | true =>
        simp only [if_true] at h
        intro c' hc'
        rcases List.mem_cons.1 hc' with rfl | h'
        · exact hb
        · exact (ih.1 h) c' h'
      | false => simp at h
    · intro h
      exact ⟨true, h c (by simp), by simpa using ih.2 fun c' hc' => h c' (by simp [hc'])⟩

/-- A joint calendar whose members can classify the day is closed iff some member
is closed. -/
theorem C08_joint_closed_iff (l : List Cal) (d : Int)
    (hcl : ∀ c ∈ l, c d = .ok true ∨ c d = .ok false) :
    joint l d = .ok false ↔ ∃ c ∈ l, c d = .ok false := by
  induction l with
  | nil => simp [joint]
  | cons c cs ih =>
    rw [joint]
    rcases hcl c (by simp) with h | h
    · simp only [h, ok_bind, if_true]
      rw [ih fun c' hc' => hcl c' (by simp [hc'])]
      simp [h]
    · simp [h]

/-- Any two member lists with the same members (in any order, with any
repetitions) give the same joint calendar. -/
theorem C08_joint_order_irrelevant (l l' : List Cal) (d : Int) (hmem : ∀ c, c ∈ l ↔ c ∈ l')
    (hcl : ∀ c ∈ l, c d = .ok true ∨ c d = .ok false) : joint l d = joint l' d := by
  have hcl' : ∀ c ∈ l', c d = .ok true ∨ c d = .ok false := fun c hc => hcl c ((hmem c).2 hc)
  by_cases h : ∀ c ∈ l, c d = .ok true
  · rw [(C08_joint_open_iff l d).2 h,
      (C08_joint_open_iff l' d).2 fun c hc => h c ((hmem c).2 hc)]
  · push Not at h
    obtain ⟨c, hc, hne⟩ := h
    have hf : c d = .ok false := (hcl c hc).resolve_left hne
    rw [(C08_joint_closed_iff l d hcl).2 ⟨c, hc, hf⟩,
      (C08_joint_closed_iff l' d hcl').2 ⟨c, (hmem c).1 hc, hf⟩]

theorem joint_append (l l' : List Cal) (d : Int) :
    joint (l ++ l') d = joint [joint l, joint l'] d := by
  induction l with
  | nil =>
    simp only [List.nil_append, joint, ok_bind, if_true]
    rcases joint l' d with b | e | _
    · cases b <;> simp
    · simp
    · simp
  | cons c cs ih =>
    simp only [List.cons_append, joint] at ih ⊢
    rcases c d with b | e | _
    · cases b <;> simp [ih]
    · simp
    · simp

/-- Nesting joint calendars is flattening the member lists (also when members
panic). -/
theorem C08_joint_flatten (ls : List (List Cal)) (d : Int) :
    joint (ls.map joint) d = joint ls.flatten d := by
  induction ls with
  | nil => simp [joint]
  | cons l ls ih =>
    rw [List.flatten_cons, joint_append]
    simp only [List.map_cons, joint]
    rw [ih]
    rcases joint l d with b | e | _
    · cases b
      · simp
      · simp only [ok_bind, if_true]
        rcases joint ls.flatten d with b | e | _
        · cases b <;> simp
        · simp
        · simp
    · simp
    · simp

/-- Dates produced on a joint calendar are business days of every member. -/
theorem C08_adjusted_open_for_members (l : List Cal) (bdc : Bdc) (h1 : bdc ≠ .unadjusted)
    (h2 : bdc ≠ .nearest) (h : adjust (joint l) d bdc = .ok r) : ∀ c ∈ l, c r = .ok true :=
  (C08_joint_open_iff l r).1 (C05_result_open bdc h1 h2 h)

/-- Weekend calendar joined with one that is additionally closed on Monday 2
October 2023. -/
example :
    adjust (joint [weekendsOnly, fun x => .ok (decide (x ≠ ymd 2023 10 2))]) (ymd 2023 9 30)
      .following = .ok (ymd 2023 10 3) := by
  decide +kernel

end Verif
