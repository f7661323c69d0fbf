import Verif.Lemmas.Forwards
import Mathlib.Tactic.NormNum

/-!
# C30: forward points

All statements hold for every implementation of the two standard-library calls that
meets `SliceOps`; `SliceOps.std` is one.
-/

namespace Verif

open Outcome

variable {ops : SliceOps} {h : FwdHelper} {c : Cal} {t : Int} {l : List (Int × ℝ)}

/-- On or before the valuation date there is no forward. -/
theorem C30_none_before (ht : t ≤ h.valuation) : getForward ops h t c = .ok none := by
  unfold getForward; rw [if_pos ht]

/-- The lookup is decided by the dated quotes. -/
theorem getForward_dated (hd : Dated h c l) (ht : h.valuation < t) :
    getForward ops h t c =
      if l.length < 2 then .ok none else interpolateAt ops (ops.sort l) t := by
  unfold getForward
  rw [if_neg (by omega), (dated_iff h c l).2 hd, ok_bind]

/-- Fewer than two quotes give no forward. -/
theorem C30_none_few (hd : Dated h c l) (hl : h.quotes.length < 2) :
    getForward ops h t c = .ok none := by
  by_cases ht : h.valuation < t
  · rw [getForward_dated hd ht, if_pos (by rw [← hd.length_eq]; exact hl)]
  · exact C30_none_before (by omega)

theorem brackets_perm {l l' : List (Int × ℝ)} (hp : l'.Perm l) {a b : Int × ℝ}
    (hb : Brackets l' a b t) : Brackets l a b t := by
  obtain ⟨h1, h2, h3, h4, h5⟩ := hb
  exact ⟨hp.mem_iff.1 h1, hp.mem_iff.1 h2, h3, h4, fun q hq => h5 q (hp.mem_iff.2 hq)⟩

/-- The three possible answers: a quoted value at a quoted date, nothing outside the
quoted span, and the straight line between two neighbouring dates otherwise. -/
theorem C30_cases (hd : Dated h c l) (ht : h.valuation < t) (hl : 2 ≤ h.quotes.length) :
    (∃ v, (t, v) ∈ l ∧ getForward ops h t c = .ok (some v)) ∨
    (((∀ q ∈ l, q.1 < t) ∨ ∀ q ∈ l, t < q.1) ∧ getForward ops h t c = .ok none) ∨
    (∃ a b, Brackets l a b t ∧ getForward ops h t c = .ok (some (lineThrough a b t))) := by
  rw [getForward_dated hd ht, if_neg (by rw [← hd.length_eq]; omega)]
  have hp := ops.sort_perm l
  rcases interpolateAt_cases ops t (ops.sort_sorted l) with ⟨v, h1, h2⟩ | ⟨h1, h2⟩ | ⟨a, b, h1, h2⟩
  · exact .inl ⟨v, hp.mem_iff.1 h1, h2⟩
  · refine .inr (.inl ⟨?_, h2⟩)
    rcases h1 with h1 | h1
    · exact .inl fun q hq => h1 q (hp.mem_iff.2 hq)
    · exact .inr fun q hq => h1 q (hp.mem_iff.2 hq)
  · exact .inr (.inr ⟨a, b, brackets_perm hp h1, h2⟩)

/-- Outside the span of the settlement dates there is no forward. -/
theorem C30_none_outside (hd : Dated h c l)
    (ho : (∀ q ∈ l, q.1 < t) ∨ ∀ q ∈ l, t < q.1) : getForward ops h t c = .ok none := by
  by_cases hl : h.quotes.length < 2
  · exact C30_none_few hd hl
  by_cases ht : h.valuation < t
  · rcases C30_cases (ops := ops) hd ht (by omega) with ⟨v, h1, -⟩ | ⟨-, h2⟩ | ⟨a, b, h1, -⟩
    · rcases ho with ho | ho <;> exact absurd (ho _ h1) (lt_irrefl _)
    · exact h2
    · obtain ⟨ha, hb, h3, h4, -⟩ := h1
      rcases ho with ho | ho
      · have := ho _ hb; omega
      · have := ho _ ha; omega
  · exact C30_none_before (by omega)

/-- On a settlement date that occurs once the quoted value is returned. -/
theorem C30_exact {v : ℝ} (hd : Dated h c l) (ht : h.valuation < t) (hl : 2 ≤ h.quotes.length)
    (hv : (t, v) ∈ l) (hu : ∀ w, (t, w) ∈ l → w = v) : getForward ops h t c = .ok (some v) := by
  rcases C30_cases (ops := ops) hd ht hl with ⟨w, h1, h2⟩ | ⟨h1, -⟩ | ⟨a, b, h1, -⟩
  · rw [h2, hu w h1]
  · rcases h1 with h1 | h1 <;> exact absurd (h1 _ hv) (lt_irrefl _)
  · obtain ⟨ha, hb, h3, h4, h5⟩ := h1
    have := h5 _ hv
    simp only at this; omega

/-- On a settlement date shared by several quotes one of their values is returned. -/
theorem C30_exact_duplicate {v : ℝ} (hd : Dated h c l) (ht : h.valuation < t)
    (hl : 2 ≤ h.quotes.length) (hv : (t, v) ∈ l) :
    ∃ w, (t, w) ∈ l ∧ getForward ops h t c = .ok (some w) := by
  rcases C30_cases (ops := ops) hd ht hl with h1 | ⟨h1, -⟩ | ⟨a, b, h1, -⟩
  · exact h1
  · rcases h1 with h1 | h1 <;> exact absurd (h1 _ hv) (lt_irrefl _)
  · obtain ⟨ha, hb, h3, h4, h5⟩ := h1
    have := h5 _ hv
    simp only at this; omega

/-- Between two neighbouring settlement dates, each quoted once, the answer is the
straight line through the two quotes. -/
theorem C30_linear {a b : Int × ℝ} (hd : Dated h c l) (ht : h.valuation < t)
    (hb : Brackets l a b t) (hua : ∀ q ∈ l, q.1 = a.1 → q = a) (hub : ∀ q ∈ l, q.1 = b.1 → q = b) :
    getForward ops h t c = .ok (some (lineThrough a b t)) := by
  obtain ⟨ha, hb', h3, h4, h5⟩ := hb
  have hl : 2 ≤ h.quotes.length := by
    rw [hd.length_eq]
    rcases l with _ | ⟨x, _ | ⟨y, l⟩⟩
    · simp at ha
    · simp only [List.mem_singleton] at ha hb'
      rw [ha] at h3; rw [hb'] at h4; omega
    · simp
  rcases C30_cases (ops := ops) hd ht hl with ⟨w, h1, -⟩ | ⟨h1, -⟩ | ⟨a', b', h1, h2⟩
  · have := h5 _ h1; simp only at this; omega
  · rcases h1 with h1 | h1
    · have := h1 _ hb'; omega
    · have := h1 _ ha; omega
  · obtain ⟨g1, g2, g3, g4, g5⟩ := h1
    have e1 : a' = a := hua a' g1 (by
      have k1 := h5 a' g1; have k2 := g5 a ha; omega)
    have e2 : b' = b := hub b' g2 (by
      have k1 := h5 b' g2; have k2 := g5 b hb'; omega)
    rw [h2, e1, e2]

/-- A straight line never leaves the range of its end points. -/
theorem lineThrough_between {a b : Int × ℝ} (h1 : a.1 < t) (h2 : t < b.1) :
    min a.2 b.2 ≤ lineThrough a b t ∧ lineThrough a b t ≤ max a.2 b.2 := by
  have p1 : (0 : ℝ) < ((t - a.1 : Int) : ℝ) := by exact_mod_cast (by omega : (0 : Int) < t - a.1)
  have p2 : (0 : ℝ) < ((b.1 - t : Int) : ℝ) := by exact_mod_cast (by omega : (0 : Int) < b.1 - t)
  have p3 : ((b.1 - a.1 : Int) : ℝ) = ((b.1 - t : Int) : ℝ) + ((t - a.1 : Int) : ℝ) := by
    push_cast; ring
  unfold lineThrough
  rw [p3]
  generalize ((t - a.1 : Int) : ℝ) = x at p1 ⊢
  generalize ((b.1 - t : Int) : ℝ) = y at p2 ⊢
  have m1 := min_le_left a.2 b.2
  have m2 := min_le_right a.2 b.2
  have m3 := le_max_left a.2 b.2
  have m4 := le_max_right a.2 b.2
  rw [le_div_iff₀ (by linarith), div_le_iff₀ (by linarith)]
  constructor <;> nlinarith

/-- The answer never leaves the range of the quoted values. -/
theorem C30_no_overshoot {x : ℝ} (hd : Dated h c l) (hx : getForward ops h t c = .ok (some x)) :
    ∃ a ∈ l, ∃ b ∈ l, a.1 ≤ t ∧ t ≤ b.1 ∧ min a.2 b.2 ≤ x ∧ x ≤ max a.2 b.2 ∧
      ∀ q ∈ l, q.1 ≤ a.1 ∨ b.1 ≤ q.1 := by
  by_cases ht : h.valuation < t
  · by_cases hl : h.quotes.length < 2
    · rw [C30_none_few hd hl] at hx; cases hx
    rcases C30_cases (ops := ops) hd ht (by omega) with ⟨w, h1, h2⟩ | ⟨-, h2⟩ | ⟨a, b, h1, h2⟩
    · rw [h2] at hx; cases hx
      exact ⟨(t, x), h1, (t, x), h1, le_rfl, le_rfl, by simp, by simp, fun q _ => by
        simp only; omega⟩
    · rw [h2] at hx; cases hx
    · rw [h2] at hx; cases hx
      obtain ⟨h3, h4, h5, h6, h7⟩ := h1
      have := lineThrough_between h5 h6
      exact ⟨a, h3, b, h4, h5.le, h6.le, this.1, this.2, h7⟩
  · rw [C30_none_before (by omega)] at hx; cases hx

theorem dated_perm {h h' : FwdHelper} (hv : h'.valuation = h.valuation) (hs : h'.spotLag = h.spotLag)
    (hp : h'.quotes.Perm h.quotes) {l : List (Int × ℝ)} (hd : Dated h c l) :
    ∃ l', Dated h' c l' ∧ l'.Perm l := by
  unfold Dated at hd ⊢
  rw [hv, hs]
  generalize h'.quotes = qs' at hp ⊢
  generalize h.quotes = qs at hp hd
  induction hp generalizing l with
  | nil => cases hd; exact ⟨[], .nil, .nil⟩
  | cons q hp ih =>
    cases hd with
    | cons h1 h2 =>
      obtain ⟨l', h3, h4⟩ := ih h2
      exact ⟨_ :: l', .cons h1 h3, h4.cons _⟩
  | swap q r qs =>
    cases hd with
    | cons h1 h2 =>
      cases h2 with
      | cons h3 h4 => exact ⟨_, .cons h3 (.cons h1 h4), List.Perm.swap _ _ _⟩
  | trans hp1 hp2 ih1 ih2 =>
    obtain ⟨l1, h1, h2⟩ := ih2 hd
    obtain ⟨l2, h3, h4⟩ := ih1 h1
    exact ⟨l2, h3, h4.trans h2⟩

/-- With distinct settlement dates neither the order of the quotes nor the choice of
sorting and searching routine matters. -/
theorem C30_order_irrelevant {ops' : SliceOps} {h' : FwdHelper} (hv : h'.valuation = h.valuation)
    (hs : h'.spotLag = h.spotLag) (hp : h'.quotes.Perm h.quotes) (hd : Dated h c l)
    (hnd : (l.map Prod.fst).Nodup) : getForward ops' h' t c = getForward ops h t c := by
  obtain ⟨l', hd', hpl⟩ := dated_perm hv hs hp hd
  have huniq : ∀ q ∈ l, ∀ r ∈ l, q.1 = r.1 → q = r := fun q hq r hr e =>
    List.inj_on_of_nodup_map hnd hq hr e
  by_cases ht : h.valuation < t
  · by_cases hl : h.quotes.length < 2
    · rw [C30_none_few hd hl, C30_none_few hd' (by rw [hp.length_eq]; exact hl)]
    · rcases C30_cases (ops := ops) hd ht (by omega) with ⟨v, h1, h2⟩ | ⟨h1, h2⟩ | ⟨a, b, h1, h2⟩
      · rw [h2]
        refine C30_exact hd' (by omega) (by rw [hp.length_eq]; omega) (hpl.mem_iff.2 h1) ?_
        intro w hw
        have := huniq _ (hpl.mem_iff.1 hw) _ h1 rfl
        simpa using this
      · rw [h2]
        refine C30_none_outside hd' ?_
        rcases h1 with h1 | h1
        · exact .inl fun q hq => h1 q (hpl.mem_iff.1 hq)
        · exact .inr fun q hq => h1 q (hpl.mem_iff.1 hq)
      · rw [h2]
        refine C30_linear hd' (by omega) (brackets_perm hpl.symm h1) ?_ ?_
        · exact fun q hq e => huniq q (hpl.mem_iff.1 hq) a h1.1 e
        · exact fun q hq e => huniq q (hpl.mem_iff.1 hq) b h1.2.1 e
  · rw [C30_none_before (by omega), C30_none_before (by omega)]

/-- A quote whose settlement date cannot be computed makes every later lookup fail. -/
theorem C30_error {q : FwdQuote} {e : Err} {qs : List FwdQuote} (ht : h.valuation < t)
    (hq : h.quotes = q :: qs)
    (he : settlementDateWithLag q.tenor h.valuation c h.spotLag = .fail e) :
    getForward ops h t c = .fail e := by
  unfold getForward
  rw [if_neg (by omega), hq, datedQuotes, he, fail_bind, fail_bind]

/-- Spot on Wednesday 18 October 2023 at 0 points and one week later at 14 points. -/
noncomputable def sampleHelper : FwdHelper :=
  FwdHelper.new (ymd 2023 10 16) [⟨.weeks 1, 14⟩, ⟨.spot, 0⟩]

theorem sampleHelper_dated :
    Dated sampleHelper weekendsOnly [(ymd 2023 10 25, 14), (ymd 2023 10 18, 0)] := by
  refine .cons ⟨?_, rfl⟩ (.cons ⟨?_, rfl⟩ .nil) <;> decide +kernel

/-- Halfway through the week: Saturday 21 October is 3/7 of the way. -/
example : getForward SliceOps.std sampleHelper (ymd 2023 10 21) weekendsOnly = .ok (some 6) := by
  have hb : Brackets [(ymd 2023 10 25, (14 : ℝ)), (ymd 2023 10 18, 0)] (ymd 2023 10 18, 0)
      (ymd 2023 10 25, 14) (ymd 2023 10 21) := by
    refine ⟨by simp, by simp, by decide, by decide, ?_⟩
    simp
  rw [C30_linear sampleHelper_dated (by decide) hb]
  · simp only [lineThrough]
    norm_num [ymd, yearStart, monthStart, leap]
  · intro q hq e
    simp only [List.mem_cons, List.not_mem_nil, or_false] at hq
    rcases hq with rfl | rfl
    · simp [ymd, yearStart, monthStart, leap] at e
    · rfl
  · intro q hq e
    simp only [List.mem_cons, List.not_mem_nil, or_false] at hq
    rcases hq with rfl | rfl
    · rfl
    · simp [ymd, yearStart, monthStart, leap] at e

/-- Beyond the last quote there is no forward. -/
example : getForward SliceOps.std sampleHelper (ymd 2023 10 26) weekendsOnly = .ok none := by
  refine C30_none_outside sampleHelper_dated (.inl ?_)
  simp [ymd, yearStart, monthStart, leap]

/-- The quote order does not matter. -/
example : getForward SliceOps.std (FwdHelper.new (ymd 2023 10 16) [⟨.spot, 0⟩, ⟨.weeks 1, 14⟩])
    (ymd 2023 10 21) weekendsOnly =
    getForward SliceOps.std sampleHelper (ymd 2023 10 21) weekendsOnly :=
  C30_order_irrelevant rfl rfl (List.Perm.swap _ _ _) sampleHelper_dated (by
    simp [ymd, yearStart, monthStart, leap])

end Verif
