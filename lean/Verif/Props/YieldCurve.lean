import Verif.Lemmas.YieldShift
import Mathlib.Tactic.NormNum
import Mathlib.Analysis.SpecialFunctions.Log.Basic

/-!
# C36-C39: yield curves
-/

namespace Verif

open Outcome

variable {cv : Curve} {d : Int} {x : ℝ}

/-! ## C36: discount factors -/

/-- Discount factors are strictly positive. -/
theorem C36_discount_pos (h : cv.discount d = .ok x) : 0 < x := by
  unfold Curve.discount at h
  rw [bind_eq_ok] at h
  obtain ⟨z, -, h⟩ := h
  cases h
  exact Real.exp_pos _

/-- The discount factor of the valuation date is one. -/
theorem C36_discount_valuation (h : cv.discount cv.valuation = .ok x) : x = 1 := by
  unfold Curve.discount at h
  rw [bind_eq_ok] at h
  obtain ⟨z, -, h⟩ := h
  cases h
  simp [yf365]

/-- A discount factor exists for every date of a non-empty curve whose successor is
representable, and only then. -/
theorem C36_discount_exists : (∃ x, cv.discount d = .ok x) ↔ cv.pillars ≠ [] ∧ Valid (d + 1) := by
  unfold Curve.discount
  simp only [bind_eq_ok, ok.injEq]
  constructor
  · rintro ⟨x, z, hz, -⟩
    constructor
    · intro h; rw [zeroRate_empty h] at hz; cases hz
    · by_contra h; rw [zeroRate_invalid h] at hz; cases hz
  · rintro ⟨h1, h2⟩
    obtain ⟨p0, rest, hl⟩ := List.exists_cons_of_ne_nil h1
    rcases hs : scanPillars (d + 1) p0 (p0 :: rest) with ⟨f, s⟩
    by_cases he : s.getD p0 = trueFirst p0 (p0 :: rest)
    · exact ⟨_, _, zeroRate_of_eq hl h2 hs he, rfl⟩
    · exact ⟨_, _, zeroRate_of_ne hl h2 hs he, rfl⟩

/-- Without hidden pillars a looked-up rate lies between the smallest and the largest
pillar rate. -/
theorem C36_rate_range {lo hi : ℝ} (hv : ∀ p ∈ cv.pillars, p.hidden = false)
    (hlo : ∀ p ∈ cv.pillars, lo ≤ p.zeroRate) (hhi : ∀ p ∈ cv.pillars, p.zeroRate ≤ hi)
    (h : cv.zeroRate d = .ok x) : lo ≤ x ∧ x ≤ hi := by
  rcases hl : cv.pillars with _ | ⟨p0, rest⟩
  · rw [zeroRate_empty hl] at h; cases h
  by_cases hd : Valid (d + 1)
  · rcases zeroRate_visible hl hd hv with ⟨-, h1⟩ | ⟨pre, a, b, post, he, h1, h2, -, h3⟩
    · rw [h1] at h; cases h
      exact ⟨hlo p0 (by simp [hl]), hhi p0 (by simp [hl])⟩
    · rw [h3] at h; cases h
      have w := weighted_between h1 h2
      have ha : a ∈ cv.pillars := by rw [he]; simp
      have hb : b ∈ cv.pillars := by rw [he]; simp
      exact ⟨le_trans (le_min (hlo a ha) (hlo b hb)) w.1,
        le_trans w.2 (max_le (hhi a ha) (hhi b hb))⟩
  · rw [zeroRate_invalid hd] at h; cases h

/-- Without hidden pillars and with non-negative rates, discount factors after the
valuation date are at most one. -/
theorem C36_discount_le_one (hv : ∀ p ∈ cv.pillars, p.hidden = false)
    (hr : ∀ p ∈ cv.pillars, 0 ≤ p.zeroRate) (hd : cv.valuation ≤ d)
    (h : cv.discount d = .ok x) : x ≤ 1 := by
  unfold Curve.discount at h
  rw [bind_eq_ok] at h
  obtain ⟨z, hz, h⟩ := h
  cases h
  obtain ⟨z0, -⟩ := C36_rate_range (lo := 0) (hi := (cv.pillars.map Pillar.zeroRate).sum) hv hr
    (fun p hp => List.single_le_sum (by
      intro y hy
      obtain ⟨q, hq, rfl⟩ := List.mem_map.1 hy
      exact hr q hq) _ (List.mem_map_of_mem hp)) hz
  rw [Real.exp_le_one_iff]
  have : 0 ≤ yf365 cv.valuation d := by
    unfold yf365
    have : (0 : ℝ) ≤ ((d - cv.valuation : Int) : ℝ) := by
      exact_mod_cast (by omega : (0 : Int) ≤ d - cv.valuation)
    positivity
  nlinarith

/-- The forward rate over a period is the one implied by the two discount factors. -/
theorem C36_forward {tenor : Period} {f x y : ℝ} {e : Int}
    (hf : cv.forwardRate d tenor = .ok f) (he : addPeriod d tenor = .ok e) (hne : e ≠ d)
    (hx : cv.discount d = .ok x) (hy : cv.discount e = .ok y) :
    Real.exp (f * (yf365 cv.valuation e - yf365 cv.valuation d)) * y = x := by
  unfold Curve.forwardRate at hf
  unfold Curve.discount at hx hy
  rw [he, ok_bind] at hf
  simp only [bind_eq_ok, ok.injEq] at hf hx hy
  obtain ⟨z1, h1, z2, h2, rfl⟩ := hf
  obtain ⟨w1, k1, rfl⟩ := hx
  obtain ⟨w2, k2, rfl⟩ := hy
  rw [h1] at k1; cases k1
  rw [h2] at k2; cases k2
  have hsub : yf365 cv.valuation e - yf365 cv.valuation d ≠ 0 := by
    have : yf365 cv.valuation e - yf365 cv.valuation d = ((e - d : Int) : ℝ) / 365 := by
      unfold yf365; push_cast; ring
    rw [this]
    have h3 : ((e - d : Int) : ℝ) ≠ 0 := by exact_mod_cast sub_ne_zero.2 hne
    positivity
  rw [div_mul_cancel₀ _ hsub, Real.exp_log (by positivity), div_mul_cancel₀]
  positivity

/-- A forward rate is a number whenever the end date exists and the lookups do. -/
theorem C36_forward_exists {tenor : Period} {e : Int} (hl : cv.pillars ≠ [])
    (he : addPeriod d tenor = .ok e) (h1 : Valid (d + 1)) (h2 : Valid (e + 1)) :
    ∃ f, cv.forwardRate d tenor = .ok f := by
  obtain ⟨x, hx⟩ := C36_discount_exists.2 ⟨hl, h1⟩
  obtain ⟨y, hy⟩ := C36_discount_exists.2 ⟨hl, h2⟩
  unfold Curve.discount at hx hy
  simp only [bind_eq_ok, ok.injEq] at hx hy
  obtain ⟨z1, k1, -⟩ := hx
  obtain ⟨z2, k2, -⟩ := hy
  unfold Curve.forwardRate
  rw [he, ok_bind, k1, ok_bind, k2, ok_bind]
  exact ⟨_, rfl⟩

/-- A pillar with only a date and a rate. -/
def pillarAt (date : Int) (rate : ℝ) (hidden : Bool) : Pillar :=
  ⟨0, date, rate, rate, 0, .ois, hidden⟩

/-- Curve with pillars 30 and 60 days after the valuation date. -/
noncomputable def sampleCurve : Curve :=
  ⟨0, [pillarAt 30 (1 / 100) false, pillarAt 60 (4 / 100) false]⟩

theorem sampleCurve_visible : ∀ p ∈ sampleCurve.pillars, p.hidden = false := by
  simp [sampleCurve, pillarAt]

theorem sampleCurve_nonneg : ∀ p ∈ sampleCurve.pillars, 0 ≤ p.zeroRate := by
  simp only [sampleCurve, pillarAt, List.mem_cons, List.not_mem_nil, or_false, forall_eq_or_imp,
    forall_eq]
  norm_num

/-- The rate 40 days after the valuation date: 11/30 of the way (the lookup is for day
41). -/
theorem sampleCurve_rate : sampleCurve.zeroRate 40 = .ok (21 / 1000) := by
  have hs : scanPillars (40 + 1) (pillarAt 30 (1 / 100) false)
      [pillarAt 30 (1 / 100) false, pillarAt 60 (4 / 100) false] =
      (pillarAt 30 (1 / 100) false, some (pillarAt 60 (4 / 100) false)) := by
    simp [scanPillars, pillarAt]
  rw [zeroRate_of_ne (p0 := pillarAt 30 (1 / 100) false) rfl (by decide) hs]
  · simp only [weighted, pillarAt, Option.getD_some]
    norm_num
  · simp [trueFirst, pillarAt]

example : sampleCurve.discount 40 = .ok (Real.exp (-(21 / 1000) * (40 / 365))) := by
  unfold Curve.discount
  rw [sampleCurve_rate, ok_bind]
  simp [yf365, sampleCurve]

example : ∃ x, sampleCurve.discount 40 = .ok x ∧ 0 < x ∧ x ≤ 1 := by
  obtain ⟨x, hx⟩ := (C36_discount_exists (cv := sampleCurve) (d := 40)).2
    ⟨by simp [sampleCurve], by decide⟩
  exact ⟨x, hx, C36_discount_pos hx,
    C36_discount_le_one sampleCurve_visible sampleCurve_nonneg (by decide) hx⟩

/-- With a hidden first pillar (a one-week cash quote) the rate beyond the last pillar
is extrapolated through it and can turn negative, so non-negative rates do not keep
discount factors at or below one. -/
theorem C36_discount_le_one_hidden_false :
    ∃ (cv : Curve) (d : Int) (x : ℝ), (∀ p ∈ cv.pillars, 0 ≤ p.zeroRate) ∧
      cv.pillars.Pairwise (fun a b => a.date < b.date) ∧ cv.valuation ≤ d ∧
      cv.discount d = .ok x ∧ 1 < x := by
  refine ⟨⟨0, [pillarAt 7 (5 / 100) true, pillarAt 30 (1 / 100) false]⟩, 60,
    Real.exp ((101 / 2300) * (60 / 365)), ?_, ?_, by decide, ?_, ?_⟩
  · simp only [pillarAt, List.mem_cons, List.not_mem_nil, or_false, forall_eq_or_imp, forall_eq]
    norm_num
  · simp [pillarAt]
  · have hs : scanPillars (60 + 1) (pillarAt 7 (5 / 100) true)
        [pillarAt 7 (5 / 100) true, pillarAt 30 (1 / 100) false] =
        (pillarAt 30 (1 / 100) false, none) := by
      simp [scanPillars, pillarAt]
    unfold Curve.discount
    rw [zeroRate_of_ne (p0 := pillarAt 7 (5 / 100) true) rfl (by decide) hs, ok_bind]
    · simp only [weighted, pillarAt, Option.getD_none, yf365]
      norm_num
    · simp [trueFirst, pillarAt]
  · rw [Real.one_lt_exp_iff]; norm_num

/-! ## C37: pillars and extrapolation -/

/-- The rate looked up at a pillar date is not that pillar's rate. -/
theorem C37_pillar_false :
    ∃ (cv : Curve) (p : Pillar), (∀ q ∈ cv.pillars, q.hidden = false) ∧
      cv.pillars.Pairwise (fun a b => a.date < b.date) ∧ p ∈ cv.pillars ∧
      ∃ z, cv.zeroRate p.date = .ok z ∧ z ≠ p.zeroRate := by
  refine ⟨sampleCurve, pillarAt 30 (1 / 100) false, sampleCurve_visible, by
    simp [sampleCurve, pillarAt], by simp [sampleCurve], 11 / 1000, ?_, ?_⟩
  · have hs : scanPillars (30 + 1) (pillarAt 30 (1 / 100) false)
        [pillarAt 30 (1 / 100) false, pillarAt 60 (4 / 100) false] =
        (pillarAt 30 (1 / 100) false, some (pillarAt 60 (4 / 100) false)) := by
      simp [scanPillars, pillarAt]
    rw [show (pillarAt 30 (1 / 100) false).date = 30 from rfl,
      zeroRate_of_ne (p0 := pillarAt 30 (1 / 100) false) rfl (by decide) hs]
    · simp only [weighted, pillarAt, Option.getD_some]
      norm_num
    · simp [trueFirst, pillarAt]
  · simp only [pillarAt]; norm_num

/-- Beyond the last pillar the rate of the first pillar is returned, not the last. -/
theorem C37_extrapolation_false :
    ∃ (cv : Curve) (d : Int) (p q : Pillar), (∀ q ∈ cv.pillars, q.hidden = false) ∧
      cv.pillars.Pairwise (fun a b => a.date < b.date) ∧ cv.pillars.head? = some p ∧
      cv.pillars.getLast? = some q ∧ q.date < d ∧ cv.zeroRate d = .ok p.zeroRate ∧
      p.zeroRate ≠ q.zeroRate := by
  refine ⟨sampleCurve, 100, pillarAt 30 (1 / 100) false, pillarAt 60 (4 / 100) false,
    sampleCurve_visible, by simp [sampleCurve, pillarAt], rfl, rfl, by simp [pillarAt], ?_, ?_⟩
  · have hs : scanPillars (100 + 1) (pillarAt 30 (1 / 100) false)
        [pillarAt 30 (1 / 100) false, pillarAt 60 (4 / 100) false] =
        (pillarAt 60 (4 / 100) false, none) := by
      simp [scanPillars, pillarAt]
    rw [zeroRate_of_eq (p0 := pillarAt 30 (1 / 100) false) rfl (by decide) hs]
    · simp [trueFirst, pillarAt]
    · simp [trueFirst, pillarAt]
  · simp only [pillarAt]; norm_num

/-- What the lookup does at pillars: a pillar's rate is returned for the day *before*
its date.  (Partial: the claim asks for the date itself.) -/
theorem C37_pillar_partial {p : Pillar} (hv : ∀ q ∈ cv.pillars, q.hidden = false)
    (hi : cv.pillars.Pairwise fun a b => a.date < b.date) (hp : p ∈ cv.pillars)
    (hd : Valid p.date) : cv.zeroRate (p.date - 1) = .ok p.zeroRate := by
  rcases hl : cv.pillars with _ | ⟨p0, rest⟩
  · rw [hl] at hp; simp at hp
  have e1 : p.date - 1 + 1 = p.date := by omega
  have hmin : ∀ q ∈ cv.pillars, p0.date ≤ q.date := by
    intro q hq
    rw [hl] at hi hq
    rcases List.mem_cons.1 hq with rfl | hq
    · exact le_rfl
    · exact le_of_lt ((List.pairwise_cons.1 hi).1 q hq)
  have huniq : ∀ q ∈ cv.pillars, ∀ r ∈ cv.pillars, q.date = r.date → q = r := by
    intro q hq r hr e
    by_contra hne
    rcases List.pairwise_iff_getElem.1 hi with hg
    obtain ⟨i, hi', rfl⟩ := List.mem_iff_getElem.1 hq
    obtain ⟨j, hj', rfl⟩ := List.mem_iff_getElem.1 hr
    rcases lt_trichotomy i j with h | h | h
    · have := hg i j hi' hj' h; omega
    · subst h; exact hne rfl
    · have := hg j i hj' hi' h; omega
  rcases zeroRate_visible hl (d := p.date - 1) (by rw [e1]; exact hd) hv with
    ⟨h1, h2⟩ | ⟨pre, a, b, post, he, h1, h2, h4, h3⟩
  · rw [h2]
    rcases h1 with h1 | h1
    · have := hmin p hp
      rw [huniq p0 (by simp [hl]) p hp (by omega)]
    · have := h1 p hp; omega
  · rw [h3]
    have hb : b ∈ cv.pillars := by rw [he]; simp
    have hbp : b = p := by
      apply huniq b hb p hp
      rw [he] at hp
      rcases List.mem_append.1 hp with hp | hp
      · have := h4 p hp; omega
      rcases List.mem_cons.1 hp with hp | hp
      · rw [hp] at h1; omega
      rcases List.mem_cons.1 hp with hp | hp
      · rw [hp]
      · rw [he] at hi
        have := ((List.pairwise_append.1 hi).2.1)
        have := (List.pairwise_cons.1 ((List.pairwise_cons.1 this).2)).1 p hp
        omega
    subst hbp
    congr 1
    have hne : (((b.date - a.date : Int)) : ℝ) ≠ 0 := by
      have : b.date - a.date ≠ 0 := by omega
      exact_mod_cast this
    unfold weighted
    rw [e1]
    simp only [sub_self, Int.cast_zero, zero_mul, add_zero]
    rw [mul_comm, mul_div_assoc, div_self hne, mul_one]

/-- Between two neighbouring pillars the rate lies between theirs, and is the weighted
mean for the following day. -/
theorem C37_between_partial {a b : Pillar} {pre post : List Pillar}
    (hv : ∀ q ∈ cv.pillars, q.hidden = false)
    (hi : cv.pillars.Pairwise fun a b => a.date < b.date) (hl : cv.pillars = pre ++ a :: b :: post)
    (h1 : a.date ≤ d) (h2 : d < b.date) (hd : Valid (d + 1)) :
    cv.zeroRate d = .ok (a.zeroRate + (b.zeroRate - a.zeroRate) *
      (((d + 1 - a.date : Int) : ℝ) / ((b.date - a.date : Int) : ℝ))) ∧
    ∃ x, cv.zeroRate d = .ok x ∧ min a.zeroRate b.zeroRate ≤ x ∧ x ≤ max a.zeroRate b.zeroRate := by
  have hpre : ∀ q ∈ pre ++ [a], ¬ Passes (d + 1) q := by
    intro q hq hc
    have : q.date ≤ a.date := by
      rcases List.mem_append.1 hq with hq | hq
      · rw [hl] at hi
        exact le_of_lt ((List.pairwise_append.1 hi).2.2 q hq a (by simp))
      · rw [List.mem_singleton.1 hq]
    have := hc.1
    omega
  have hb : Passes (d + 1) b := ⟨by omega, hv b (by rw [hl]; simp)⟩
  obtain ⟨p0, rest, hc⟩ : ∃ p0 rest, cv.pillars = p0 :: rest := by
    rw [hl]
    rcases pre with _ | ⟨q, pre⟩
    · exact ⟨_, _, rfl⟩
    · exact ⟨_, _, rfl⟩
  have hsplit : p0 :: rest = (pre ++ [a]) ++ b :: post := by rw [← hc, hl]; simp
  have hsc := scan_found (f := p0) (post := post) hpre hb
  rw [← hsplit] at hsc
  have hp0 : p0 ∈ pre ++ [a] := by
    rcases pre with _ | ⟨q, pre⟩
    · simp only [List.nil_append, List.cons_append, List.cons.injEq] at hsplit
      simp [hsplit.1]
    · simp only [List.cons_append, List.cons.injEq] at hsplit
      simp [hsplit.1]
  have hz : cv.zeroRate d = .ok (weighted (d + 1) a b) := by
    rw [zeroRate_of_ne hc hd hsc]
    · simp
    · have : trueFirst p0 (p0 :: rest) = p0 := by
        simp [trueFirst, hv p0 (by simp [hc])]
      rw [this, Option.getD_some]
      rintro rfl
      exact hpre _ hp0 hb
  refine ⟨?_, _, hz, weighted_between (by omega) (by omega)⟩
  rw [hz]
  congr 1
  have hne : (((b.date - a.date : Int)) : ℝ) ≠ 0 := by
    have : b.date - a.date ≠ 0 := by omega
    exact_mod_cast this
  have hsum : ((d + 1 - a.date : Int) : ℝ) + ((b.date - (d + 1) : Int) : ℝ) =
      ((b.date - a.date : Int) : ℝ) := by push_cast; ring
  unfold weighted
  rw [hsum]
  field_simp
  push_cast
  ring

/-- Before the first pillar, and on or after the last one, the rate of the first pillar
is returned. -/
theorem C37_flat_partial {p0 : Pillar} {rest : List Pillar}
    (hv : ∀ q ∈ cv.pillars, q.hidden = false) (hl : cv.pillars = p0 :: rest) (hd : Valid (d + 1))
    (h : d < p0.date ∨ ∀ q ∈ cv.pillars, q.date ≤ d) : cv.zeroRate d = .ok p0.zeroRate := by
  rcases zeroRate_visible hl hd hv with ⟨-, h1⟩ | ⟨pre, a, b, post, he, h1, h2, h4, h3⟩
  · exact h1
  · exfalso
    rcases h with h | h
    · have : p0 = a ∨ p0 ∈ pre := by
        rw [hl] at he
        rcases pre with _ | ⟨q, pre⟩
        · simp only [List.nil_append, List.cons.injEq] at he; exact .inl he.1
        · simp only [List.cons_append, List.cons.injEq] at he; right; simp [he.1]
      rcases this with rfl | hp
      · omega
      · have := h4 p0 hp; omega
    · have := h b (by rw [he]; simp); omega

example : sampleCurve.zeroRate 59 = .ok (4 / 100) :=
  C37_pillar_partial (p := pillarAt 60 (4 / 100) false) sampleCurve_visible
    (by simp [sampleCurve, pillarAt]) (by simp [sampleCurve]) (by decide)

example : sampleCurve.zeroRate 60 = .ok (1 / 100) :=
  C37_flat_partial (d := 60) sampleCurve_visible rfl (by decide)
    (.inr (by simp [sampleCurve, pillarAt]))

/-- With hidden pillars, before the first visible pillar: until the day before its date
the lookup returns the rate of the first visible pillar. -/
theorem C37_hidden_first {b : Pillar} {pre post : List Pillar} (hl : cv.pillars = pre ++ b :: post)
    (hpre : ∀ q ∈ pre, q.hidden = true) (hb : b.hidden = false) (h : d < b.date)
    (hd : Valid (d + 1)) : cv.zeroRate d = .ok b.zeroRate := by
  have hp : ∀ q ∈ pre, ¬ Passes (d + 1) q := fun q hq hc => by
    have := hc.2; rw [hpre q hq] at this; cases this
  have hs : Passes (d + 1) b := ⟨by omega, hb⟩
  have hf : (pre ++ b :: post).find? (fun p => !p.hidden) = some b := by
    rw [List.find?_append, List.find?_eq_none.2 (by simpa using hpre)]
    simp [hb]
  rcases hc : cv.pillars with _ | ⟨p0, rest⟩
  · rw [hl] at hc; simp at hc
  · have htf : trueFirst p0 (p0 :: rest) = b := by
      unfold trueFirst
      rw [← hc, hl, hf]; rfl
    have := scan_found (t := d + 1) (f := p0) (post := post) hp hs
    rw [← hl, hc] at this
    rw [zeroRate_of_eq hc hd this (by rw [htf]; rfl), htf]

/-- With hidden pillars, between pillars: let `b` be the first visible pillar dated after
the day looked up and `a` the pillar just before it in the curve, hidden or not.  When a
visible pillar precedes `b`, the lookup is on the line through `a` and `b`, at the
following day.  (When `a` is hidden and dated after `d` this is an extrapolation.) -/
theorem C37_hidden_between {a b v : Pillar} {pre post : List Pillar}
    (hi : cv.pillars.Pairwise fun a b => a.date < b.date)
    (hl : cv.pillars = pre ++ a :: b :: post)
    (hpre : ∀ q ∈ pre ++ [a], q.hidden = true ∨ q.date ≤ d) (hb : b.hidden = false)
    (hv : v ∈ pre ++ [a]) (hvv : v.hidden = false) (h : d < b.date) (hd : Valid (d + 1)) :
    cv.zeroRate d = .ok (a.zeroRate + (b.zeroRate - a.zeroRate) *
      (((d + 1 - a.date : Int) : ℝ) / ((b.date - a.date : Int) : ℝ))) := by
  have hp : ∀ q ∈ pre ++ [a], ¬ Passes (d + 1) q := fun q hq hc => by
    rcases hpre q hq with h | h
    · have := hc.2; rw [h] at this; cases this
    · have := hc.1; omega
  have hs : Passes (d + 1) b := ⟨by omega, hb⟩
  have hl' : cv.pillars = (pre ++ [a]) ++ b :: post := by rw [hl]; simp
  have hfind : ∃ w ∈ pre ++ [a], ((pre ++ [a]) ++ b :: post).find? (fun p => !p.hidden) = some w := by
    rcases hw : (pre ++ [a]).find? (fun p => !p.hidden) with _ | w
    · have := List.find?_eq_none.1 hw v hv
      simp [hvv] at this
    · exact ⟨w, List.mem_of_find?_eq_some hw, by rw [List.find?_append, hw]; rfl⟩
  obtain ⟨w, hw, hf⟩ := hfind
  have hbefore : ∀ q ∈ pre ++ [a], q.date < b.date := by
    rw [hl'] at hi
    intro q hq
    exact (List.pairwise_append.1 hi).2.2 q hq b (by simp)
  rcases hc : cv.pillars with _ | ⟨p0, rest⟩
  · rw [hl] at hc; simp at hc
  · have htf : trueFirst p0 (p0 :: rest) = w := by
      unfold trueFirst
      rw [← hc, hl', hf]; rfl
    have := scan_found (t := d + 1) (f := p0) (post := post) hp hs
    rw [← hl', hc] at this
    have hne : (some b).getD p0 ≠ trueFirst p0 (p0 :: rest) := by
      rw [htf]
      rintro (rfl : b = w)
      have := hbefore b hw; omega
    rw [zeroRate_of_ne hc hd this hne]
    congr 1
    have hab := hbefore a (by simp)
    have p1 : (0 : ℝ) < ((b.date - a.date : Int) : ℝ) := by
      exact_mod_cast (by omega : (0 : Int) < b.date - a.date)
    simp only [List.getLast?_append, List.getLast?_singleton, Option.some_or, Option.getD_some]
    unfold weighted
    have e : ((d + 1 - a.date : Int) : ℝ) + ((b.date - (d + 1) : Int) : ℝ)
        = ((b.date - a.date : Int) : ℝ) := by push_cast; ring
    rw [e]
    have e2 : ((b.date - (d + 1) : Int) : ℝ)
        = ((b.date - a.date : Int) : ℝ) - ((d + 1 - a.date : Int) : ℝ) := by push_cast; ring
    rw [e2]
    generalize ((b.date - a.date : Int) : ℝ) = x at p1 ⊢
    generalize ((d + 1 - a.date : Int) : ℝ) = y
    field_simp
    ring

/-- With hidden pillars, past the end: when no visible pillar is dated after the day
looked up, a visible first pillar gives its own rate.  A hidden first pillar gives its
own rate only if every pillar is hidden; otherwise the lookup is on the line through the
last pillar and the first one, so it leaves the last rate in the direction away from the
first rate. -/
theorem C37_hidden_end {p0 l : Pillar} {rest : List Pillar} (hl : cv.pillars = p0 :: rest)
    (hi : cv.pillars.Pairwise fun a b => a.date < b.date)
    (hend : ∀ q ∈ cv.pillars, q.hidden = true ∨ q.date ≤ d) (hlast : cv.pillars.getLast? = some l)
    (hd : Valid (d + 1)) :
    (p0.hidden = false ∨ (∀ q ∈ cv.pillars, q.hidden = true) → cv.zeroRate d = .ok p0.zeroRate) ∧
    (p0.hidden = true → (∃ v ∈ cv.pillars, v.hidden = false) →
      cv.zeroRate d = .ok (l.zeroRate + (l.zeroRate - p0.zeroRate) *
        (((d + 1 - l.date : Int) : ℝ) / ((l.date - p0.date : Int) : ℝ)))) := by
  have hp : ∀ q ∈ p0 :: rest, ¬ Passes (d + 1) q := fun q hq hc => by
    rcases hend q (hl ▸ hq) with h | h
    · have := hc.2; rw [h] at this; cases this
    · have := hc.1; omega
  have hscan := scan_none (f := p0) hp
  refine ⟨fun h => ?_, fun h0 hv => ?_⟩
  · have htf : trueFirst p0 (p0 :: rest) = p0 := by
      unfold trueFirst
      rcases h with h | h
      · simp [h]
      · rw [List.find?_eq_none.2 (by rw [← hl]; simpa using h)]; rfl
    rw [zeroRate_of_eq hl hd hscan (by rw [htf]; rfl), htf]
  · obtain ⟨v, hv, hvv⟩ := hv
    have hfind : ∃ w ∈ p0 :: rest, w.hidden = false ∧ (p0 :: rest).find? (fun p => !p.hidden) = some w := by
      rcases hw : (p0 :: rest).find? (fun p => !p.hidden) with _ | w
      · have := List.find?_eq_none.1 hw v (hl ▸ hv)
        simp [hvv] at this
      · exact ⟨w, List.mem_of_find?_eq_some hw, by simpa using List.find?_some hw, hw⟩
    obtain ⟨w, hw, hwh, hf⟩ := hfind
    have htf : trueFirst p0 (p0 :: rest) = w := by
      unfold trueFirst; rw [hf]; rfl
    have hne : (none : Option Pillar).getD p0 ≠ trueFirst p0 (p0 :: rest) := by
      rw [htf]
      rintro (rfl : p0 = w)
      rw [h0] at hwh; cases hwh
    rw [zeroRate_of_ne hl hd hscan hne]
    congr 1
    rw [hl] at hlast hi
    rw [hlast]
    have hlt : p0.date < l.date := by
      have hm : l ∈ p0 :: rest := List.mem_of_getLast? hlast
      rcases List.mem_cons.1 hm with rfl | hm
      · exfalso
        rcases rest with _ | ⟨r, rest⟩
        · rw [List.mem_singleton] at hw; subst hw; rw [h0] at hwh; cases hwh
        · rw [List.getLast?_cons_cons] at hlast
          have := (List.pairwise_cons.1 hi).1 l (List.mem_of_getLast? hlast)
          omega
      · exact (List.pairwise_cons.1 hi).1 l hm
    have p1 : (0 : ℝ) < ((l.date - p0.date : Int) : ℝ) := by
      exact_mod_cast (by omega : (0 : Int) < l.date - p0.date)
    simp only [Option.getD_some, Option.getD_none]
    unfold weighted
    have e : ((d + 1 - l.date : Int) : ℝ) + ((p0.date - (d + 1) : Int) : ℝ)
        = -((l.date - p0.date : Int) : ℝ) := by push_cast; ring
    have e2 : ((p0.date - (d + 1) : Int) : ℝ)
        = -((l.date - p0.date : Int) : ℝ) - ((d + 1 - l.date : Int) : ℝ) := by push_cast; ring
    rw [e, e2]
    generalize ((l.date - p0.date : Int) : ℝ) = x at p1 ⊢
    generalize ((d + 1 - l.date : Int) : ℝ) = y
    field_simp
    ring

/-- A curve with a hidden one-week pillar, as the stripper makes when futures are used. -/
noncomputable def hiddenCurve : Curve :=
  ⟨0, [pillarAt 7 (5 / 100) true, pillarAt 30 (1 / 100) false, pillarAt 60 (4 / 100) true,
    pillarAt 90 (2 / 100) false]⟩

example : hiddenCurve.zeroRate 3 = .ok (1 / 100) :=
  C37_hidden_first (pre := [pillarAt 7 (5 / 100) true]) (b := pillarAt 30 (1 / 100) false) rfl
    (by simp [pillarAt]) rfl (by simp [pillarAt]) (by decide)

example : hiddenCurve.zeroRate 44 = .ok (5 / 100) := by
  have := C37_hidden_between (cv := hiddenCurve) (d := 44)
    (pre := [pillarAt 7 (5 / 100) true, pillarAt 30 (1 / 100) false])
    (a := pillarAt 60 (4 / 100) true) (b := pillarAt 90 (2 / 100) false)
    (v := pillarAt 30 (1 / 100) false) (post := []) (by simp [hiddenCurve, pillarAt]) rfl
    (by simp [pillarAt]) rfl (by simp) rfl (by simp [pillarAt]) (by decide)
  rw [this]
  simp only [pillarAt]
  norm_num

example : hiddenCurve.zeroRate 172 = .ok (-1 / 100) := by
  have := (C37_hidden_end (cv := hiddenCurve) (d := 172) (p0 := pillarAt 7 (5 / 100) true)
    (l := pillarAt 90 (2 / 100) false) rfl (by simp [hiddenCurve, pillarAt])
    (by simp [hiddenCurve, pillarAt]) rfl (by decide)).2 rfl
    ⟨pillarAt 30 (1 / 100) false, by simp [hiddenCurve], rfl⟩
  rw [this]
  simp only [pillarAt]
  norm_num
/-! ## C38: parallel shifts -/

/-- The shifted discount factor is the discount factor of the bumped curve. -/
theorem C38_shift_eq_bump (cv : Curve) (s : ℝ) (d : Int)
    (hnd : (cv.pillars.map Pillar.date).Nodup) :
    cv.shiftedDiscount d s = (bumped cv s).discount d := by
  unfold Curve.shiftedDiscount Curve.discount
  rw [zeroRate_bumped cv s d hnd]
  rcases cv.zeroRate d with z | e | _
  · simp only [ok_bind, bumped]
    congr 1
    rw [← Real.exp_add]
    congr 1
    ring
  · rfl
  · rfl

/-- A zero shift changes nothing. -/
theorem C38_zero_shift (cv : Curve) (d : Int) : cv.shiftedDiscount d 0 = cv.discount d := by
  unfold Curve.shiftedDiscount
  rcases cv.discount d with z | e | _ <;> simp

/-- Shifts add up. -/
theorem C38_shift_add (cv : Curve) (s t : ℝ) (d : Int)
    (hnd : (cv.pillars.map Pillar.date).Nodup) :
    (bumped cv s).shiftedDiscount d t = cv.shiftedDiscount d (s + t) := by
  rw [C38_shift_eq_bump cv (s + t) d hnd, ← bumped_bumped, C38_shift_eq_bump]
  simpa [bumped, List.map_map, Function.comp_def] using hnd

/-- A positive shift lowers every discount factor after the valuation date. -/
theorem C38_shift_lowers {s y : ℝ} (hs : 0 < s) (hd : cv.valuation < d)
    (hx : cv.discount d = .ok x) (hy : cv.shiftedDiscount d s = .ok y) : y < x := by
  unfold Curve.shiftedDiscount at hy
  rw [hx, ok_bind] at hy
  cases hy
  have hp := C36_discount_pos hx
  have : 0 < yf365 cv.valuation d := by
    unfold yf365
    have : (0 : ℝ) < ((d - cv.valuation : Int) : ℝ) := by
      exact_mod_cast (by omega : (0 : Int) < d - cv.valuation)
    positivity
  have h1 : Real.exp (-s * (1 / 10000) * yf365 cv.valuation d) < 1 := by
    rw [Real.exp_lt_one_iff]
    have : 0 < s * (1 / 10000) * yf365 cv.valuation d := by positivity
    linarith
  nlinarith

example : (sampleCurve.pillars.map Pillar.date).Nodup := by simp [sampleCurve, pillarAt]

example : ∃ y, sampleCurve.shiftedDiscount 40 1 = .ok y ∧ 0 < y := by
  obtain ⟨x, hx⟩ := (C36_discount_exists (cv := sampleCurve) (d := 40)).2
    ⟨by simp [sampleCurve], by decide⟩
  refine ⟨_, by unfold Curve.shiftedDiscount; rw [hx, ok_bind], ?_⟩
  have := C36_discount_pos hx
  positivity

/-! ## C39: cash quotes -/

variable {q : OisRate} {val s m : Int} {tau z : ℝ}

/-- Compounding the stripped zero rate from settlement to maturity gives back the
quoted simple rate. -/
theorem C39_reprices (hs : q.settleDate val = .ok s) (hm : q.maturityDate val = .ok m)
    (ht : q.index.yearFraction s m = .ok tau) (hne : s ≠ m) (hp : 0 < 1 + tau * q.value)
    (hz : q.zeroRate val = .ok z) : Real.exp (z * yf365 s m) = 1 + tau * q.value := by
  rw [ois_zeroRate hs hm ht] at hz
  cases hz
  have : yf365 s m ≠ 0 := by
    unfold yf365
    have : ((m - s : Int) : ℝ) ≠ 0 := by exact_mod_cast sub_ne_zero.2 (Ne.symm hne)
    positivity
  rw [div_mul_cancel₀ _ this, one_div, Real.log_inv, neg_neg, Real.exp_log hp]

/-- A quote over at least a day accrues: same sign of rate and quote. -/
theorem C39_sign (hs : q.settleDate val = .ok s) (hm : q.maturityDate val = .ok m)
    (ht : q.index.yearFraction s m = .ok tau) (hsm : s < m) (htau : 0 < tau)
    (hp : 0 < 1 + tau * q.value) (hz : q.zeroRate val = .ok z) :
    (0 < z ↔ 0 < q.value) ∧ (z < 0 ↔ q.value < 0) ∧ (z = 0 ↔ q.value = 0) := by
  have h := C39_reprices hs hm ht (by omega) hp hz
  have hy : 0 < yf365 s m := by
    unfold yf365
    have : (0 : ℝ) < ((m - s : Int) : ℝ) := by exact_mod_cast (by omega : (0 : Int) < m - s)
    positivity
  have e1 : 0 < z ↔ 0 < q.value := by
    have := Real.one_lt_exp_iff (x := z * yf365 s m)
    rw [h] at this
    constructor
    · intro hz0
      have := this.2 (by positivity)
      by_contra hc
      nlinarith
    · intro hv
      have := this.1 (by nlinarith)
      by_contra hc
      nlinarith
  have e2 : z < 0 ↔ q.value < 0 := by
    have := Real.exp_lt_one_iff (x := z * yf365 s m)
    rw [h] at this
    constructor
    · intro hz0
      have := this.2 (by nlinarith)
      by_contra hc
      nlinarith
    · intro hv
      have := this.1 (by nlinarith)
      by_contra hc
      nlinarith
  refine ⟨e1, e2, ?_⟩
  constructor
  · intro h0
    rcases lt_trichotomy q.value 0 with h | h | h
    · have := e2.2 h; linarith
    · exact h
    · have := e1.2 h; linarith
  · intro h0
    rcases lt_trichotomy z 0 with h | h | h
    · have := e2.1 h; linarith
    · exact h
    · have := e1.1 h; linarith

/-- A higher quote gives a higher zero rate. -/
theorem C39_increasing {q' : OisRate} {z' : ℝ} (hi : q'.index = q.index)
    (hs : q.settleDate val = .ok s) (hm : q.maturityDate val = .ok m)
    (ht : q.index.yearFraction s m = .ok tau) (hsm : s < m) (htau : 0 < tau)
    (hp : 0 < 1 + tau * q.value) (hlt : q.value < q'.value)
    (hz : q.zeroRate val = .ok z) (hz' : q'.zeroRate val = .ok z') : z < z' := by
  have hs' : q'.settleDate val = .ok s := by
    unfold OisRate.settleDate at hs ⊢; rw [hi]; exact hs
  have hm' : q'.maturityDate val = .ok m := by
    unfold OisRate.maturityDate OisRate.settleDate at hm ⊢; rw [hi]; exact hm
  have hp' : 0 < 1 + tau * q'.value := by nlinarith
  have h1 := C39_reprices hs hm ht (by omega) hp hz
  have h2 := C39_reprices hs' hm' (hi ▸ ht) (by omega) hp' hz'
  have hy : 0 < yf365 s m := by
    unfold yf365
    have : (0 : ℝ) < ((m - s : Int) : ℝ) := by exact_mod_cast (by omega : (0 : Int) < m - s)
    positivity
  have : Real.exp (z * yf365 s m) < Real.exp (z' * yf365 s m) := by
    rw [h1, h2]; nlinarith
  exact lt_of_mul_lt_mul_right (Real.exp_lt_exp.1 this) hy.le

/-- The discount factor stored with the pillar uses the same rate from the valuation
date; over the deposit itself it reproduces the quote. -/
theorem C39_discount {x : ℝ} (hs : q.settleDate val = .ok s) (hm : q.maturityDate val = .ok m)
    (ht : q.index.yearFraction s m = .ok tau) (hne : s ≠ m) (hp : 0 < 1 + tau * q.value)
    (hz : q.zeroRate val = .ok z) (hx : q.discount val = .ok x) :
    Real.exp (-z * yf365 val s) = x * (1 + tau * q.value) := by
  have h := C39_reprices hs hm ht hne hp hz
  unfold OisRate.discount at hx
  rw [hz, ok_bind, hm, ok_bind] at hx
  cases hx
  rw [← h, ← Real.exp_add]
  congr 1
  unfold yf365
  push_cast
  ring

/-- A three-month deposit at 4% settling on the valuation date, Monday 16 October 2023
to Tuesday 16 January 2024, on an Actual/360 basis. -/
noncomputable def sampleDeposit : OisRate :=
  ⟨4 / 100, ⟨.months 3, 0, weekendsOnly, .modifiedFollowing,
    fun a b => .ok (((b - a : Int) : ℝ) / 360), false⟩⟩

example : ∃ z, sampleDeposit.zeroRate (ymd 2023 10 16) = .ok z ∧
    Real.exp (z * yf365 (ymd 2023 10 16) (ymd 2024 1 16)) = 1 + 92 / 360 * (4 / 100) := by
  have h1 : sampleDeposit.settleDate (ymd 2023 10 16) = .ok (ymd 2023 10 16) := by
    unfold sampleDeposit OisRate.settleDate; decide +kernel
  have h2 : sampleDeposit.maturityDate (ymd 2023 10 16) = .ok (ymd 2024 1 16) := by
    unfold OisRate.maturityDate
    rw [h1, ok_bind]
    unfold sampleDeposit; decide +kernel
  have h3 : sampleDeposit.index.yearFraction (ymd 2023 10 16) (ymd 2024 1 16) =
      .ok (92 / 360) := by
    have : (ymd 2024 1 16 - ymd 2023 10 16 : Int) = 92 := by decide
    simp only [sampleDeposit, this]
    norm_num
  refine ⟨_, ois_zeroRate h1 h2 h3, ?_⟩
  have := C39_reprices h1 h2 h3 (by decide) (by simp only [sampleDeposit]; norm_num)
    (ois_zeroRate h1 h2 h3)
  rw [this]; rfl

end Verif
