import Verif.Model.YieldCurve
import Verif.Lemmas.Calendar
import Mathlib.Tactic.FieldSimp
import Mathlib.Tactic.Ring
import Mathlib.Tactic.Linarith

/-! # Lemmas on the curve lookup -/

namespace Verif

open Outcome

/-- The pillar passes the test of the loop. -/
def Passes (t : Int) (p : Pillar) : Prop := t ≤ p.date ∧ p.hidden = false

theorem scan_found {t : Int} {f s : Pillar} {pre post : List Pillar}
    (hpre : ∀ p ∈ pre, ¬ Passes t p) (hs : Passes t s) :
    scanPillars t f (pre ++ s :: post) = ((pre.getLast?).getD f, some s) := by
  induction pre generalizing f with
  | nil =>
    have : t ≤ s.date ∧ s.hidden = false := hs
    simp [scanPillars, this]
  | cons p pre ih =>
    have hp : ¬ (t ≤ p.date ∧ p.hidden = false) := hpre p (by simp)
    rw [List.cons_append, scanPillars, if_neg hp, ih fun q hq => hpre q (by simp [hq])]
    congr 1
    cases pre with
    | nil => rfl
    | cons q pre => rw [List.getLast?_cons_cons]; simp [List.getLast?_cons]

theorem scan_none {t : Int} {f : Pillar} {l : List Pillar} (hl : ∀ p ∈ l, ¬ Passes t p) :
    scanPillars t f l = ((l.getLast?).getD f, none) := by
  induction l generalizing f with
  | nil => rfl
  | cons p l ih =>
    have hp : ¬ (t ≤ p.date ∧ p.hidden = false) := hl p (by simp)
    rw [scanPillars, if_neg hp, ih fun q hq => hl q (by simp [hq])]
    congr 1
    cases l with
    | nil => rfl
    | cons q l => rw [List.getLast?_cons_cons]; simp [List.getLast?_cons]

/-- Either no pillar passes, or the list splits at the first that does. -/
theorem split_first (t : Int) (l : List Pillar) :
    (∀ p ∈ l, ¬ Passes t p) ∨
    ∃ pre s post, l = pre ++ s :: post ∧ (∀ p ∈ pre, ¬ Passes t p) ∧ Passes t s := by
  classical
  induction l with
  | nil => left; simp
  | cons p l ih =>
    by_cases hp : Passes t p
    · exact .inr ⟨[], p, l, rfl, by simp, hp⟩
    · rcases ih with h | ⟨pre, s, post, rfl, h1, h2⟩
      · left
        intro q hq
        rcases List.mem_cons.1 hq with rfl | hq
        · exact hp
        · exact h q hq
      · right
        refine ⟨p :: pre, s, post, rfl, ?_, h2⟩
        intro q hq
        rcases List.mem_cons.1 hq with rfl | hq
        · exact hp
        · exact h1 q hq

/-- Value of the weighted mean. -/
noncomputable def weighted (t : Int) (a b : Pillar) : ℝ :=
  (((t - a.date : Int) : ℝ) * b.zeroRate + ((b.date - t : Int) : ℝ) * a.zeroRate) /
    (((t - a.date : Int) : ℝ) + ((b.date - t : Int) : ℝ))

theorem weighted_between {t : Int} {a b : Pillar} (h1 : a.date < t) (h2 : t ≤ b.date) :
    min a.zeroRate b.zeroRate ≤ weighted t a b ∧ weighted t a b ≤ max a.zeroRate b.zeroRate := by
  have p1 : (0 : ℝ) < ((t - a.date : Int) : ℝ) := by
    exact_mod_cast (by omega : (0 : Int) < t - a.date)
  have p2 : (0 : ℝ) ≤ ((b.date - t : Int) : ℝ) := by
    exact_mod_cast (by omega : (0 : Int) ≤ b.date - t)
  unfold weighted
  generalize ((t - a.date : Int) : ℝ) = x at p1 ⊢
  generalize ((b.date - t : Int) : ℝ) = y at p2 ⊢
  have m1 := min_le_left a.zeroRate b.zeroRate
  have m2 := min_le_right a.zeroRate b.zeroRate
  have m3 := le_max_left a.zeroRate b.zeroRate
  have m4 := le_max_right a.zeroRate b.zeroRate
  rw [le_div_iff₀ (by linarith), div_le_iff₀ (by linarith)]
  constructor <;> nlinarith

/-- The first visible pillar, or the first pillar if all are hidden. -/
def trueFirst (p0 : Pillar) (l : List Pillar) : Pillar := (l.find? fun p => !p.hidden).getD p0

theorem zeroRate_of_eq {cv : Curve} {d : Int} {p0 f : Pillar} {s : Option Pillar}
    {rest : List Pillar} (hl : cv.pillars = p0 :: rest) (hd : Valid (d + 1))
    (hs : scanPillars (d + 1) p0 (p0 :: rest) = (f, s))
    (he : s.getD p0 = trueFirst p0 (p0 :: rest)) :
    cv.zeroRate d = .ok (trueFirst p0 (p0 :: rest)).zeroRate := by
  have : addDays d 1 = .ok (d + 1) := valid_addDays.2 ⟨rfl, hd⟩
  unfold Curve.zeroRate
  rw [this, ok_bind, hl]
  simp only [hs]
  rw [if_pos (by rw [hs]; exact he)]; rfl

theorem zeroRate_of_ne {cv : Curve} {d : Int} {p0 f : Pillar} {s : Option Pillar}
    {rest : List Pillar} (hl : cv.pillars = p0 :: rest) (hd : Valid (d + 1))
    (hs : scanPillars (d + 1) p0 (p0 :: rest) = (f, s))
    (he : s.getD p0 ≠ trueFirst p0 (p0 :: rest)) :
    cv.zeroRate d = .ok (weighted (d + 1) f (s.getD p0)) := by
  have : addDays d 1 = .ok (d + 1) := valid_addDays.2 ⟨rfl, hd⟩
  unfold Curve.zeroRate
  rw [this, ok_bind, hl]
  simp only [hs]
  rw [if_neg (by rw [hs]; exact he)]; rfl

theorem zeroRate_invalid {cv : Curve} {d : Int} (hd : ¬ Valid (d + 1)) : cv.zeroRate d = .panic := by
  have : addDays d 1 = .panic := by
    unfold addDays
    rw [if_neg hd]
  unfold Curve.zeroRate
  rw [this]; rfl

theorem zeroRate_empty {cv : Curve} {d : Int} (h : cv.pillars = []) : cv.zeroRate d = .panic := by
  by_cases hd : Valid (d + 1)
  · have : addDays d 1 = .ok (d + 1) := valid_addDays.2 ⟨rfl, hd⟩
    unfold Curve.zeroRate
    rw [this, ok_bind, h]
  · exact zeroRate_invalid hd

/-- All pillars visible: the rate is that of the first pillar, or the weighted mean of
two pillars around the day looked up. -/
theorem zeroRate_visible {cv : Curve} {d : Int} {p0 : Pillar} {rest : List Pillar}
    (hl : cv.pillars = p0 :: rest) (hd : Valid (d + 1)) (hv : ∀ p ∈ cv.pillars, p.hidden = false) :
    (((d + 1 ≤ p0.date) ∨ ∀ p ∈ cv.pillars, p.date < d + 1) ∧ cv.zeroRate d = .ok p0.zeroRate) ∨
    ∃ pre a b post, cv.pillars = pre ++ a :: b :: post ∧ a.date < d + 1 ∧ d + 1 ≤ b.date ∧
      (∀ p ∈ pre, p.date < d + 1) ∧
      cv.zeroRate d = .ok (weighted (d + 1) a b) := by
  have hv0 : p0.hidden = false := hv p0 (by simp [hl])
  have htf : trueFirst p0 (p0 :: rest) = p0 := by
    simp [trueFirst, hv0]
  rw [hl] at hv
  rcases split_first (d + 1) (p0 :: rest) with h | ⟨pre, s, post, he, h1, h2⟩
  · left
    refine ⟨.inr fun p hp => ?_, ?_⟩
    · rw [hl] at hp
      by_contra hc
      exact h p hp ⟨by omega, hv p hp⟩
    · rw [zeroRate_of_eq hl hd (scan_none h) (by rw [htf]; rfl), htf]
  · have hdate : ∀ p ∈ pre, p.date < d + 1 := fun p hp => by
      by_contra hc
      exact h1 p hp ⟨by omega, hv p (by rw [he]; simp [hp])⟩
    rcases List.eq_nil_or_concat pre with rfl | ⟨pre', a, rfl⟩
    · left
      simp only [List.nil_append, List.cons.injEq] at he
      obtain ⟨rfl, rfl⟩ := he
      refine ⟨.inl h2.1, ?_⟩
      have := scan_found (t := d + 1) (f := p0) (s := p0) (pre := []) (post := rest) (by simp) h2
      rw [zeroRate_of_eq hl hd this (by rw [htf]; rfl), htf]
    · right
      rw [List.concat_eq_append] at he h1 hdate
      refine ⟨pre', a, s, post, by rw [hl, he]; simp, hdate a (by simp), h2.1,
        fun p hp => hdate p (by simp [hp]), ?_⟩
      have hsc := scan_found (f := p0) (post := post) h1 h2
      rw [← he] at hsc
      rw [zeroRate_of_ne hl hd hsc]
      · simp
      · rw [htf, Option.getD_some]
        rintro rfl
        have hm : s ∈ pre' ++ [a] := by
          rcases pre' with _ | ⟨x, pre'⟩
          · simp only [List.nil_append, List.cons_append, List.cons.injEq] at he
            simp [he.1]
          · simp only [List.cons_append, List.cons.injEq] at he
            simp [he.1]
        exact h1 s hm h2

end Verif
