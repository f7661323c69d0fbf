import Verif.Lemmas.YieldCurve
import Verif.Spec.YieldCurve
import Mathlib.Tactic.FieldSimp
import Mathlib.Tactic.Linarith

/-!
# Parallel shifts of a curve
-/

namespace Verif

open Outcome

theorem scan_map (g : Pillar → Pillar) (hd : ∀ p, (g p).date = p.date)
    (hh : ∀ p, (g p).hidden = p.hidden) (t : Int) (f : Pillar) (l : List Pillar) :
    scanPillars t (g f) (l.map g) =
      (g (scanPillars t f l).1, (scanPillars t f l).2.map g) := by
  induction l generalizing f with
  | nil => rfl
  | cons p l ih =>
    rw [List.map_cons, scanPillars, scanPillars, hd, hh]
    split
    · rfl
    · exact ih p

theorem trueFirst_map (g : Pillar → Pillar) (hh : ∀ p, (g p).hidden = p.hidden) (p0 : Pillar)
    (l : List Pillar) : trueFirst (g p0) (l.map g) = g (trueFirst p0 l) := by
  unfold trueFirst
  rw [List.find?_map]
  have : ((fun p : Pillar => !p.hidden) ∘ g) = fun p => !p.hidden := by
    funext p; simp [hh]
  rw [this]
  cases l.find? fun p => !p.hidden <;> rfl

/-- The two pillars between which a rate is interpolated have different dates. -/
theorem scan_dates_ne {t : Int} {p0 f : Pillar} {s : Option Pillar} {rest : List Pillar}
    (hnd : ((p0 :: rest).map Pillar.date).Nodup) (hs : scanPillars t p0 (p0 :: rest) = (f, s))
    (he : s.getD p0 ≠ trueFirst p0 (p0 :: rest)) : f.date ≠ (s.getD p0).date := by
  have inj := List.inj_on_of_nodup_map hnd
  rcases split_first t (p0 :: rest) with h | ⟨pre, q, post, hl, h1, h2⟩
  · rw [scan_none h] at hs
    cases hs
    intro hc
    have hlast : ((p0 :: rest).getLast?.getD p0) = p0 :=
      inj (by
        rw [List.getLast?_eq_some_getLast (by simp), Option.getD_some]
        exact List.getLast_mem _) (by simp) hc
    rcases List.eq_nil_or_concat rest with rfl | ⟨r, z, rfl⟩
    · apply he
      simp [trueFirst]
      split <;> simp
    · have hz : z = p0 := by
        rw [← hlast, List.concat_eq_append, ← List.cons_append, List.getLast?_append]
        rfl
      have hz' := hnd
      rw [List.map_cons, List.nodup_cons] at hz'
      exact hz'.1 (by rw [List.concat_eq_append, hz]; simp)
  · rcases List.eq_nil_or_concat pre with rfl | ⟨pre', a, rfl⟩
    · exfalso
      simp only [List.nil_append, List.cons.injEq] at hl
      obtain ⟨rfl, rfl⟩ := hl
      have hs' := scan_found (t := t) (f := p0) (s := p0) (pre := []) (post := rest) (by simp) h2
      rw [List.nil_append, hs] at hs'
      cases hs'
      apply he
      have := h2.2
      simp [trueFirst, this]
    · have hs' := scan_found (f := p0) (post := post) h1 h2
      rw [← hl, hs] at hs'
      cases hs'
      simp only [Option.getD_some, List.concat_eq_append, List.getLast?_append,
        List.getLast?_singleton, Option.some_or]
      intro hc
      have : a = q := inj (by rw [hl]; simp) (by rw [hl]; simp) hc
      exact h1 a (by simp) (this ▸ h2)

theorem zeroRate_bumped (cv : Curve) (s : ℝ) (d : Int) (hnd : (cv.pillars.map Pillar.date).Nodup) :
    (bumped cv s).zeroRate d = (cv.zeroRate d >>= fun z => .ok (z + s / 10000)) := by
  let g : Pillar → Pillar := fun p => { p with zeroRate := p.zeroRate + s / 10000 }
  have hg : (bumped cv s).pillars = cv.pillars.map g := rfl
  have ginj : ∀ p q, g p = g q → p = q := by
    intro p q h
    have := Pillar.mk.injEq .. ▸ h
    cases p; cases q
    simp only [g, Pillar.mk.injEq] at h ⊢
    obtain ⟨h1, h2, h3, h4, h5, h6, h7⟩ := h
    exact ⟨h1, h2, h3, by linarith, h5, h6, h7⟩
  rcases hl : cv.pillars with _ | ⟨p0, rest⟩
  · rw [zeroRate_empty hl, zeroRate_empty (by rw [hg, hl]; rfl)]; rfl
  by_cases hd : Valid (d + 1)
  · rcases hs : scanPillars (d + 1) p0 (p0 :: rest) with ⟨f, sc⟩
    have hs' : scanPillars (d + 1) (g p0) (g p0 :: rest.map g) = (g f, sc.map g) := by
      have := scan_map g (fun _ => rfl) (fun _ => rfl) (d + 1) p0 (p0 :: rest)
      rw [hs] at this
      exact this
    have hget : (sc.map g).getD (g p0) = g (sc.getD p0) := by cases sc <;> rfl
    have htf : trueFirst (g p0) (g p0 :: rest.map g) = g (trueFirst p0 (p0 :: rest)) :=
      trueFirst_map g (fun _ => rfl) p0 (p0 :: rest)
    have hl' : (bumped cv s).pillars = g p0 :: rest.map g := by rw [hg, hl]; rfl
    by_cases he : sc.getD p0 = trueFirst p0 (p0 :: rest)
    · rw [zeroRate_of_eq hl hd hs he, zeroRate_of_eq hl' hd hs' (by rw [hget, htf, he]), htf]
      rfl
    · rw [zeroRate_of_ne hl hd hs he,
        zeroRate_of_ne hl' hd hs' (by rw [hget, htf]; exact fun h => he (ginj _ _ h)), hget, ok_bind]
      congr 1
      have hne := scan_dates_ne (by rw [← hl]; exact hnd) hs he
      have hne' : ((d + 1 - f.date : Int) : ℝ) + (((sc.getD p0).date - (d + 1) : Int) : ℝ) ≠ 0 := by
        have : d + 1 - f.date + ((sc.getD p0).date - (d + 1)) ≠ 0 := by omega
        exact_mod_cast this
      simp only [weighted, g]
      field_simp
      ring
  · rw [zeroRate_invalid hd, zeroRate_invalid hd]; rfl

theorem bumped_bumped (cv : Curve) (s t : ℝ) : bumped (bumped cv s) t = bumped cv (s + t) := by
  unfold bumped
  simp only [List.map_map, Curve.mk.injEq, true_and]
  apply List.map_congr_left
  intro p _
  simp only [Function.comp_apply, Pillar.mk.injEq, true_and, and_true]
  ring

theorem ois_zeroRate {q : OisRate} {val s m : Int} {tau : ℝ} (hs : q.settleDate val = .ok s) (hm : q.maturityDate val = .ok m)
    (ht : q.index.yearFraction s m = .ok tau) :
    q.zeroRate val = .ok (-(Real.log (1 / (1 + tau * q.value))) / yf365 s m) := by
  unfold OisRate.zeroRate
  rw [hs, ok_bind, hm, ok_bind, ht, ok_bind]

end Verif
