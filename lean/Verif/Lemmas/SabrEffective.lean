import Verif.Model.SabrEffective
import Verif.Spec.SabrEffective
import Mathlib.Analysis.SpecialFunctions.Integrals.Basic
import Mathlib.Analysis.SpecialFunctions.Exponential
import Mathlib.Analysis.Complex.Exponential
import Mathlib.Tactic.LinearCombination

/-! # Lemmas for the effective SABR parameters -/

namespace Verif

open MeasureTheory Set intervalIntegral

/-- `∫₀^Δ e^{cτ} dτ`. -/
noncomputable def expInt (c d : ℝ) : ℝ := ∫ t in 0..d, Real.exp (c * t)

theorem expInt_zero (d : ℝ) : expInt 0 d = d := by simp [expInt]

theorem expInt_ne {c : ℝ} (hc : c ≠ 0) (d : ℝ) : expInt c d = (Real.exp (c * d) - 1) / c := by
  unfold expInt
  rw [intervalIntegral.integral_comp_mul_left (fun x => Real.exp x) hc]
  simp
  field_simp

theorem mul_expInt (c d : ℝ) : c * expInt c d = Real.exp (c * d) - 1 := by
  by_cases hc : c = 0
  · subst hc; simp
  · rw [expInt_ne hc]; field_simp

theorem expInt_continuous (c : ℝ) : Continuous fun d => expInt c d := by
  by_cases hc : c = 0
  · subst hc; simp only [expInt_zero]; exact continuous_id
  · simp only [expInt_ne hc]; fun_prop

theorem expInt_mono {c c' d : ℝ} (hd : 0 ≤ d) (h : c ≤ c') : expInt c d ≤ expInt c' d := by
  unfold expInt
  apply intervalIntegral.integral_mono_on hd
  · exact (by fun_prop : Continuous fun t => Real.exp (c * t)).intervalIntegrable _ _
  · exact (by fun_prop : Continuous fun t => Real.exp (c' * t)).intervalIntegrable _ _
  · intro x hx
    exact Real.exp_le_exp.2 (mul_le_mul_of_nonneg_right h hx.1)

theorem expInt_nonneg {c d : ℝ} (hd : 0 ≤ d) : 0 ≤ expInt c d := by
  unfold expInt
  exact intervalIntegral.integral_nonneg hd fun x _ => (Real.exp_pos _).le

theorem expInt_pos {c d : ℝ} (hd : 0 < d) : 0 < expInt c d := by
  unfold expInt
  apply intervalIntegral.intervalIntegral_pos_of_pos_on
  · exact (by fun_prop : Continuous fun t => Real.exp (c * t)).intervalIntegrable _ _
  · intro x _; exact Real.exp_pos _
  · exact hd

/-- `∫₀^Δ e^{cτ} (∫₀^τ e^{5cs} ds) dτ`. -/
noncomputable def expKer (c d : ℝ) : ℝ := ∫ t in 0..d, Real.exp (c * t) * expInt (5 * c) t

theorem expKer_zero (d : ℝ) : expKer 0 d = d ^ 2 / 2 := by
  unfold expKer
  simp only [zero_mul, Real.exp_zero, one_mul, mul_zero, expInt_zero]
  rw [integral_id]; ring

theorem expKer_ne {c : ℝ} (hc : c ≠ 0) (d : ℝ) :
    expKer c d = (expInt (6 * c) d - expInt c d) / (5 * c) := by
  unfold expKer
  have h5 : (5 * c) ≠ 0 := by positivity
  have e : ∀ t, Real.exp (c * t) * expInt (5 * c) t =
      (Real.exp (6 * c * t) - Real.exp (c * t)) / (5 * c) := by
    intro t
    rw [expInt_ne h5, show 6 * c * t = c * t + 5 * c * t by ring, Real.exp_add]
    ring
  simp only [e]
  rw [intervalIntegral.integral_div, intervalIntegral.integral_sub]
  · rfl
  · exact (by fun_prop : Continuous fun t => Real.exp (6 * c * t)).intervalIntegrable _ _
  · exact (by fun_prop : Continuous fun t => Real.exp (c * t)).intervalIntegrable _ _

/-! ## The loops with exact kernels -/

/-- `iLoop` with the exact segment integral. -/
noncomputable def iX : ℝ → List Seg → ℝ
  | _, [] => 0
  | g, s :: rest =>
    s.omega * s.omega * Real.exp g * expInt (s.gamma * s.gamma) s.delta
      + iX (g + s.gamma * s.gamma * s.delta) rest

/-- `lhsLoop` with the exact segment integrals. -/
noncomputable def lhsX : ℝ → ℝ → List Seg → ℝ
  | _, _, [] => 0
  | g, h, s :: rest =>
    s.omega * s.omega * Real.exp g * h * expInt (s.gamma * s.gamma) s.delta
      + s.omega * s.omega * (s.omega * s.omega) * Real.exp (6 * g) * expKer (s.gamma * s.gamma) s.delta
      + lhsX (g + s.gamma * s.gamma * s.delta)
          (h + s.omega * s.omega * Real.exp (5 * g) * expInt (5 * (s.gamma * s.gamma)) s.delta) rest

theorem expKer_ge {c d : ℝ} (hc : 0 ≤ c) (hd : 0 ≤ d) : expInt c d ^ 2 / 2 ≤ expKer c d := by
  rcases eq_or_lt_of_le hc with h | h
  · rw [← h, expKer_zero, expInt_zero]
  · rw [expKer_ne h.ne', expInt_ne (show 6 * c ≠ 0 by positivity), expInt_ne h.ne']
    set u := Real.exp (c * d) with hu
    have hu1 : 1 ≤ u := Real.one_le_exp (by positivity)
    have e6 : Real.exp (6 * c * d) = u ^ 6 := by
      rw [hu, ← Real.exp_nat_mul]; congr 1; push_cast; ring
    rw [e6]
    have key : ((u ^ 6 - 1) / (6 * c) - (u - 1) / c) / (5 * c) =
        (u - 1) ^ 2 * (u ^ 4 + 2 * u ^ 3 + 3 * u ^ 2 + 4 * u + 5) / (30 * c ^ 2) := by
      field_simp; ring
    rw [key, div_pow, div_div, div_le_div_iff₀ (by positivity) (by positivity)]
    have hp : 15 ≤ u ^ 4 + 2 * u ^ 3 + 3 * u ^ 2 + 4 * u + 5 := by
      have h2 := one_le_pow₀ hu1 (n := 2)
      have h3 := one_le_pow₀ hu1 (n := 3)
      have h4 := one_le_pow₀ hu1 (n := 4)
      linarith
    have hq : 0 ≤ (u - 1) ^ 2 * c ^ 2 := by positivity
    nlinarith [mul_le_mul_of_nonneg_left hp hq]

/-! ## The loops as integrals -/

/-- The parameters equal the segments' values between the knots, starting at `a`. -/
def Steps (γ ω : ℝ → ℝ) : ℝ → List Seg → Prop
  | _, [] => True
  | a, s :: rest => (∀ t, a < t → t < a + s.delta → γ t = s.gamma ∧ ω t = s.omega) ∧
      Steps γ ω (a + s.delta) rest

/-- Total length. -/
noncomputable def span : List Seg → ℝ
  | [] => 0
  | s :: rest => s.delta + span rest

theorem span_nonneg {segs : List Seg} (h : ∀ s ∈ segs, 0 < s.delta) : 0 ≤ span segs := by
  induction segs with
  | nil => simp [span]
  | cons s rest ih =>
    simp only [span]
    have := h s (by simp)
    have := ih fun s hs => h s (by simp [hs])
    linarith

theorem head_integral {f : ℝ → ℝ} {a b v : ℝ} (h : ∀ t, a < t → t < b → f t = v) {t : ℝ} (h1 : a ≤ t)
    (h2 : t ≤ b) : (∫ s in a..t, f s) = v * (t - a) ∧ IntervalIntegrable f volume a t := by
  have e : (Ioo a t).EqOn f (fun _ => v) := fun x hx => h x hx.1 (lt_of_lt_of_le hx.2 h2)
  constructor
  · rw [integral_congr_Ioo_of_le h1 e]; simp; ring
  · refine IntervalIntegrable.congr_uIoo (f := fun _ => v) intervalIntegrable_const ?_
    rw [uIoo_of_le h1]; exact e.symm

theorem step_integrable {γ ω : ℝ → ℝ} : ∀ {segs : List Seg} {a : ℝ}, Steps γ ω a segs →
    (∀ s ∈ segs, 0 < s.delta) → ∀ t, a ≤ t → t ≤ a + span segs →
    IntervalIntegrable (fun s => γ s ^ 2) volume a t
  | [], a, _, _, t, h1, h2 => by
    simp only [span, add_zero] at h2
    rw [le_antisymm h2 h1]
  | s :: rest, a, hs, hp, t, h1, h2 => by
    obtain ⟨hh, hr⟩ := hs
    have hq : ∀ u, a < u → u < a + s.delta → γ u ^ 2 = s.gamma ^ 2 := fun u x y => by rw [(hh u x y).1]
    have hd := hp s (by simp)
    rcases le_total t (a + s.delta) with ht | ht
    · exact (head_integral hq h1 ht).2
    · refine IntervalIntegrable.trans (head_integral hq (by linarith) le_rfl).2 ?_
      exact step_integrable hr (fun s hs => hp s (by simp [hs])) t ht (by simp only [span] at h2; linarith)

/-- Running variance from `a`. -/
noncomputable def vFrom (γ : ℝ → ℝ) (a t : ℝ) : ℝ := ∫ s in a..t, γ s ^ 2

/-- Integrand of the inner integral. -/
noncomputable def innerF (γ ω : ℝ → ℝ) (a g : ℝ) (s : ℝ) : ℝ := ω s ^ 2 * Real.exp (5 * (g + vFrom γ a s))

/-- Integrand of the first moment. -/
noncomputable def firstF (γ ω : ℝ → ℝ) (a g : ℝ) (t : ℝ) : ℝ := ω t ^ 2 * Real.exp (g + vFrom γ a t)

/-- Integrand of the second moment. -/
noncomputable def secondF (γ ω : ℝ → ℝ) (a g h : ℝ) (t : ℝ) : ℝ :=
  firstF γ ω a g t * (h + ∫ s in a..t, innerF γ ω a g s)

section step

variable {γ ω : ℝ → ℝ} {s : Seg} {rest : List Seg} {a : ℝ}

theorem vFrom_head (hs : Steps γ ω a (s :: rest)) {t : ℝ} (h1 : a ≤ t) (h2 : t ≤ a + s.delta) :
    vFrom γ a t = s.gamma * s.gamma * (t - a) := by
  have hq : ∀ u, a < u → u < a + s.delta → γ u ^ 2 = s.gamma * s.gamma := fun u x y => by
    rw [(hs.1 u x y).1]; ring
  exact (head_integral hq h1 h2).1

theorem vFrom_tail (hs : Steps γ ω a (s :: rest)) (hp : ∀ x ∈ s :: rest, 0 < x.delta) {t : ℝ}
    (h1 : a + s.delta ≤ t) (h2 : t ≤ a + span (s :: rest)) :
    vFrom γ a t = s.gamma * s.gamma * s.delta + vFrom γ (a + s.delta) t := by
  have hd := hp s (by simp)
  have e := vFrom_head hs (t := a + s.delta) (by linarith) le_rfl
  rw [show a + s.delta - a = s.delta by ring] at e
  rw [← e]
  unfold vFrom
  rw [integral_add_adjacent_intervals]
  · exact step_integrable hs hp _ (by linarith) (by
      have := span_nonneg fun x hx => hp x (List.mem_cons_of_mem s hx)
      simp only [span]; linarith)
  · exact step_integrable hs.2 (fun x hx => hp x (List.mem_cons_of_mem s hx)) _ h1 (by
      simp only [span] at h2; linarith)

end step

/-- The inner integral. -/
theorem inner_integral {γ ω : ℝ → ℝ} : ∀ (segs : List Seg) (a g : ℝ), Steps γ ω a segs →
    (∀ s ∈ segs, 0 < s.delta) → ∀ t, a ≤ t → t ≤ a + span segs →
    IntervalIntegrable (innerF γ ω a g) volume a t
  | [], a, g, _, _, t, h1, h2 => by
    simp only [span, add_zero] at h2
    rw [le_antisymm h2 h1]
  | s :: rest, a, g, hs, hp, t, h1, h2 => by
    have hd := hp s (by simp)
    have hhead : ∀ u, a ≤ u → u ≤ a + s.delta → IntervalIntegrable (innerF γ ω a g) volume a u := by
      intro u hu1 hu2
      refine IntervalIntegrable.congr_uIoo
        (f := fun x => s.omega ^ 2 * Real.exp (5 * (g + s.gamma * s.gamma * (x - a)))) ?_ ?_
      · exact (by fun_prop : Continuous fun x => s.omega ^ 2 * Real.exp (5 * (g + s.gamma * s.gamma * (x - a)))).intervalIntegrable _ _
      · rw [uIoo_of_le hu1]
        intro x hx
        have hx2 : x < a + s.delta := lt_of_lt_of_le hx.2 hu2
        simp only [innerF]
        rw [(hs.1 x hx.1 hx2).2, vFrom_head hs hx.1.le hx2.le]
    rcases le_total t (a + s.delta) with ht | ht
    · exact hhead t h1 ht
    · refine (hhead _ (by linarith) le_rfl).trans ?_
      have ih := inner_integral rest (a + s.delta) (g + s.gamma * s.gamma * s.delta) hs.2
        (fun x hx => hp x (List.mem_cons_of_mem s hx)) t ht (by simp only [span] at h2; linarith)
      refine IntervalIntegrable.congr_uIoo ih ?_
      rw [uIoo_of_le ht]
      intro x hx
      simp only [innerF]
      rw [vFrom_tail hs hp hx.1.le (by linarith [hx.2])]
      ring_nf

theorem inner_head {γ ω : ℝ → ℝ} {s : Seg} {rest : List Seg} {a g t : ℝ} (hs : Steps γ ω a (s :: rest))
    (h1 : a ≤ t) (h2 : t ≤ a + s.delta) :
    (∫ x in a..t, innerF γ ω a g x) =
      s.omega ^ 2 * Real.exp (5 * g) * expInt (5 * (s.gamma * s.gamma)) (t - a) := by
  have e : (Ioo a t).EqOn (innerF γ ω a g)
      (fun x => s.omega ^ 2 * Real.exp (5 * g) * Real.exp (5 * (s.gamma * s.gamma) * (x - a))) := by
    intro x hx
    have hx2 : x < a + s.delta := lt_of_lt_of_le hx.2 h2
    simp only [innerF]
    rw [(hs.1 x hx.1 hx2).2, vFrom_head hs hx.1.le hx2.le,
      show 5 * (g + s.gamma * s.gamma * (x - a)) = 5 * g + 5 * (s.gamma * s.gamma) * (x - a) by ring,
      Real.exp_add]
    ring
  rw [integral_congr_Ioo_of_le h1 e, intervalIntegral.integral_const_mul]
  rw [intervalIntegral.integral_comp_sub_right (fun x => Real.exp (5 * (s.gamma * s.gamma) * x)) a]
  simp [expInt]

theorem inner_tail {γ ω : ℝ → ℝ} {s : Seg} {rest : List Seg} {a g t : ℝ} (hs : Steps γ ω a (s :: rest))
    (hp : ∀ x ∈ s :: rest, 0 < x.delta) (h1 : a + s.delta ≤ t) (h2 : t ≤ a + span (s :: rest)) :
    (∫ x in a..t, innerF γ ω a g x) =
      s.omega ^ 2 * Real.exp (5 * g) * expInt (5 * (s.gamma * s.gamma)) s.delta +
      ∫ x in (a + s.delta)..t, innerF γ ω (a + s.delta) (g + s.gamma * s.gamma * s.delta) x := by
  have hd := hp s (by simp)
  have hsp := span_nonneg fun x hx => hp x (List.mem_cons_of_mem s hx)
  have e := inner_head (g := g) hs (t := a + s.delta) (by linarith) le_rfl
  rw [show a + s.delta - a = s.delta by ring] at e
  have hcongr : (Ioo (a + s.delta) t).EqOn (innerF γ ω a g)
      (innerF γ ω (a + s.delta) (g + s.gamma * s.gamma * s.delta)) := by
    intro x hx
    simp only [innerF]
    rw [vFrom_tail hs hp hx.1.le (by linarith [hx.2])]
    ring_nf
  rw [← e, ← integral_congr_Ioo_of_le h1 hcongr, integral_add_adjacent_intervals]
  · exact inner_integral _ _ _ hs hp _ (by linarith) (by simp only [span]; linarith)
  · have i1 := inner_integral rest (a + s.delta) (g + s.gamma * s.gamma * s.delta) hs.2
      (fun x hx => hp x (List.mem_cons_of_mem s hx)) t h1 (by simp only [span] at h2; linarith)
    refine IntervalIntegrable.congr_uIoo i1 ?_
    rw [uIoo_of_le h1]; exact hcongr.symm

/-- The exact loops compute the integrals. -/
theorem loops_eq {γ ω : ℝ → ℝ} : ∀ (segs : List Seg) (a g h : ℝ), Steps γ ω a segs →
    (∀ s ∈ segs, 0 < s.delta) →
    IntervalIntegrable (firstF γ ω a g) volume a (a + span segs) ∧
    IntervalIntegrable (secondF γ ω a g h) volume a (a + span segs) ∧
    iX g segs = (∫ t in a..(a + span segs), firstF γ ω a g t) ∧
    lhsX g h segs = ∫ t in a..(a + span segs), secondF γ ω a g h t
  | [], a, g, h, _, _ => by simp [span, iX, lhsX]
  | s :: rest, a, g, h, hs, hx => by
    have hp : ∀ x ∈ s :: rest, 0 < x.delta := fun x hm => hx x hm
    have hd := hp s (by simp)
    have hsp := span_nonneg fun x hm => hp x (List.mem_cons_of_mem s hm)
    obtain ⟨i1, i2, i3, i4⟩ := loops_eq rest (a + s.delta) (g + s.gamma * s.gamma * s.delta)
      (h + s.omega ^ 2 * Real.exp (5 * g) * expInt (5 * (s.gamma * s.gamma)) s.delta) hs.2
      (fun x hm => hx x (List.mem_cons_of_mem s hm))
    have hend : a + span (s :: rest) = a + s.delta + span rest := by simp only [span]; ring
    rw [hend]
    have ha : a ≤ a + s.delta := by linarith
    have hb : a + s.delta ≤ a + s.delta + span rest := by linarith
    -- head
    have f1 : (Ioo a (a + s.delta)).EqOn (firstF γ ω a g)
        (fun t => s.omega ^ 2 * Real.exp g * Real.exp (s.gamma * s.gamma * (t - a))) := by
      intro x hm
      simp only [firstF]
      rw [(hs.1 x hm.1 hm.2).2, vFrom_head hs hm.1.le hm.2.le, Real.exp_add]
      ring
    have f2 : (Ioo a (a + s.delta)).EqOn (secondF γ ω a g h)
        (fun t => s.omega ^ 2 * Real.exp g * h * Real.exp (s.gamma * s.gamma * (t - a)) +
          s.omega ^ 4 * Real.exp (6 * g) * (Real.exp (s.gamma * s.gamma * (t - a)) *
            expInt (5 * (s.gamma * s.gamma)) (t - a))) := by
      intro x hm
      have := f1 hm
      simp only [secondF]
      rw [this, inner_head hs hm.1.le hm.2.le, show 6 * g = g + 5 * g by ring, Real.exp_add]
      ring
    have t1 : (Ioo (a + s.delta) (a + s.delta + span rest)).EqOn (firstF γ ω a g)
        (firstF γ ω (a + s.delta) (g + s.gamma * s.gamma * s.delta)) := by
      intro x hm
      simp only [firstF]
      rw [vFrom_tail hs hp hm.1.le (by rw [hend]; exact hm.2.le)]
      ring_nf
    have t2 : (Ioo (a + s.delta) (a + s.delta + span rest)).EqOn (secondF γ ω a g h)
        (secondF γ ω (a + s.delta) (g + s.gamma * s.gamma * s.delta)
          (h + s.omega ^ 2 * Real.exp (5 * g) * expInt (5 * (s.gamma * s.gamma)) s.delta)) := by
      intro x hm
      have := t1 hm
      simp only [secondF]
      rw [this, inner_tail hs hp hm.1.le (by rw [hend]; exact hm.2.le)]
      ring
    have c1 : Continuous fun t => s.omega ^ 2 * Real.exp g * Real.exp (s.gamma * s.gamma * (t - a)) := by
      fun_prop
    have hE := expInt_continuous (5 * (s.gamma * s.gamma))
    have c2a : Continuous fun t => s.omega ^ 2 * Real.exp g * h * Real.exp (s.gamma * s.gamma * (t - a)) := by
      fun_prop
    have c2b : Continuous fun t => s.omega ^ 4 * Real.exp (6 * g) * (Real.exp (s.gamma * s.gamma * (t - a)) *
            expInt (5 * (s.gamma * s.gamma)) (t - a)) := by
      have : Continuous fun t : ℝ => expInt (5 * (s.gamma * s.gamma)) (t - a) :=
        hE.comp (continuous_id.sub continuous_const)
      fun_prop
    have j1 : IntervalIntegrable (firstF γ ω a g) volume a (a + s.delta) :=
      IntervalIntegrable.congr_uIoo (c1.intervalIntegrable _ _) (by rw [uIoo_of_le ha]; exact f1.symm)
    have j2 : IntervalIntegrable (secondF γ ω a g h) volume a (a + s.delta) :=
      IntervalIntegrable.congr_uIoo ((c2a.add c2b).intervalIntegrable _ _)
        (by rw [uIoo_of_le ha]; exact f2.symm)
    have k1 : IntervalIntegrable (firstF γ ω a g) volume (a + s.delta) (a + s.delta + span rest) :=
      IntervalIntegrable.congr_uIoo i1 (by rw [uIoo_of_le hb]; exact t1.symm)
    have k2 : IntervalIntegrable (secondF γ ω a g h) volume (a + s.delta) (a + s.delta + span rest) :=
      IntervalIntegrable.congr_uIoo i2 (by rw [uIoo_of_le hb]; exact t2.symm)
    refine ⟨j1.trans k1, j2.trans k2, ?_, ?_⟩
    · rw [← integral_add_adjacent_intervals j1 k1, integral_congr_Ioo_of_le ha f1,
        integral_congr_Ioo_of_le hb t1, ← i3, intervalIntegral.integral_const_mul,
        intervalIntegral.integral_comp_sub_right (fun x => Real.exp (s.gamma * s.gamma * x)) a]
      simp only [iX]
      rw [show a + s.delta - a = s.delta by ring, sub_self]
      unfold expInt
      ring
    · rw [← integral_add_adjacent_intervals j2 k2, integral_congr_Ioo_of_le ha f2,
        integral_congr_Ioo_of_le hb t2, ← i4,
        intervalIntegral.integral_add (c2a.intervalIntegrable _ _) (c2b.intervalIntegrable _ _),
        intervalIntegral.integral_const_mul, intervalIntegral.integral_const_mul,
        intervalIntegral.integral_comp_sub_right (fun x => Real.exp (s.gamma * s.gamma * x)) a,
        intervalIntegral.integral_comp_sub_right
          (fun x => Real.exp (s.gamma * s.gamma * x) * expInt (5 * (s.gamma * s.gamma)) x) a]
      simp only [lhsX]
      rw [show a + s.delta - a = s.delta by ring, sub_self]
      unfold expKer
      rw [show s.omega * s.omega = s.omega ^ 2 by ring]
      unfold expInt
      ring

/-! ## Jensen floor -/

theorem lhs_ge : ∀ (segs : List Seg) (g h i0 : ℝ), (∀ s ∈ segs, 0 < s.delta) → 0 ≤ g → 0 ≤ i0 → i0 ≤ h →
    i0 * iX g segs + iX g segs ^ 2 / 2 ≤ lhsX g h segs ∧ 0 ≤ iX g segs
  | [], _, _, _, _, _, _, _ => by simp [iX, lhsX]
  | s :: rest, g, h, i0, hx, hg, hi0, hh => by
    have hs := hx s (by simp)
    have hc : 0 ≤ s.gamma * s.gamma := mul_self_nonneg _
    have ho : 0 ≤ s.omega * s.omega := mul_self_nonneg _
    have hE := expInt_nonneg (c := s.gamma * s.gamma) hs.le
    have hK := expKer_ge hc hs.le
    have hE5 := expInt_mono hs.le (show s.gamma * s.gamma ≤ 5 * (s.gamma * s.gamma) by linarith)
    have hexp : Real.exp g ≤ Real.exp (5 * g) := Real.exp_le_exp.2 (by linarith)
    have hexp2 : Real.exp g ^ 2 ≤ Real.exp (6 * g) := by
      rw [← Real.exp_nat_mul]; apply Real.exp_le_exp.2; push_cast; linarith
    have hpos := Real.exp_pos g
    set A := s.omega * s.omega * Real.exp g * expInt (s.gamma * s.gamma) s.delta with hA
    have hA0 : 0 ≤ A := by positivity
    have hstep : i0 + A ≤ h + s.omega * s.omega * Real.exp (5 * g) * expInt (5 * (s.gamma * s.gamma)) s.delta := by
      have : A ≤ s.omega * s.omega * Real.exp (5 * g) * expInt (5 * (s.gamma * s.gamma)) s.delta := by
        rw [hA]; gcongr
      linarith
    obtain ⟨ih, ih0⟩ := lhs_ge rest (g + s.gamma * s.gamma * s.delta)
      (h + s.omega * s.omega * Real.exp (5 * g) * expInt (5 * (s.gamma * s.gamma)) s.delta) (i0 + A)
      (fun x hm => hx x (List.mem_cons_of_mem s hm)) (by nlinarith) (by linarith) hstep
    simp only [iX, lhsX]
    rw [← hA]
    set B := iX (g + s.gamma * s.gamma * s.delta) rest with hB
    have h1 : i0 * A ≤ s.omega * s.omega * Real.exp g * h * expInt (s.gamma * s.gamma) s.delta := by
      have e : s.omega * s.omega * Real.exp g * h * expInt (s.gamma * s.gamma) s.delta = h * A := by
        rw [hA]; ring
      rw [e]
      exact mul_le_mul_of_nonneg_right hh hA0
    have h2 : A ^ 2 / 2 ≤ s.omega * s.omega * (s.omega * s.omega) * Real.exp (6 * g) *
        expKer (s.gamma * s.gamma) s.delta := by
      have e : A ^ 2 / 2 = s.omega * s.omega * (s.omega * s.omega) * Real.exp g ^ 2 *
          (expInt (s.gamma * s.gamma) s.delta ^ 2 / 2) := by rw [hA]; ring
      rw [e]; gcongr
    refine ⟨?_, by linarith⟩
    nlinarith [h1, h2, ih]

end Verif
