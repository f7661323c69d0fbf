import Verif.Lemmas.SabrEffective
import Mathlib.Analysis.SpecialFunctions.Log.Basic
import Mathlib.Topology.Order.IntermediateValue
import Mathlib.Analysis.Complex.ExponentialBounds

/-! # Accuracy of the effective vol-vol -/

namespace Verif

open Set

/-! ## Taylor branches -/

theorem exp_upto {x : ℝ} (h0 : 0 ≤ x) (h1 : x ≤ 1) (n : ℕ) (hn : 0 < n) :
    |Real.exp x - ∑ m ∈ Finset.range n, x ^ m / m.factorial| ≤ x ^ n * (n.succ / (n.factorial * n)) := by
  have := Real.exp_bound (x := x) (by rwa [abs_of_nonneg h0]) hn
  rwa [abs_of_nonneg h0] at this

theorem expSeg_bounds {c d : ℝ} (hc : 0 ≤ c) (hd : 0 < d) :
    expSeg c d ≤ expInt c d ∧ (1 - 1 / 10 ^ 12) * expInt c d ≤ expSeg c d := by
  have hp := expInt_pos (c := c) hd
  unfold expSeg
  dsimp only
  rcases eq_or_lt_of_le hc with h | h
  · subst h
    rw [if_pos (by norm_num), expInt_zero]
    constructor <;> norm_num <;> linarith
  · split_ifs with hs
    · rw [expInt_ne h.ne']
      have hx0 : 0 < c * d := by positivity
      rw [abs_of_pos hx0] at hs
      have hb := abs_le.1 (exp_upto hx0.le (by linarith [show (1:ℝ) / 10 ^ 8 ≤ 1 by norm_num]) 5 (by norm_num))
      have hl := Real.sum_le_exp_of_nonneg hx0.le 5
      simp only [Finset.sum_range_succ, Finset.sum_range_zero, Nat.factorial] at hb hl
      push_cast at hb hl
      set x := c * d with hx
      have hdc : d = x / c := by rw [hx]; field_simp
      rw [hdc, div_mul_eq_mul_div, ← mul_div_assoc]
      have hx4 : x ^ 5 ≤ x * (1 / 10 ^ 8) ^ 4 := by
        have : x ^ 4 ≤ (1 / 10 ^ 8) ^ 4 := pow_le_pow_left₀ hx0.le hs.le 4
        calc x ^ 5 = x * x ^ 4 := by ring
          _ ≤ _ := mul_le_mul_of_nonneg_left this hx0.le
      have hx2 : 0 ≤ x ^ 2 := by positivity
      have hx3 : 0 ≤ x ^ 3 := by positivity
      have hx40 : 0 ≤ x ^ 4 := by positivity
      constructor
      · apply div_le_div_of_nonneg_right _ h.le
        norm_num at hl ⊢
        linarith
      · apply div_le_div_of_nonneg_right _ h.le
        norm_num at hb hx4 ⊢
        nlinarith [hb.2]
    · rw [expInt_ne h.ne'] at *
      constructor
      · exact le_rfl
      · norm_num at hp ⊢; linarith

/-- The bracket of the right-hand side. -/
noncomputable def innerX (x : ℝ) : ℝ := (Real.exp (6 * x) - 1) / 6 - (Real.exp x - 1)

theorem innerX_bounds {x : ℝ} (h0 : 0 ≤ x) (h1 : x ≤ 1 / 10 ^ 3) :
    5 / 2 * x ^ 2 + 35 / 6 * x ^ 3 + 215 / 24 * x ^ 4 + 1295 / 120 * x ^ 5 ≤ innerX x ∧
    innerX x ≤ 5 / 2 * x ^ 2 + 35 / 6 * x ^ 3 + 215 / 24 * x ^ 4 + 1295 / 120 * x ^ 5 + 22 * x ^ 6 := by
  have hb := abs_le.1 (exp_upto h0 (by linarith [show (1:ℝ) / 10 ^ 3 ≤ 1 by norm_num]) 7 (by norm_num))
  have hb6 := abs_le.1 (exp_upto (show 0 ≤ 6 * x by linarith) (by norm_num at h1; linarith) 7 (by norm_num))
  simp only [Finset.sum_range_succ, Finset.sum_range_zero, Nat.factorial, mul_pow] at hb hb6
  push_cast at hb hb6
  unfold innerX
  have h6 : 0 ≤ x ^ 6 := by positivity
  have h7 : x ^ 7 ≤ x ^ 6 * (1 / 10 ^ 3) := by
    calc x ^ 7 = x ^ 6 * x := by ring
      _ ≤ _ := mul_le_mul_of_nonneg_left h1 h6
  have h70 : 0 ≤ x ^ 7 := by positivity
  norm_num at hb hb6 h7 ⊢
  constructor <;> linarith [hb.1, hb.2, hb6.1, hb6.2]

theorem innerX_factor (x : ℝ) : innerX x = (Real.exp x - 1) ^ 2 *
    (Real.exp x ^ 4 + 2 * Real.exp x ^ 3 + 3 * Real.exp x ^ 2 + 4 * Real.exp x + 5) / 6 := by
  unfold innerX
  rw [show Real.exp (6 * x) = Real.exp x ^ 6 by rw [← Real.exp_nat_mul]; norm_num]
  ring

theorem innerX_nonneg (x : ℝ) : 0 ≤ innerX x := by
  rw [innerX_factor]
  have := Real.exp_pos x
  positivity

theorem expKer_eq {c : ℝ} (hc : c ≠ 0) (d : ℝ) : expKer c d = innerX (c * d) / (5 * c ^ 2) := by
  rw [expKer_ne hc, expInt_ne (show 6 * c ≠ 0 by positivity), expInt_ne hc]
  unfold innerX
  rw [mul_assoc 6 c d]
  field_simp

theorem expKer_nonneg {c d : ℝ} (hc : 0 ≤ c) (hd : 0 ≤ d) : 0 ≤ expKer c d :=
  le_trans (by positivity) (expKer_ge hc hd)

theorem expSeg_eq {c d : ℝ} (hc : c ≠ 0) (h : 1 / 10 ^ 8 ≤ |c * d|) : expSeg c d = expInt c d := by
  unfold expSeg
  rw [if_neg (by simpa using h), expInt_ne hc]

theorem expSegDiffKernel_bounds {c d : ℝ} (hc : 0 ≤ c) (hd : 0 < d) :
    expSegDiffKernel c d ≤ expKer c d ∧ (1 - 5 / 10 ^ 12) * expKer c d ≤ expSegDiffKernel c d := by
  have hk := expKer_nonneg hc hd.le
  rcases eq_or_lt_of_le hc with h | h
  · subst h
    unfold expSegDiffKernel
    rw [if_pos (by norm_num), expKer_zero]
    constructor
    · norm_num; nlinarith
    · norm_num; nlinarith
  · have hx0 : 0 < c * d := by positivity
    by_cases hs : |c * d| < 1 / 10 ^ 4
    · unfold expSegDiffKernel
      rw [if_pos hs]
      rw [abs_of_pos hx0] at hs
      have hs3 : c * d ≤ 1 / 10 ^ 3 := by norm_num at hs ⊢; linarith
      obtain ⟨b1, b2⟩ := innerX_bounds hx0.le hs3
      rw [expKer_eq h.ne']
      set x := c * d with hx
      have e : 0.5 * d * d + 7 / 6 * c * d * d * d + 43 / 24 * c * c * d * d * d * d =
          (5 / 2 * x ^ 2 + 35 / 6 * x ^ 3 + 215 / 24 * x ^ 4) / (5 * c ^ 2) := by
        rw [hx]; field_simp; norm_num; ring
      rw [e]
      have h5 : x ^ 5 ≤ x ^ 2 * (1 / 10 ^ 4) ^ 3 := by
        have : x ^ 3 ≤ (1 / 10 ^ 4) ^ 3 := pow_le_pow_left₀ hx0.le hs.le 3
        calc x ^ 5 = x ^ 2 * x ^ 3 := by ring
          _ ≤ _ := mul_le_mul_of_nonneg_left this (by positivity)
      have h6 : x ^ 6 ≤ x ^ 2 * (1 / 10 ^ 4) ^ 4 := by
        have : x ^ 4 ≤ (1 / 10 ^ 4) ^ 4 := pow_le_pow_left₀ hx0.le hs.le 4
        calc x ^ 6 = x ^ 2 * x ^ 4 := by ring
          _ ≤ _ := mul_le_mul_of_nonneg_left this (by positivity)
      have p2 : 0 ≤ x ^ 2 := by positivity
      have p3 : 0 ≤ x ^ 3 := by positivity
      have p4 : 0 ≤ x ^ 4 := by positivity
      have p5 : 0 ≤ x ^ 5 := by positivity
      constructor
      · apply div_le_div_of_nonneg_right _ (by positivity)
        linarith
      · rw [← mul_div_assoc]
        apply div_le_div_of_nonneg_right _ (by positivity)
        norm_num at h5 h6 ⊢
        nlinarith
    · have e : expSegDiffKernel c d = expKer c d := by
        unfold expSegDiffKernel
        rw [if_neg hs, expKer_ne h.ne']
        rw [abs_of_pos hx0] at hs
        push Not at hs
        norm_num at hs
        rw [expSeg_eq (by positivity) (by rw [abs_of_pos (by positivity)]; norm_num; nlinarith),
          expSeg_eq (by positivity) (by rw [abs_of_pos (by positivity)]; norm_num; linarith)]
      rw [e]
      constructor
      · exact le_rfl
      · norm_num; linarith

/-! ## The loops -/

theorem iX_nonneg : ∀ (segs : List Seg) (g : ℝ), (∀ s ∈ segs, 0 < s.delta) → 0 ≤ iX g segs
  | [], _, _ => by simp [iX]
  | s :: rest, g, h => by
    have hd := h s (by simp)
    have := iX_nonneg rest (g + s.gamma * s.gamma * s.delta) fun x hx => h x (List.mem_cons_of_mem s hx)
    have e := expInt_nonneg (c := s.gamma * s.gamma) hd.le
    have := Real.exp_pos g
    have := mul_self_nonneg s.omega
    simp only [iX]
    positivity

theorem iLoop_bounds : ∀ (segs : List Seg) (g : ℝ), (∀ s ∈ segs, 0 < s.delta) →
    iLoop g segs ≤ iX g segs ∧ (1 - 1 / 10 ^ 12) * iX g segs ≤ iLoop g segs
  | [], _, _ => by simp [iX, iLoop]
  | s :: rest, g, h => by
    have hd := h s (by simp)
    obtain ⟨i1, i2⟩ := iLoop_bounds rest (g + s.gamma * s.gamma * s.delta)
      fun x hx => h x (List.mem_cons_of_mem s hx)
    obtain ⟨e1, e2⟩ := expSeg_bounds (mul_self_nonneg s.gamma) hd
    have hk : 0 ≤ s.omega * s.omega * Real.exp g := mul_nonneg (mul_self_nonneg _) (Real.exp_pos g).le
    have a1 := mul_le_mul_of_nonneg_left e1 hk
    have a2 := mul_le_mul_of_nonneg_left e2 hk
    simp only [iX, iLoop]
    constructor
    · linarith
    · rw [mul_left_comm] at a2
      rw [mul_add]; linarith

theorem lhsLoop_bounds : ∀ (segs : List Seg) (g h h' : ℝ), (∀ s ∈ segs, 0 < s.delta) → 0 ≤ h →
    h ≤ h' → (1 - 1 / 10 ^ 12) * h' ≤ h →
    lhsLoop g h segs ≤ lhsX g h' segs ∧ (1 - 1 / 10 ^ 11) * lhsX g h' segs ≤ lhsLoop g h segs
  | [], _, _, _, _, _, _, _ => by simp [lhsX, lhsLoop]
  | s :: rest, g, h, h', hp, h0, h1, h2 => by
    have hd := hp s (by simp)
    have hc := mul_self_nonneg s.gamma
    obtain ⟨e1, e2⟩ := expSeg_bounds hc hd
    obtain ⟨f1, f2⟩ := expSeg_bounds (show 0 ≤ 5 * (s.gamma * s.gamma) by linarith) hd
    obtain ⟨k1, k2⟩ := expSegDiffKernel_bounds hc hd
    have ek := expInt_nonneg (c := s.gamma * s.gamma) hd.le
    have ek5 := expInt_nonneg (c := 5 * (s.gamma * s.gamma)) hd.le
    have kk := expKer_nonneg hc hd.le
    have hq : 0 ≤ s.omega * s.omega * Real.exp g := mul_nonneg (mul_self_nonneg _) (Real.exp_pos g).le
    have hq5 : 0 ≤ s.omega * s.omega * Real.exp (5 * g) :=
      mul_nonneg (mul_self_nonneg _) (Real.exp_pos _).le
    have hq6 : 0 ≤ s.omega * s.omega * (s.omega * s.omega) * Real.exp (6 * g) :=
      mul_nonneg (mul_self_nonneg _) (Real.exp_pos _).le
    have es0 : 0 ≤ expSeg (s.gamma * s.gamma) s.delta := le_trans (by norm_num; positivity) e2
    have es5 : 0 ≤ expSeg (5 * (s.gamma * s.gamma)) s.delta := le_trans (by norm_num; positivity) f2
    have s1 := mul_le_mul_of_nonneg_left f1 hq5
    have s2 := mul_le_mul_of_nonneg_left f2 hq5
    obtain ⟨i1, i2⟩ := lhsLoop_bounds rest (g + s.gamma * s.gamma * s.delta)
      (h + s.omega * s.omega * Real.exp (5 * g) * expSeg (5 * (s.gamma * s.gamma)) s.delta)
      (h' + s.omega * s.omega * Real.exp (5 * g) * expInt (5 * (s.gamma * s.gamma)) s.delta)
      (fun x hx => hp x (List.mem_cons_of_mem s hx)) (by positivity) (by linarith)
      (by rw [mul_left_comm] at s2; rw [mul_add]; linarith)
    have h'0 : 0 ≤ h' := h0.trans h1
    have a1 : h * expSeg (s.gamma * s.gamma) s.delta ≤ h' * expInt (s.gamma * s.gamma) s.delta :=
      mul_le_mul h1 e1 es0 h'0
    have a2 : (1 - 1 / 10 ^ 11) * (h' * expInt (s.gamma * s.gamma) s.delta) ≤
        h * expSeg (s.gamma * s.gamma) s.delta := by
      have := mul_le_mul h2 e2 (by norm_num; positivity) h0
      have hh : 0 ≤ h' * expInt (s.gamma * s.gamma) s.delta := by positivity
      refine le_trans ?_ this
      norm_num
      nlinarith
    have b1 := mul_le_mul_of_nonneg_left a1 hq
    have b2 := mul_le_mul_of_nonneg_left a2 hq
    have c1 := mul_le_mul_of_nonneg_left k1 hq6
    have c2 : (1 - 1 / 10 ^ 11) * (s.omega * s.omega * (s.omega * s.omega) * Real.exp (6 * g) *
        expKer (s.gamma * s.gamma) s.delta) ≤ s.omega * s.omega * (s.omega * s.omega) * Real.exp (6 * g) *
        expSegDiffKernel (s.gamma * s.gamma) s.delta := by
      have := mul_le_mul_of_nonneg_left k2 hq6
      refine le_trans ?_ this
      have : 0 ≤ s.omega * s.omega * (s.omega * s.omega) * Real.exp (6 * g) *
        expKer (s.gamma * s.gamma) s.delta := by positivity
      norm_num at this ⊢
      nlinarith
    simp only [lhsX, lhsLoop]
    constructor
    · nlinarith
    · rw [mul_left_comm] at b2
      nlinarith

theorem expKer_le {c d : ℝ} (hc : 0 ≤ c) (hd : 0 ≤ d) :
    expKer c d ≤ Real.exp (4 * (c * d)) * (expInt c d ^ 2 / 2) := by
  rcases eq_or_lt_of_le hc with h | h
  · rw [← h, expKer_zero, expInt_zero]; simp
  · rw [expKer_eq h.ne', innerX_factor, expInt_ne h.ne',
      show Real.exp (4 * (c * d)) = Real.exp (c * d) ^ 4 by rw [← Real.exp_nat_mul]; norm_num]
    set u := Real.exp (c * d) with hu
    have hu1 : 1 ≤ u := Real.one_le_exp (by positivity)
    have e1 : (u - 1) ^ 2 * (u ^ 4 + 2 * u ^ 3 + 3 * u ^ 2 + 4 * u + 5) / 6 / (5 * c ^ 2) =
        ((u - 1) ^ 2 / c ^ 2) * ((u ^ 4 + 2 * u ^ 3 + 3 * u ^ 2 + 4 * u + 5) / 30) := by
      field_simp; ring
    have e2 : u ^ 4 * (((u - 1) / c) ^ 2 / 2) = ((u - 1) ^ 2 / c ^ 2) * (u ^ 4 / 2) := by
      field_simp
    rw [e1, e2]
    apply mul_le_mul_of_nonneg_left _ (by positivity)
    have h1 : u ^ 3 ≤ u ^ 4 := pow_le_pow_right₀ hu1 (by norm_num)
    have h2 : u ^ 2 ≤ u ^ 4 := pow_le_pow_right₀ hu1 (by norm_num)
    have h3 : u ≤ u ^ 4 := le_self_pow₀ hu1 (by norm_num)
    have h4 : 1 ≤ u ^ 4 := one_le_pow₀ hu1
    linarith

theorem expInt5_le {c d : ℝ} (hc : 0 ≤ c) (hd : 0 ≤ d) :
    expInt (5 * c) d ≤ Real.exp (4 * (c * d)) * expInt c d := by
  rcases eq_or_lt_of_le hc with h | h
  · rw [← h]; simp
  · rw [expInt_ne (show 5 * c ≠ 0 by positivity), expInt_ne h.ne',
      show Real.exp (4 * (c * d)) = Real.exp (c * d) ^ 4 by rw [← Real.exp_nat_mul]; norm_num,
      show Real.exp (5 * c * d) = Real.exp (c * d) ^ 5 by
        rw [← Real.exp_nat_mul]; congr 1; push_cast; ring]
    set u := Real.exp (c * d) with hu
    have hu1 : 1 ≤ u := Real.one_le_exp (by positivity)
    have h1 : u ^ 3 ≤ u ^ 4 := pow_le_pow_right₀ hu1 (by norm_num)
    have h2 : u ^ 2 ≤ u ^ 4 := pow_le_pow_right₀ hu1 (by norm_num)
    have h3 : u ≤ u ^ 4 := le_self_pow₀ hu1 (by norm_num)
    have h4 : 1 ≤ u ^ 4 := one_le_pow₀ hu1
    rw [← mul_div_assoc, div_le_div_iff₀ (by positivity) h]
    have : u ^ 5 - 1 = (u - 1) * (u ^ 4 + u ^ 3 + u ^ 2 + u + 1) := by ring
    rw [this]
    have hm := mul_le_mul_of_nonneg_left (show u ^ 4 + u ^ 3 + u ^ 2 + u + 1 ≤ 5 * u ^ 4 by linarith)
      (show 0 ≤ (u - 1) * c by nlinarith)
    nlinarith

/-- Accumulated variance of the segments. -/
noncomputable def segVar : List Seg → ℝ
  | [] => 0
  | s :: rest => s.gamma * s.gamma * s.delta + segVar rest

theorem segVar_nonneg : ∀ (segs : List Seg), (∀ s ∈ segs, 0 < s.delta) → 0 ≤ segVar segs
  | [], _ => by simp [segVar]
  | s :: rest, h => by
    have := segVar_nonneg rest fun x hx => h x (List.mem_cons_of_mem s hx)
    have := mul_nonneg (mul_self_nonneg s.gamma) (h s (by simp)).le
    simp only [segVar]; linarith

theorem lhs_le : ∀ (segs : List Seg) (g h i0 A : ℝ), (∀ s ∈ segs, 0 < s.delta) →
    Real.exp (4 * (g + segVar segs)) ≤ A → 0 ≤ i0 → h ≤ A * i0 →
    lhsX g h segs ≤ A * (i0 * iX g segs + iX g segs ^ 2 / 2)
  | [], _, _, _, _, _, _, _, _ => by simp [lhsX, iX]
  | s :: rest, g, h, i0, A, hp, hA, hi0, hh => by
    have hd := hp s (by simp)
    have hc := mul_self_nonneg s.gamma
    have hv := segVar_nonneg rest fun x hx => hp x (List.mem_cons_of_mem s hx)
    have hA0 : 0 < A := lt_of_lt_of_le (Real.exp_pos _) hA
    have hgA : Real.exp (4 * (g + s.gamma * s.gamma * s.delta)) ≤ A :=
      le_trans (Real.exp_le_exp.2 (by simp only [segVar]; linarith)) hA
    have hE := expInt_nonneg (c := s.gamma * s.gamma) hd.le
    have ho := mul_self_nonneg s.omega
    set a := s.omega * s.omega * Real.exp g * expInt (s.gamma * s.gamma) s.delta with ha
    have ha0 : 0 ≤ a := by have := Real.exp_pos g; positivity
    have h5 : s.omega * s.omega * Real.exp (5 * g) * expInt (5 * (s.gamma * s.gamma)) s.delta ≤ A * a := by
      have := mul_le_mul_of_nonneg_left (expInt5_le hc hd.le)
        (show 0 ≤ s.omega * s.omega * Real.exp (5 * g) from mul_nonneg ho (Real.exp_pos _).le)
      refine this.trans ?_
      calc s.omega * s.omega * Real.exp (5 * g) * (Real.exp (4 * (s.gamma * s.gamma * s.delta)) *
            expInt (s.gamma * s.gamma) s.delta)
          = Real.exp (4 * (g + s.gamma * s.gamma * s.delta)) * a := by
            rw [ha, show 5 * g = g + 4 * g by ring, Real.exp_add, mul_add 4, Real.exp_add]; ring
        _ ≤ A * a := mul_le_mul_of_nonneg_right hgA ha0
    have h6 : s.omega * s.omega * (s.omega * s.omega) * Real.exp (6 * g) *
        expKer (s.gamma * s.gamma) s.delta ≤ A * (a ^ 2 / 2) := by
      have := mul_le_mul_of_nonneg_left (expKer_le hc hd.le)
        (show 0 ≤ s.omega * s.omega * (s.omega * s.omega) * Real.exp (6 * g) from
          mul_nonneg (mul_nonneg ho ho) (Real.exp_pos _).le)
      refine this.trans ?_
      calc s.omega * s.omega * (s.omega * s.omega) * Real.exp (6 * g) *
            (Real.exp (4 * (s.gamma * s.gamma * s.delta)) * (expInt (s.gamma * s.gamma) s.delta ^ 2 / 2))
          = Real.exp (4 * (g + s.gamma * s.gamma * s.delta)) * (a ^ 2 / 2) := by
            rw [ha, show 6 * g = g + g + 4 * g by ring, Real.exp_add, Real.exp_add, mul_add 4,
              Real.exp_add]; ring
        _ ≤ A * (a ^ 2 / 2) := mul_le_mul_of_nonneg_right hgA (by positivity)
    have ih := lhs_le rest (g + s.gamma * s.gamma * s.delta)
      (h + s.omega * s.omega * Real.exp (5 * g) * expInt (5 * (s.gamma * s.gamma)) s.delta) (i0 + a) A
      (fun x hx => hp x (List.mem_cons_of_mem s hx)) (by simpa only [segVar, ← add_assoc] using hA)
      (by linarith) (by rw [mul_add]; linarith)
    simp only [lhsX, iX]
    rw [← ha]
    have e : s.omega * s.omega * Real.exp g * h * expInt (s.gamma * s.gamma) s.delta = h * a := by
      rw [ha]; ring
    rw [e]
    have := mul_le_mul_of_nonneg_right hh ha0
    nlinarith

/-! ## The right-hand side -/

/-- The polynomial of the right-hand side in `e^x`. -/
def quart (u : ℝ) : ℝ := u ^ 4 + 2 * u ^ 3 + 3 * u ^ 2 + 4 * u + 5

theorem quart_pos {u : ℝ} (h : 0 < u) : 0 < quart u := by unfold quart; positivity

theorem quart_mono {u v : ℝ} (h : 0 ≤ u) (huv : u ≤ v) : quart u ≤ quart v := by
  unfold quart; gcongr

/-- Growing by a factor `k` at least scales the polynomial by `k`. -/
theorem quart_scale {u k : ℝ} (hu : 1 ≤ u) (hk : 1 ≤ k) : k * quart u ≤ quart (k * u) := by
  unfold quart
  have h2 : k ≤ k ^ 2 := le_self_pow₀ hk (by norm_num)
  have h3 : k ^ 2 ≤ k ^ 3 := pow_le_pow_right₀ hk (by norm_num)
  have h4 : k ^ 3 ≤ k ^ 4 := pow_le_pow_right₀ hk (by norm_num)
  have u2 : 1 ≤ u ^ 2 := one_le_pow₀ hu
  have u3 : 1 ≤ u ^ 3 := one_le_pow₀ hu
  have u4 : 1 ≤ u ^ 4 := one_le_pow₀ hu
  have e : (k * u) ^ 4 + 2 * (k * u) ^ 3 + 3 * (k * u) ^ 2 + 4 * (k * u) + 5 -
      k * (u ^ 4 + 2 * u ^ 3 + 3 * u ^ 2 + 4 * u + 5) =
      (k ^ 4 - k) * u ^ 4 + 2 * (k ^ 3 - k) * u ^ 3 + 3 * (k ^ 2 - k) * u ^ 2 + 5 * (1 - k) := by ring
  have f4 := mul_le_mul_of_nonneg_left u4 (show 0 ≤ k ^ 4 - k by linarith)
  have f3 := mul_le_mul_of_nonneg_left u3 (show 0 ≤ k ^ 3 - k by linarith)
  have f2 := mul_le_mul_of_nonneg_left u2 (show 0 ≤ k ^ 2 - k by linarith)
  have k2 : 2 * k - 1 ≤ k ^ 2 := by nlinarith [sq_nonneg (k - 1)]
  nlinarith

/-- Exact right-hand side as a function of `x = γ̃²T`. -/
noncomputable def rhsX (i x : ℝ) : ℝ := i ^ 2 / 30 * quart (Real.exp x)

theorem matches_iff {i m x : ℝ} : MatchesMoments i m x ↔ 0 ≤ x ∧ m = rhsX i x := by
  unfold MatchesMoments rhsX quart
  constructor
  · rintro (⟨h, hm⟩ | ⟨h, hm⟩)
    · refine ⟨h.le, ?_⟩
      have hne : Real.exp x - 1 ≠ 0 := by
        have := Real.add_one_lt_exp h.ne'
        linarith
      rw [hm, show Real.exp (6 * x) = Real.exp x ^ 6 by rw [← Real.exp_nat_mul]; norm_num]
      field_simp
      ring
    · refine ⟨h.ge, ?_⟩
      rw [hm, h, Real.exp_zero]; ring
  · rintro ⟨h, hm⟩
    rcases eq_or_lt_of_le h with h | h
    · right
      refine ⟨h.symm, ?_⟩
      rw [hm, ← h, Real.exp_zero]; ring
    · left
      refine ⟨h, ?_⟩
      have hne : Real.exp x - 1 ≠ 0 := by
        have := Real.add_one_lt_exp h.ne'
        linarith
      rw [hm, show Real.exp (6 * x) = Real.exp x ^ 6 by rw [← Real.exp_nat_mul]; norm_num]
      field_simp
      ring

theorem rhsAt_bounds {g T i : ℝ} (hg : 0 ≤ g) (hT : 0 ≤ T) :
    rhsAt g T i ≤ rhsX i (g * T) ∧ (1 - 1 / 10 ^ 11) * rhsX i (g * T) ≤ rhsAt g T i := by
  have hx0 : 0 ≤ g * T := mul_nonneg hg hT
  unfold rhsAt
  dsimp only
  set x := g * T with hx
  have hR0 : 0 ≤ rhsX i x := by
    unfold rhsX; have := quart_pos (Real.exp_pos x); positivity
  have hu1 : 1 ≤ Real.exp x := Real.one_le_exp hx0
  split_ifs with h1 h2
  · rw [abs_of_nonneg (by linarith)] at h1
    have hsmall : Real.exp x ≤ 1 + 1 / 10 ^ 15 := by
      have : (1 : ℝ) / 10 ^ 300 ≤ 1 / 10 ^ 15 := by
        apply one_div_le_one_div_of_le (by positivity)
        exact pow_le_pow_right₀ (by norm_num) (by norm_num)
      linarith
    have hq1 : 15 ≤ quart (Real.exp x) := by
      have := quart_mono (by norm_num) hu1
      norm_num [quart] at this ⊢
      linarith
    have hq2 : quart (Real.exp x) ≤ 15 * (1 + 1 / 10 ^ 12) := by
      refine (quart_mono (by linarith) hsmall).trans ?_
      norm_num [quart]
    unfold rhsX
    have hi := sq_nonneg i
    constructor
    · nlinarith
    · norm_num at hq2 ⊢
      nlinarith
  · -- Taylor
    rw [abs_of_nonneg hx0] at h2
    have hden : 0 < Real.exp x - 1 := by
      by_contra hc
      have : Real.exp x - 1 = 0 := by linarith
      rw [this] at h1
      exact h1 (by simp)
    have hxp : 0 < x := by
      rcases eq_or_lt_of_le hx0 with h | h
      · rw [← h] at hden; simp at hden
      · exact h
    have e : rhsX i x = i * i / (5 * (Real.exp x - 1) * (Real.exp x - 1)) * innerX x := by
      rw [innerX_factor]; unfold rhsX quart; field_simp; ring
    rw [e]
    obtain ⟨b1, b2⟩ := innerX_bounds hx0 h2.le
    have hk : 0 ≤ i * i / (5 * (Real.exp x - 1) * (Real.exp x - 1)) := by
      have := mul_self_nonneg i
      positivity
    constructor
    · apply mul_le_mul_of_nonneg_left _ hk
      norm_num at b1 ⊢; nlinarith
    · rw [mul_left_comm]
      apply mul_le_mul_of_nonneg_left _ hk
      have h6 : x ^ 6 ≤ x ^ 2 * (1 / 10 ^ 3) ^ 4 := by
        have : x ^ 4 ≤ (1 / 10 ^ 3) ^ 4 := pow_le_pow_left₀ hx0 h2.le 4
        calc x ^ 6 = x ^ 2 * x ^ 4 := by ring
          _ ≤ _ := mul_le_mul_of_nonneg_left this (by positivity)
      have p2 : 0 ≤ x ^ 2 := by positivity
      have p3 : 0 ≤ x ^ 3 := by positivity
      have p4 : 0 ≤ x ^ 4 := by positivity
      have p5 : 0 ≤ x ^ 5 := by positivity
      norm_num at h6 b2 ⊢
      nlinarith
  · have hden : 0 < Real.exp x - 1 := by
      by_contra hc
      have : Real.exp x - 1 = 0 := by linarith
      rw [this] at h1
      exact h1 (by simp)
    have e : rhsX i x = i * i / (5 * (Real.exp x - 1) * (Real.exp x - 1)) * innerX x := by
      rw [innerX_factor]; unfold rhsX quart; field_simp; ring
    rw [← innerX, ← e]
    constructor
    · exact le_rfl
    · norm_num; linarith

theorem rhsX_zero (i : ℝ) : rhsX i 0 = i ^ 2 / 2 := by
  unfold rhsX quart; rw [Real.exp_zero]; ring

theorem rhsX_scale {i x y : ℝ} (hx : 0 ≤ x) (hy : 0 ≤ y) :
    (1 + y) * rhsX i x ≤ rhsX i (x + y) := by
  unfold rhsX
  rw [add_comm x y, Real.exp_add]
  have h1 := quart_scale (Real.one_le_exp hx) (Real.one_le_exp hy)
  have h2 : (1 + y) * quart (Real.exp x) ≤ Real.exp y * quart (Real.exp x) :=
    mul_le_mul_of_nonneg_right (by linarith [Real.add_one_le_exp y]) (quart_pos (Real.exp_pos x)).le
  have := mul_le_mul_of_nonneg_left (h2.trans h1) (show 0 ≤ i ^ 2 / 30 by positivity)
  linarith

/-- The equation has exactly one solution above the floor. -/
theorem exists_matches {i m : ℝ} (hi : 0 < i) (hm : i ^ 2 / 2 ≤ m) : ∃ x, 0 ≤ x ∧ m = rhsX i x := by
  have hc : ContinuousOn (fun x => rhsX i x) (Icc 0 (2 * m / i ^ 2)) := by
    unfold rhsX quart; fun_prop
  have hb : 0 ≤ 2 * m / i ^ 2 := by
    have : 0 ≤ m := le_trans (by positivity) hm
    positivity
  obtain ⟨x, hx, hx2⟩ := intermediate_value_Icc hb hc (show m ∈ Icc _ _ from ⟨by
    show rhsX i 0 ≤ m
    rw [rhsX_zero]; exact hm, by
    have := rhsX_scale (i := i) le_rfl hb
    rw [rhsX_zero, zero_add] at this
    refine le_trans ?_ this
    have : 2 * m / i ^ 2 * (i ^ 2 / 2) = m := by field_simp
    nlinarith [sq_nonneg i]⟩)
  exact ⟨x, hx.1, hx2.symm⟩

theorem rhsX_inj {i x y : ℝ} (hi : 0 < i) (hx : 0 ≤ x) (hy : 0 ≤ y) (h : rhsX i x = rhsX i y) : x = y := by
  have key : ∀ a b, 0 ≤ a → a < b → rhsX i a < rhsX i b := by
    intro a b ha hab
    have := rhsX_scale (i := i) ha (show 0 ≤ b - a by linarith)
    rw [show a + (b - a) = b by ring] at this
    have hp : 0 < rhsX i a := by unfold rhsX; have := quart_pos (Real.exp_pos a); positivity
    nlinarith
  rcases lt_trichotomy x y with h' | h' | h'
  · exact absurd h (key x y hx h').ne
  · exact h'
  · exact absurd h (key y x hy h').ne'

/-! ## Bracket and bisection -/

theorem widen_bounds (f : ℝ → ℝ) : ∀ (n : ℕ) (hi : ℝ), 0 < hi →
    hi ≤ widen f n hi ∧ widen f n hi ≤ 2 ^ n * hi ∧ (0 ≤ f (widen f n hi) ∨ widen f n hi = 2 ^ n * hi)
  | 0, hi, h => by simp [widen]
  | n + 1, hi, h => by
    rw [widen]
    split_ifs with hf
    · obtain ⟨a, b, c⟩ := widen_bounds f n (hi * 2) (by linarith)
      refine ⟨by linarith, by rw [pow_succ]; linarith, ?_⟩
      rcases c with c | c
      · exact Or.inl c
      · right; rw [c, pow_succ]; ring
    · refine ⟨le_rfl, ?_, Or.inl (not_lt.1 hf)⟩
      have : (1 : ℝ) ≤ 2 ^ (n + 1) := one_le_pow₀ (by norm_num)
      nlinarith

theorem bisect_bounds (f : ℝ → ℝ) : ∀ (n : ℕ) (lo hi : ℝ), lo ≤ hi → f lo ≤ 0 → 0 ≤ f hi →
    lo ≤ (bisectLoop f n lo hi).1 ∧ (bisectLoop f n lo hi).1 ≤ (bisectLoop f n lo hi).2 ∧
    (bisectLoop f n lo hi).2 ≤ hi ∧
    f (bisectLoop f n lo hi).1 ≤ 0 ∧ 0 ≤ f (bisectLoop f n lo hi).2 ∧
    ((bisectLoop f n lo hi).2 - (bisectLoop f n lo hi).1 ≤ 1 / 10 ^ 14 ∨
      (bisectLoop f n lo hi).2 - (bisectLoop f n lo hi).1 = (hi - lo) / 2 ^ n)
  | 0, lo, hi, h, h1, h2 => by simp [bisectLoop, h, h1, h2]
  | n + 1, lo, hi, h, h1, h2 => by
    have key : ∀ p : ℝ × ℝ, lo ≤ p.1 → p.1 ≤ p.2 → p.2 ≤ hi → f p.1 ≤ 0 → 0 ≤ f p.2 →
        p.2 - p.1 = (hi - lo) / 2 → (if p.2 - p.1 < 1 / 10 ^ 14 then p else bisectLoop f n p.1 p.2) =
        bisectLoop f (n + 1) lo hi →
        lo ≤ (bisectLoop f (n + 1) lo hi).1 ∧
        (bisectLoop f (n + 1) lo hi).1 ≤ (bisectLoop f (n + 1) lo hi).2 ∧
        (bisectLoop f (n + 1) lo hi).2 ≤ hi ∧
        f (bisectLoop f (n + 1) lo hi).1 ≤ 0 ∧ 0 ≤ f (bisectLoop f (n + 1) lo hi).2 ∧
        ((bisectLoop f (n + 1) lo hi).2 - (bisectLoop f (n + 1) lo hi).1 ≤ 1 / 10 ^ 14 ∨
        (bisectLoop f (n + 1) lo hi).2 - (bisectLoop f (n + 1) lo hi).1 = (hi - lo) / 2 ^ (n + 1)) := by
      intro p a b c d e w he
      rw [← he]
      split_ifs with hs
      · exact ⟨a, b, c, d, e, Or.inl hs.le⟩
      · obtain ⟨q1, q2, q3, q4, q5, q6⟩ := bisect_bounds f n p.1 p.2 b d e
        refine ⟨a.trans q1, q2, q3.trans c, q4, q5, ?_⟩
        rcases q6 with q6 | q6
        · exact Or.inl q6
        · right; rw [q6, w, pow_succ]; field_simp
    by_cases hm : 0 < f (0.5 * (lo + hi))
    · refine key (lo, 0.5 * (lo + hi)) le_rfl ?_ ?_ h1 hm.le ?_ ?_
      · norm_num; linarith
      · norm_num; linarith
      · norm_num; linarith
      · rw [bisectLoop]; simp only [if_pos hm]
    · refine key (0.5 * (lo + hi), hi) ?_ ?_ le_rfl (not_lt.1 hm) h2 ?_ ?_
      · norm_num; linarith
      · norm_num; linarith
      · norm_num; linarith
      · rw [bisectLoop]; simp only [if_neg hm]

/-- Accuracy of `volVolOf` for perturbed moments. -/
theorem volVolOf_accuracy {T i l I M x g : ℝ} (hT : 0 < T) (hI : 0 < I) (hi1 : i ≤ I)
    (hi2 : (1 - 1 / 10 ^ 12) * I ≤ i) (hl1 : l ≤ M) (hl2 : (1 - 1 / 10 ^ 11) * M ≤ l)
    (hx : 0 ≤ x) (hM : M = rhsX I x) (h : volVolOf T i l = .ok g) :
    0 ≤ g ∧ |g ^ 2 * T - x| ≤ 1 / 10 ^ 10 + T / 2 ^ 39 := by
  have hi0 : 0 < i := lt_of_lt_of_le (by norm_num; linarith) hi2
  have hMp : 0 < M := by
    rw [hM]; unfold rhsX; have := quart_pos (Real.exp_pos x); positivity
  have hII : i ^ 2 ≤ I ^ 2 := pow_le_pow_left₀ hi0.le hi1 2
  have hscale : ∀ y, rhsX i y ≤ rhsX I y := by
    intro y
    unfold rhsX
    have := quart_pos (Real.exp_pos y)
    have := mul_le_mul_of_nonneg_right hII this.le
    linarith
  have hscale2 : ∀ y, (1 - 2 / 10 ^ 12) * rhsX I y ≤ rhsX i y := by
    intro y
    unfold rhsX
    have hq := quart_pos (Real.exp_pos y)
    have h2 : (1 - 2 / 10 ^ 12) * I ^ 2 ≤ i ^ 2 := by
      have := pow_le_pow_left₀ (by norm_num; linarith) hi2 2
      refine le_trans ?_ this
      norm_num
      nlinarith
    have := mul_le_mul_of_nonneg_right h2 hq.le
    linarith
  unfold volVolOf at h
  dsimp only at h
  split_ifs at h with h1 h2
  · cases h
    refine ⟨le_rfl, ?_⟩
    have hs := rhsX_scale (i := I) le_rfl hx
    rw [rhsX_zero, zero_add, ← hM] at hs
    have : x ≤ 1 / 10 ^ 10 := by
      norm_num at h1 hl2 ⊢
      have hI2 : 0 < I ^ 2 := by positivity
      by_contra hc
      push Not at hc
      nlinarith
    rw [abs_of_nonpos (by nlinarith)]
    have : 0 ≤ T / 2 ^ 39 := by positivity
    simp; norm_num at *; linarith
  · cases h
    obtain ⟨w1, w2, -⟩ := widen_bounds (fun g => rhsAt g T i - l) 20 4 (by norm_num)
    obtain ⟨q1, q2, q3, q4, q5, q6⟩ := bisect_bounds (fun g => rhsAt g T i - l) 60 0
      (widen (fun g => rhsAt g T i - l) 20 4) (by linarith) (by
        have := (rhsAt_bounds (i := i) (le_refl (0 : ℝ)) hT.le).1
        rw [zero_mul, rhsX_zero] at this
        norm_num at h1 ⊢
        nlinarith [sq_nonneg i]) h2
    set p := bisectLoop (fun g => rhsAt g T i - l) 60 0 (widen (fun g => rhsAt g T i - l) 20 4) with hp
    have hw : p.2 - p.1 ≤ 1 / 2 ^ 38 := by
      rcases q6 with q | q
      · refine q.trans (by norm_num)
      · rw [q]; norm_num at w2 ⊢; linarith
    refine ⟨Real.sqrt_nonneg _, ?_⟩
    rw [Real.sq_sqrt (by norm_num; linarith)]
    have r1 := (rhsAt_bounds (i := i) q1 hT.le).2
    have r2 := (rhsAt_bounds (i := i) (q1.trans q2) hT.le).1
    beta_reduce at q4 q5
    -- lower end
    have lowEnd : p.1 * T ≤ x + 1 / 10 ^ 10 := by
      by_contra hc
      push Not at hc
      have hs := rhsX_scale (i := I) hx (show 0 ≤ p.1 * T - x by
        have : (0 : ℝ) ≤ 1 / 10 ^ 10 := by norm_num
        linarith)
      rw [show x + (p.1 * T - x) = p.1 * T by ring, ← hM] at hs
      have := hscale2 (p.1 * T)
      norm_num at *
      nlinarith
    have highEnd : x ≤ p.2 * T + 1 / 10 ^ 10 := by
      by_contra hc
      push Not at hc
      have hp2 : 0 ≤ p.2 * T := mul_nonneg (q1.trans q2) hT.le
      have hs := rhsX_scale (i := I) hp2 (show 0 ≤ x - p.2 * T by
        have : (0 : ℝ) ≤ 1 / 10 ^ 10 := by norm_num
        linarith)
      rw [show p.2 * T + (x - p.2 * T) = x by ring, ← hM] at hs
      have := hscale (p.2 * T)
      norm_num at *
      nlinarith
    have hwT := mul_le_mul_of_nonneg_right hw hT.le
    rw [abs_le]
    norm_num at *
    constructor <;> nlinarith

/-- `volVolOf` succeeds when the bracket can be widened far enough. -/
theorem volVolOf_ok {T i l I A V : ℝ} (hT : 0 < T) (hI : 0 < I) (hi2 : (1 - 1 / 10 ^ 12) * I ≤ i)
    (hA : A = Real.exp (4 * V)) (hV0 : 0 ≤ V) (hl : l ≤ A * (I ^ 2 / 2)) (hV : V + 1 ≤ 2 ^ 22 * T) :
    ∃ g, volVolOf T i l = .ok g := by
  unfold volVolOf
  dsimp only
  by_cases h1 : l ≤ 0.5 * i * i * (1 + 1 / 10 ^ 12)
  · exact ⟨0, if_pos h1⟩
  · rw [if_neg h1]
    have h2 : 0 ≤ (fun g => rhsAt g T i - l) (widen (fun g => rhsAt g T i - l) 20 4) := by
      obtain ⟨w1, w2, w3⟩ := widen_bounds (fun g => rhsAt g T i - l) 20 4 (by norm_num)
      rcases w3 with w3 | w3
      · exact w3
      · rw [w3]
        have hb := (rhsAt_bounds (i := i) (show (0 : ℝ) ≤ 2 ^ 20 * 4 by norm_num) hT.le).2
        have hq : 54 * A ≤ quart (Real.exp (2 ^ 20 * 4 * T)) := by
          have hm : Real.exp (V + 1) ≤ Real.exp (2 ^ 20 * 4 * T) := Real.exp_le_exp.2 (by linarith)
          refine le_trans ?_ (quart_mono (Real.exp_pos _).le hm)
          have hp := Real.exp_pos (V + 1)
          have : Real.exp (V + 1) ^ 4 = A * Real.exp 1 ^ 4 := by
            rw [hA, ← Real.exp_nat_mul, ← Real.exp_nat_mul, ← Real.exp_add]; congr 1; push_cast; ring
          have he : 54 ≤ Real.exp 1 ^ 4 := by
            have := pow_le_pow_left₀ (show (0:ℝ) ≤ 2.7182818283 by norm_num) (le_of_lt Real.exp_one_gt_d9) 4
            refine le_trans (by norm_num) this
          have hA0 : 0 < A := by rw [hA]; exact Real.exp_pos _
          unfold quart
          rw [this]
          nlinarith [pow_pos hp 2, pow_pos hp 3]
        have hi : (1 - 2 / 10 ^ 12) * I ^ 2 ≤ i ^ 2 := by
          have := pow_le_pow_left₀ (by norm_num; linarith) hi2 2
          refine le_trans ?_ this
          norm_num; nlinarith
        have hA0 : 0 < A := by rw [hA]; exact Real.exp_pos _
        have hf : 0.9 * I ^ 2 * (54 * A) ≤ i ^ 2 * quart (Real.exp (2 ^ 20 * 4 * T)) := by
          apply mul_le_mul _ hq (by positivity) (by positivity)
          norm_num at hi ⊢
          nlinarith [sq_nonneg I]
        unfold rhsX at hb
        show 0 ≤ rhsAt (2 ^ 20 * 4) T i - l
        have hAI : 0 < A * I ^ 2 := by positivity
        norm_num at hb hf hl ⊢
        nlinarith
    rw [if_pos h2]
    exact ⟨_, rfl⟩

end Verif
