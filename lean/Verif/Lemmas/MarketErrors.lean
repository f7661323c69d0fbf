import Verif.Spec.MarketErrors
import Verif.Props.Sensitivity
import Verif.Props.FxTrade
import Verif.Lemmas.SwapSensitivity
import Verif.Lemmas.Inverse

/-!
# Lemmas for C102
-/

namespace Verif

open Classical Outcome

theorem converter_pos (p : Pair) : (0 : ℝ) < ((p.converter : Int) : ℝ) := by
  have : 0 < p.converter := by cases p <;> decide
  exact_mod_cast this

/-- The domestic discount factors. -/
theorem marketDiscount_near {σ π ε D : ℝ} {p : Pair} {m m' : FxMarket} {e : Int} (hm : MarketNear σ π ε p m m')
    (h : m.domestic.discount e = .ok D) : ∃ D', m'.domestic.discount e = .ok D' ∧ 0 < D ∧ 0 < D' ∧
      D' ≤ D * Real.exp (ε * |yf365 m.domestic.valuation e|) ∧
      |D' - D| ≤ (Real.exp (ε * |yf365 m.domestic.valuation e|) - 1) * D := by
  obtain ⟨val, spot, ⟨cv, ps⟩, fw⟩ := m
  obtain ⟨val', spot', ⟨cv', ps'⟩, fw'⟩ := m'
  obtain ⟨-, -, -, -, hcd, hcv, ho⟩ := hm
  dsimp only at *
  subst hcd
  obtain ⟨D', h', hl⟩ := discount_near hcv ho h
  have p1 := C36_discount_pos h
  have p2 := C36_discount_pos h'
  obtain ⟨-, -, -, hu⟩ := C98_discount hcv ho h
  obtain ⟨x', hx', -, hu⟩ := C98_discount hcv ho h
  rw [h'] at hx'
  obtain rfl := ok.inj hx'
  exact ⟨D', h', p1, p2, hu, near_of_log p1 p2 hl⟩

/-- The Black price off by errors of forward, volatility and discount factor. -/
theorem blackUnit_near {F F' K D D' E w ν s s' T : ℝ} (hF : 0 < F) (hF' : 0 < F') (hK : 0 < K)
    (p : 0 < D) (p' : 0 < D') (bF : |F' - F| ≤ w) (bD : D' ≤ D * E) (bD2 : |D' - D| ≤ (E - 1) * D)
    (bs : |s' - s| ≤ ν) (ot : OptionType) :
    |blackScholes F' K (s' * s' * T) D' ot - blackScholes F K (s * s * T) D ot| ≤
      D * E * (w + min F K * (ν * √T / √(2 * Real.pi))) + (E - 1) * |blackScholes F K (s * s * T) D ot| := by
  have e : ∀ F V c, blackScholes F K V c ot = c * blackScholes F K V 1 ot := fun F V c => by
    rw [← blackScholes_discount, mul_one]
  have root : |√(s' * s' * T) - √(s * s * T)| ≤ ν * √T := by
    rw [Real.sqrt_mul (mul_self_nonneg _), Real.sqrt_mul (mul_self_nonneg _), Real.sqrt_mul_self_eq_abs,
      Real.sqrt_mul_self_eq_abs, ← sub_mul, abs_mul, abs_of_nonneg (Real.sqrt_nonneg T)]
    exact mul_le_mul_of_nonneg_right ((abs_abs_sub_abs_le _ _).trans bs) (Real.sqrt_nonneg _)
  have lip := C98_black hF hF' hK hK (D := 1) zero_le_one (s * s * T) (s' * s' * T) ot
  rw [sub_self, abs_zero, add_zero, one_mul] at lip
  have lip2 : |blackScholes F' K (s' * s' * T) 1 ot - blackScholes F K (s * s * T) 1 ot| ≤
      w + min F K * (ν * √T / √(2 * Real.pi)) := by
    refine lip.trans (add_le_add bF (mul_le_mul_of_nonneg_left (div_le_div_of_nonneg_right root (by positivity)) ?_))
    exact (lt_min hF hK).le
  rw [e F' (s' * s' * T) D', e F (s * s * T) D]
  generalize blackScholes F' K (s' * s' * T) 1 ot = b' at *
  generalize blackScholes F K (s * s * T) 1 ot = b at *
  rw [show D' * b' - D * b = D' * (b' - b) + (D' - D) * b by ring]
  refine (abs_add_le _ _).trans ?_
  rw [abs_mul, abs_mul, abs_of_pos p', abs_mul D b, abs_of_pos p]
  have k1 : D' * |b' - b| ≤ D * E * (w + min F K * (ν * √T / √(2 * Real.pi))) :=
    mul_le_mul bD lip2 (abs_nonneg _) (p'.le.trans bD)
  have k2 := mul_le_mul_of_nonneg_right bD2 (abs_nonneg b)
  linarith

end Verif
