import Verif.Lemmas.Options
import Mathlib.Topology.Order.IntermediateValue

/-!
# The bisection for the implied volatility
-/

namespace Verif

open Set

/-- With a continuous pricer that is not above the target (up to `tol`) at the left end
and not below it at the right end, the bisection returns a point of the interval which
either prices within `tol`, or is within half the final width of one that does. -/
theorem bisectVol_spec {p : ℝ → ℝ} {target tol : ℝ} (htol : 0 ≤ tol) (n : Nat) :
    ∀ lo hi : ℝ, lo ≤ hi → ContinuousOn p (Icc lo hi) → p lo ≤ target + tol →
      target - tol ≤ p hi → (hi - lo) / 2 ^ n < 1 / 10 ^ 12 →
      lo ≤ bisectVol p target tol n lo hi ∧ bisectVol p target tol n lo hi ≤ hi ∧
      (|p (bisectVol p target tol n lo hi) - target| < tol ∨
        ∃ x, lo ≤ x ∧ x ≤ hi ∧ |p x - target| ≤ tol ∧
          |bisectVol p target tol n lo hi - x| < 1 / 10 ^ 12) := by
  have exact : ∀ lo hi : ℝ, lo ≤ hi → ContinuousOn p (Icc lo hi) → p lo ≤ target + tol →
      target - tol ≤ p hi → hi - lo < 1 / 10 ^ 12 →
      ∃ x, lo ≤ x ∧ x ≤ hi ∧ |p x - target| ≤ tol ∧ |1 / 2 * (lo + hi) - x| < 1 / 10 ^ 12 := by
    intro lo hi hle hc h1 h2 hw
    have close : ∀ x, lo ≤ x → x ≤ hi → |1 / 2 * (lo + hi) - x| < 1 / 10 ^ 12 := by
      intro x hx1 hx2
      refine lt_of_le_of_lt ?_ hw
      rw [abs_le]; constructor <;> linarith
    by_cases h : target - tol ≤ p lo
    · exact ⟨lo, le_rfl, hle, abs_le.2 ⟨by linarith, by linarith⟩, close lo le_rfl hle⟩
    · obtain ⟨x, hx, hpx⟩ := intermediate_value_Icc hle hc ⟨(not_le.1 h).le, h2⟩
      refine ⟨x, hx.1, hx.2, ?_, close x hx.1 hx.2⟩
      rw [hpx, abs_le]; constructor <;> linarith
  induction n with
  | zero =>
    intro lo hi hle hc h1 h2 hw
    rw [bisectVol]
    refine ⟨by linarith, by linarith, .inr (exact lo hi hle hc h1 h2 (by simpa using hw))⟩
  | succ n ih =>
    intro lo hi hle hc h1 h2 hw
    rw [bisectVol]
    dsimp only
    split
    · rename_i hlt
      exact ⟨by linarith, by linarith, .inr (exact lo hi hle hc h1 h2 hlt)⟩
    split
    · rename_i hlt
      exact ⟨by linarith, by linarith, .inl hlt⟩
    have hhalf : ∀ w : ℝ, w = (hi - lo) / 2 → w / 2 ^ n < 1 / 10 ^ 12 := by
      rintro w rfl
      rw [div_div, ← pow_succ']; exact hw
    split
    · rename_i hp
      obtain ⟨a, b, c⟩ := ih (1 / 2 * (lo + hi)) hi (by linarith)
        (hc.mono (Icc_subset_Icc (by linarith) le_rfl)) (by linarith) h2 (hhalf _ (by ring))
      refine ⟨by linarith, b, ?_⟩
      rcases c with c | ⟨x, x1, x2, c⟩
      · exact .inl c
      · exact .inr ⟨x, by linarith, x2, c⟩
    · rename_i hp
      obtain ⟨a, b, c⟩ := ih lo (1 / 2 * (lo + hi)) (by linarith)
        (hc.mono (Icc_subset_Icc le_rfl (by linarith))) h1 (by linarith [not_lt.1 hp])
        (hhalf _ (by ring))
      refine ⟨a, by linarith, ?_⟩
      rcases c with c | ⟨x, x1, x2, c⟩
      · exact .inl c
      · exact .inr ⟨x, x1, by linarith, c⟩

variable {F K t D sg : ℝ}

theorem bsCall_core (hs : 0 < sg) (ht : 0 < t) :
    bsCallForward F K sg t D = D * blackCore F K (sg * √t) := by
  unfold bsCallForward
  rw [if_neg (by rw [not_or]; exact ⟨not_le.2 hs, not_le.2 ht⟩)]
  have e : (Real.log (F / K) + 1 / 2 * sg * sg * t) / (sg * √t) = bd1 F K (sg * √t) := by
    unfold bd1
    rw [mul_pow, Real.sq_sqrt ht.le]
    congr 1; ring
  dsimp only
  rw [e]; rfl

theorem bsPut_core (hF : 0 < F) (hK : 0 < K) (hs : 0 < sg) (ht : 0 < t) :
    bsPutForward F K sg t D = D * blackCore K F (sg * √t) := by
  unfold bsPutForward
  rw [if_neg (by rw [not_or]; exact ⟨not_le.2 hs, not_le.2 ht⟩)]
  have e : (Real.log (F / K) + 1 / 2 * sg * sg * t) / (sg * √t) = bd1 F K (sg * √t) := by
    unfold bd1
    rw [mul_pow, Real.sq_sqrt ht.le]
    congr 1; ring
  have hne : sg * √t ≠ 0 := by have := Real.sqrt_pos.2 ht; positivity
  dsimp only
  rw [e]
  unfold blackCore
  rw [black_swap_d1 hF hK hne, black_swap_d2 hF hK hne]; rfl

theorem continuousOn_core (hF : 0 < F) (hK : 0 < K) (ht : 0 < t) {lo hi : ℝ} (hlo : 0 < lo) :
    ContinuousOn (fun sg => D * blackCore F K (sg * √t)) (Icc lo hi) := by
  intro sg hsg
  have hs : 0 < sg := lt_of_lt_of_le hlo hsg.1
  have hne : sg * √t ≠ 0 := by have := Real.sqrt_pos.2 ht; positivity
  have h1 := (hasDerivAt_blackCore_s hF hK hne).continuousAt
  have h2 : ContinuousAt (fun sg : ℝ => sg * √t) sg := by fun_prop
  exact ((ContinuousAt.comp (f := fun sg : ℝ => sg * √t) h1 h2).const_smul D).continuousWithinAt

theorem continuousOn_bsCall (hF : 0 < F) (hK : 0 < K) {lo hi : ℝ} (hlo : 0 < lo) :
    ContinuousOn (fun sg => bsCallForward F K sg t D) (Icc lo hi) := by
  rcases lt_or_ge 0 t with ht | ht
  · exact (continuousOn_core hF hK ht hlo).congr fun sg hsg =>
      bsCall_core (lt_of_lt_of_le hlo hsg.1) ht
  · refine (continuousOn_const (c := D * max (F - K) 0)).congr fun sg _ => ?_
    unfold bsCallForward; rw [if_pos (.inr ht)]

theorem continuousOn_bsPut (hF : 0 < F) (hK : 0 < K) {lo hi : ℝ} (hlo : 0 < lo) :
    ContinuousOn (fun sg => bsPutForward F K sg t D) (Icc lo hi) := by
  rcases lt_or_ge 0 t with ht | ht
  · exact (continuousOn_core hK hF ht hlo).congr fun sg hsg =>
      bsPut_core hF hK (lt_of_lt_of_le hlo hsg.1) ht
  · refine (continuousOn_const (c := D * max (K - F) 0)).congr fun sg _ => ?_
    unfold bsPutForward; rw [if_pos (.inr ht)]

/-- The price for volatility `sg` that the solver inverts. -/
noncomputable def blackPrice (isCall : Bool) (F K sg t D : ℝ) : ℝ :=
  if isCall then bsCallForward F K sg t D else bsPutForward F K sg t D

theorem impliedVol_eq (target F K t D : ℝ) (isCall : Bool) (tol : ℝ) :
    bsImpliedVolTol target F K t D isCall tol =
      if target < blackPrice isCall F K (1 / 10 ^ 8) t D - tol ∨
        target > blackPrice isCall F K 5 t D + tol then none
      else some (bisectVol (fun sg => blackPrice isCall F K sg t D) target tol 200
        (1 / 10 ^ 8) 5) := rfl

theorem continuousOn_blackPrice (isCall : Bool) (hF : 0 < F) (hK : 0 < K) {lo hi : ℝ}
    (hlo : 0 < lo) : ContinuousOn (fun sg => blackPrice isCall F K sg t D) (Icc lo hi) := by
  cases isCall
  · exact continuousOn_bsPut hF hK hlo
  · exact continuousOn_bsCall hF hK hlo

end Verif
