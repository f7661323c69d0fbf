import Verif.Lemmas.TdSabrMono
import Verif.Lemmas.TdSabrFit

/-!
# The time-dependent SABR calibrator (C74)

A pillar is an expiry with its market-effective parameters `(α̃, ρ̃, ν̃)`; the knots are zero and the
expiries.  Effective parameters are those of C60.
-/

namespace Verif

open Outcome

/-! ## Stage 2: the vol-vol -/

/-- **C74.** The exact effective vol-vol is a nondecreasing function of the last value of the vol-vol
schedule, for every earlier schedule and every term structure. -/
theorem C74_vol_vol_monotone {γ γ' ω : ℝ → ℝ} {ks gs os : List ℝ} {a b T x y : ℝ}
    (hg : IsSchedule ks (gs ++ [a]) γ) (hg' : IsSchedule ks (gs ++ [b]) γ') (ho : IsSchedule ks os ω)
    (hT : ks.getLast? = some T) (ha : 0 ≤ a) (hab : a ≤ b) (hm : 0 < moment1 γ ω T)
    (hx : MatchesMoments (moment1 γ ω T) (moment2 γ ω T) x)
    (hy : MatchesMoments (moment1 γ' ω T) (moment2 γ' ω T) y) : x ≤ y := by
  have hl := hg.2.2.1
  have hlo := ho.2.2.1
  have hE : EndsAt ks T := ⟨by simp at hl; omega, hg.1, hg.2.1, hT⟩
  obtain ⟨-, s1, s2⟩ := hE.segs hg ho
  obtain ⟨-, t1, t2⟩ := hE.segs hg' ho
  simp only [List.length_append, List.length_cons, List.length_nil] at hl
  obtain ⟨l, k, rfl⟩ : ∃ l k, ks = l ++ [k, T] := by
    have hne : ks ≠ [] := by rintro rfl; simp at hl
    have hlast : ks.getLast hne = T := by
      rw [List.getLast?_eq_some_getLast hne] at hT
      simpa using hT
    have e1 := List.dropLast_append_getLast hne
    have hne2 : ks.dropLast ≠ [] := by
      intro h0
      have := congrArg List.length h0
      simp at this
      omega
    have e2 := List.dropLast_append_getLast hne2
    refine ⟨ks.dropLast.dropLast, ks.dropLast.getLast hne2, ?_⟩
    rw [show [ks.dropLast.getLast hne2, T] = [ks.dropLast.getLast hne2] ++ [T] from rfl, ← List.append_assoc, e2,
      ← hlast, e1]
  have hone : os ≠ [] := by
    rintro rfl
    simp at hlo
  obtain ⟨os', o, rfl⟩ : ∃ os' o, os = os' ++ [o] :=
    ⟨os.dropLast, os.getLast hone, (List.dropLast_append_getLast hone).symm⟩
  simp only [List.length_append, List.length_cons, List.length_nil] at hl hlo
  have hch := hg.2.1
  rw [mkSegs_snoc l gs os' k T _ o (by omega) (by omega)] at s1 s2 t1 t2
  have hpw := List.isChain_iff_pairwise.1 hch
  rw [List.pairwise_append] at hpw
  have hkT : k < T := by
    have := hpw.2.1
    simpa using this
  have hchp : (l ++ [k]).IsChain (· < ·) := by
    rw [List.isChain_iff_pairwise, List.pairwise_append]
    exact ⟨hpw.1, by simp, fun u hu v hv => hpw.2.2 u hu v (by simp at hv; simp [hv])⟩
  obtain ⟨-, hx'⟩ := matches_iff.1 hx
  obtain ⟨-, hy'⟩ := matches_iff.1 hy
  rw [← s1, ← s2] at hx'
  rw [← t1, ← t2] at hy'
  rw [← s1] at hm
  exact last_gamma_mono (mkSegs_delta _ _ _ hchp) (sub_pos.2 hkT) ha hab hm hx' hy'

/-- The hypotheses hold for vol-vol `0` then `1`, against `0` throughout. -/
example : ∃ x y, MatchesMoments (moment1 (fun _ => 0) (fun _ => 1) 2) (moment2 (fun _ => 0) (fun _ => 1) 2) x ∧
    MatchesMoments (moment1 lateGamma (fun _ => 1) 2) (moment2 lateGamma (fun _ => 1) 2) y ∧ x ≤ y := by
  obtain ⟨hg', ho, hT⟩ := late_schedules
  have hg : IsSchedule [0, 1, 2] ([0] ++ [0]) fun _ => 0 := ⟨rfl, by norm_num, rfl, by simp [StepOn]⟩
  have hE : EndsAt [0, 1, 2] 2 := ⟨by simp, rfl, by norm_num, rfl⟩
  have m1 := hE.moment1_pos hg ho (by simp)
  have m2 := hE.moment1_pos hg' ho (by simp)
  obtain ⟨x, hx0, hx⟩ := exists_matches m1 (C60_moments hg ho hT).choose_spec.2.2.2.2.2
  obtain ⟨y, hy0, hy⟩ := exists_matches m2 (C60_moments hg' ho hT).choose_spec.2.2.2.2.2
  have k1 := matches_iff.2 ⟨hx0, hx⟩
  have k2 := matches_iff.2 ⟨hy0, hy⟩
  exact ⟨x, y, k1, k2, C74_vol_vol_monotone (gs := [0]) hg hg' ho rfl le_rfl zero_le_one m1 k1 k2⟩

/-- **C74.** What stage 2 returns: one value per pillar.  Either two values `a ≤ νᵢ ≤ b` that are at
most `1e-10` apart have exact effective vol-vols on both sides of the target (up to the tolerances of
the two bisections), or `νᵢ` is the smallest admissible value `1e-6` and its effective vol-vol is
already at the target or above it. -/
theorem C74_nu {ps : List (ℝ × Sabr)} {nus : List ℝ} (h : growNu [0] [] ps = .ok nus) :
    nus.length = ps.length ∧
    ∀ (i : ℕ) (T : ℝ) (m : Sabr) (nu : ℝ), ps[i]? = some (T, m) → nus[i]? = some nu → 0 < m.alpha →
      0 ≤ m.nu → m.nu ≤ 10 ^ 7 → 1 / 10 ^ 6 ≤ nu ∧
      ((nu = 1 / 10 ^ 6 ∧ ∃ x, EffVar (0 :: (ps.map Prod.fst).take (i + 1)) (nus.take i ++ [nu])
          (List.replicate (i + 1) m.alpha) T x ∧ m.nu ^ 2 * T ≤ x + (1 / 10 ^ 10 + T / 2 ^ 39)) ∨
        ∃ a b x y, 0 < a ∧ a ≤ nu ∧ nu ≤ b ∧ b - a ≤ 1 / 10 ^ 10 ∧
          EffVar (0 :: (ps.map Prod.fst).take (i + 1)) (nus.take i ++ [a])
            (List.replicate (i + 1) m.alpha) T x ∧
          EffVar (0 :: (ps.map Prod.fst).take (i + 1)) (nus.take i ++ [b])
            (List.replicate (i + 1) m.alpha) T y ∧
          x ≤ (m.nu + 1 / 10 ^ 10) ^ 2 * T + (1 / 10 ^ 10 + T / 2 ^ 39) ∧
          (max 0 (m.nu - 1 / 10 ^ 10)) ^ 2 * T ≤ y + (1 / 10 ^ 10 + T / 2 ^ 39)) := by
  obtain ⟨new, e, hl, hs⟩ := growNu_spec ps [0] [] nus h
  rw [List.nil_append] at e
  subst e
  refine ⟨hl, fun i T m nu hp hnu ha hn0 hn1 => ?_⟩
  have hi : i < nus.length := (List.getElem?_eq_some_iff.1 hnu).1
  have hlen : (nus.take i).length = i := by rw [List.length_take]; omega
  obtain ⟨hh, hlast⟩ := knots_upto hp
  have hsol := hs i _ nu hp hnu
  rw [List.nil_append, show [(0 : ℝ)] ++ (ps.map Prod.fst).take (i + 1) = 0 :: (ps.map Prod.fst).take (i + 1)
    from rfl] at hsol
  set ks := 0 :: (ps.map Prod.fst).take (i + 1) with hks
  have hhi : (1 : ℝ) / 10 ^ 6 ≤ max (m.nu * 2) 0.1 := le_max_of_le_right (by norm_num)
  obtain ⟨r1, r2, r3⟩ := tdSolve_spec hhi hsol
  -- a value of the function
  have hval : ∀ x v, nuGap ks (nus.take i) T m x = .ok v →
      ∃ g z, v = g - m.nu ∧ 0 ≤ g ∧ EffVar ks (nus.take i ++ [x]) (List.replicate (i + 1) m.alpha) T z ∧
        |g ^ 2 * T - z| ≤ 1 / 10 ^ 10 + T / 2 ^ 39 ∧ 0 < T := by
    intro x v hv
    unfold nuGap at hv
    obtain ⟨om, ho, hv⟩ := bind_eq_ok.1 hv
    obtain ⟨sc, hsc, hv⟩ := bind_eq_ok.1 hv
    obtain ⟨g, hg, hv⟩ := bind_eq_ok.1 hv
    obtain ⟨hE, l1⟩ := EndsAt.of_new hh hlast ho
    obtain ⟨-, l2⟩ := EndsAt.of_new hh hlast hsc
    rw [(new_ok_iff.1 ho).2.2.2.2, (new_ok_iff.1 hsc).2.2.2.2, hlen] at hg
    rw [hlen] at l1
    obtain ⟨g0, z, hz, -, acc⟩ := hE.exact l2 l1 (by
      intro o ho
      rw [List.eq_of_mem_replicate ho]
      exact ha.ne') hg
    exact ⟨g, z, by cases hv; rfl, g0, hz, acc, hE.expiry.1⟩
  refine ⟨r1, ?_⟩
  rcases r3 with ⟨q1, v, q2, q3⟩ | ⟨a, b, va, vb, q1, q2, q3, q4, q5, q6, q7, q8, q9⟩
  · left
    obtain ⟨g, z, k1, k2, k3, k4, hT⟩ := hval _ _ q2
    refine ⟨q1, z, k3, ?_⟩
    have hlt : m.nu ^ 2 ≤ g ^ 2 := pow_le_pow_left₀ hn0 (by linarith) 2
    have := mul_le_mul_of_nonneg_right hlt hT.le
    linarith [(abs_le.1 k4).2]
  · right
    obtain ⟨g, z, k1, k2, k3, k4, hT⟩ := hval _ _ q5
    obtain ⟨g', z', k1', k2', k3', k4', -⟩ := hval _ _ q6
    refine ⟨a, b, z, z', lt_of_lt_of_le (by norm_num) q1, q2, q3, q9.trans (max_le le_rfl ?_), k3, k3', ?_, ?_⟩
    · have : max (m.nu * 2) 0.1 ≤ 2 * 10 ^ 7 := max_le (by linarith) (by norm_num)
      rw [div_le_div_iff₀ (by positivity) (by positivity)]
      generalize (max _ _ : ℝ) = M at this ⊢
      norm_num at this ⊢
      linarith
    · have hlt : g ^ 2 ≤ (m.nu + 1 / 10 ^ 10) ^ 2 := pow_le_pow_left₀ k2 (by linarith) 2
      have := mul_le_mul_of_nonneg_right hlt hT.le
      linarith [(abs_le.1 k4).1]
    · have hlt : (max 0 (m.nu - 1 / 10 ^ 10)) ^ 2 ≤ g' ^ 2 :=
        pow_le_pow_left₀ (le_max_left _ _) (max_le k2' (by linarith)) 2
      have := mul_le_mul_of_nonneg_right hlt hT.le
      linarith [(abs_le.1 k4').2]

/-! ## Stage 3: the term structure -/

/-- **C74.** What stage 3 returns: one value per pillar.  Either two values `a ≤ αᵢ ≤ b` that are at
most `1e-10` apart have effective term structures on both sides of the target up to `1e-10`, or `αᵢ`
is the smallest admissible value `1e-6` and its effective term structure is above the target. -/
theorem C74_alpha {ps : List (ℝ × Sabr)} {nus als : List ℝ} (h : growAlpha nus [0] [] ps = .ok als) :
    als.length = ps.length ∧
    ∀ (i : ℕ) (T : ℝ) (m : Sabr) (al : ℝ), ps[i]? = some (T, m) → als[i]? = some al → m.alpha ≤ 10 ^ 7 →
      1 / 10 ^ 6 ≤ al ∧
      ((al = 1 / 10 ^ 6 ∧ ∃ w, effectiveTermStructure ⟨0 :: (ps.map Prod.fst).take (i + 1), nus.take (i + 1)⟩
          ⟨0 :: (ps.map Prod.fst).take (i + 1), als.take i ++ [al]⟩ T = .ok w ∧ m.alpha < w) ∨
        ∃ a b wa wb, 0 < a ∧ a ≤ al ∧ al ≤ b ∧ b - a ≤ 1 / 10 ^ 10 ∧
          effectiveTermStructure ⟨0 :: (ps.map Prod.fst).take (i + 1), nus.take (i + 1)⟩
            ⟨0 :: (ps.map Prod.fst).take (i + 1), als.take i ++ [a]⟩ T = .ok wa ∧
          effectiveTermStructure ⟨0 :: (ps.map Prod.fst).take (i + 1), nus.take (i + 1)⟩
            ⟨0 :: (ps.map Prod.fst).take (i + 1), als.take i ++ [b]⟩ T = .ok wb ∧
          wa ≤ m.alpha + 1 / 10 ^ 10 ∧ m.alpha - 1 / 10 ^ 10 ≤ wb) := by
  obtain ⟨new, e, hl, hs⟩ := growAlpha_spec nus ps [0] [] als h
  rw [List.nil_append] at e
  subst e
  refine ⟨hl, fun i T m al hp hal hm => ?_⟩
  have hsol := hs i _ al hp hal
  rw [List.nil_append, List.length_nil, zero_add, show [(0 : ℝ)] ++ (ps.map Prod.fst).take (i + 1) =
    0 :: (ps.map Prod.fst).take (i + 1) from rfl] at hsol
  obtain ⟨r1, r2, r3⟩ := tdSolve_spec (le_max_of_le_right (by norm_num)) hsol
  have hval : ∀ x v, alphaGap (0 :: (ps.map Prod.fst).take (i + 1)) (nus.take (i + 1)) (als.take i) T m x = .ok v →
      ∃ w, v = w - m.alpha ∧ effectiveTermStructure ⟨0 :: (ps.map Prod.fst).take (i + 1), nus.take (i + 1)⟩
          ⟨0 :: (ps.map Prod.fst).take (i + 1), als.take i ++ [x]⟩ T = .ok w := by
    intro x v hv
    unfold alphaGap at hv
    obtain ⟨om, ho, hv⟩ := bind_eq_ok.1 hv
    obtain ⟨sc, hsc, hv⟩ := bind_eq_ok.1 hv
    obtain ⟨w, hw, hv⟩ := bind_eq_ok.1 hv
    rw [(new_ok_iff.1 ho).2.2.2.2, (new_ok_iff.1 hsc).2.2.2.2] at hw
    exact ⟨w, by cases hv; rfl, hw⟩
  refine ⟨r1, ?_⟩
  rcases r3 with ⟨q1, v, q2, q3⟩ | ⟨a, b, va, vb, q1, q2, q3, q4, q5, q6, q7, q8, q9⟩
  · left
    obtain ⟨w, k1, k2⟩ := hval _ _ q2
    exact ⟨q1, w, k2, by linarith⟩
  · right
    obtain ⟨w, k1, k2⟩ := hval _ _ q5
    obtain ⟨w', k1', k2'⟩ := hval _ _ q6
    refine ⟨a, b, w, w', lt_of_lt_of_le (by norm_num) q1, q2, q3, q9.trans (max_le le_rfl ?_), k2, k2',
      by linarith, by linarith⟩
    have : max (m.alpha * 4) 0.5 ≤ 4 * 10 ^ 7 := max_le (by linarith) (by norm_num)
    rw [div_le_div_iff₀ (by positivity) (by positivity)]
    generalize (max _ _ : ℝ) = M at this ⊢
    norm_num at this ⊢
    linarith

/-- The witness for the term structure: no vol-vol in the first year, vol-vol two in the second. -/
noncomputable def burstGamma (t : ℝ) : ℝ := if t < 1 then 0 else 2

/-- The term structure with value `1` in the first year and `v` in the second. -/
noncomputable def lateOmega (v t : ℝ) : ℝ := if t < 1 then 1 else v

theorem burst_schedules (v : ℝ) : IsSchedule [0, 1, 2] [0, 2] burstGamma ∧
    IsSchedule [0, 1, 2] [1, v] (lateOmega v) := by
  refine ⟨⟨rfl, by norm_num, rfl, ?_⟩, ⟨rfl, by norm_num, rfl, ?_⟩⟩
  · simp only [StepOn, burstGamma, and_true]
    exact ⟨fun t _ h => if_pos h, fun t h _ => if_neg (by linarith)⟩
  · simp only [StepOn, lateOmega, and_true]
    exact ⟨fun t _ h => if_pos h, fun t h _ => if_neg (by linarith)⟩

theorem burst_moments (v : ℝ) :
    moment1 burstGamma (lateOmega v) 2 = 1 + v ^ 2 * ((Real.exp 4 - 1) / 4) ∧
    moment2 burstGamma (lateOmega v) 2 = 1 / 2 + v ^ 2 * ((Real.exp 4 - 1) / 4) +
      v ^ 4 * (((Real.exp 24 - 1) / 6 - (Real.exp 4 - 1)) / 80) ∧ varOf burstGamma 2 = 4 := by
  obtain ⟨hg, ho⟩ := burst_schedules v
  have hE : EndsAt [0, 1, 2] 2 := ⟨by simp, rfl, by norm_num, rfl⟩
  obtain ⟨-, m1, m2⟩ := hE.segs hg ho
  have es : mkSegs [0, 1, 2] [0, 2] [1, v] = [⟨1, 0, 1⟩, ⟨1, 2, v⟩] := by
    norm_num [mkSegs]
  rw [es] at m1 m2
  have k4 := expKer_eq (c := 4) (by norm_num) 1
  have i4 := expInt_ne (c := 4) (by norm_num) 1
  rw [mul_one] at k4 i4
  unfold innerX at k4
  rw [show (6 : ℝ) * 4 = 24 by norm_num] at k4
  have c4 : (2 : ℝ) * 2 = 4 := by norm_num
  refine ⟨?_, ?_, ?_⟩
  · rw [← m1]
    simp only [iX, mul_zero, mul_one, add_zero, Real.exp_zero, expInt_zero, c4, i4]
    ring
  · rw [← m2]
    simp only [lhsX, mul_zero, mul_one, one_mul, add_zero, zero_add, Real.exp_zero, expInt_zero,
      expKer_zero, c4, i4, k4]
    ring
  · obtain ⟨segs, e1, e2, e3, e4, -, -⟩ := aligned_ok hg ho hg hE.expiry
    rw [(hE.segs hg ho).1] at e1
    cases e1
    have hv := segVar_eq _ 0 e2 fun s hs => (e3 s hs).1
    rw [e4, es, zero_add] at hv
    unfold vFrom at hv
    unfold varOf
    rw [← hv]
    norm_num [segVar]

theorem burst_run (v : ℝ) : ∃ g x w, effectiveVolVol ⟨[0, 1, 2], [0, 2]⟩ ⟨[0, 1, 2], [1, v]⟩ 2 = .ok g ∧
    effectiveTermStructure ⟨[0, 1, 2], [0, 2]⟩ ⟨[0, 1, 2], [1, v]⟩ 2 = .ok w ∧ 0 < w ∧ 0 ≤ x ∧ x ≤ 19 / 4 ∧
    moment2 burstGamma (lateOmega v) 2 = rhsX (moment1 burstGamma (lateOmega v) 2) x ∧
    |g ^ 2 * 2 - x| ≤ 1 / 10 ^ 9 ∧
    |w ^ 2 * expInt (g ^ 2) 2 - moment1 burstGamma (lateOmega v) 2| ≤
      2 / 10 ^ 6 * moment1 burstGamma (lateOmega v) 2 := by
  obtain ⟨hg, ho⟩ := burst_schedules v
  have hE : EndsAt [0, 1, 2] 2 := ⟨by simp, rfl, by norm_num, rfl⟩
  obtain ⟨b1, b2, b3⟩ := burst_moments v
  have hm : 0 < moment1 burstGamma (lateOmega v) 2 := by
    rw [b1]
    have := Real.one_le_exp (show (0 : ℝ) ≤ 4 by norm_num)
    have : 0 ≤ v ^ 2 * ((Real.exp 4 - 1) / 4) := mul_nonneg (sq_nonneg v) (by linarith)
    linarith
  obtain ⟨g, x, k1, -, k3, -, k5⟩ := C60_vol_vol hg ho hE.expiry hm (by rw [b3]; norm_num)
  obtain ⟨w, l1, l2, l3⟩ := C60_term_structure hg ho hE.expiry hm k1
  have hx := vol_vol_upper hg ho hE.expiry hm k3
  rw [b3] at hx
  rw [moment1_const] at l3
  obtain ⟨x0, x1⟩ := matches_iff.1 k3
  exact ⟨g, x, w, k1, l1, l2, x0, by linarith, x1, k5.trans (by norm_num), l3⟩

theorem exp4_bounds : 54 ≤ Real.exp 4 ∧ Real.exp 4 ≤ 55 ∧ 2.6 * 10 ^ 10 ≤ Real.exp 24 ∧ Real.exp 24 ≤ 2.7 * 10 ^ 10 := by
  have lo := Real.exp_one_gt_d9.le
  have hi := Real.exp_one_lt_d9.le
  have p := (Real.exp_pos 1).le
  have e4 : Real.exp 4 = Real.exp 1 ^ 4 := by rw [← Real.exp_nat_mul]; norm_num
  have e24 : Real.exp 24 = Real.exp 1 ^ 24 := by rw [← Real.exp_nat_mul]; norm_num
  rw [e4, e24]
  refine ⟨le_trans (by norm_num) (pow_le_pow_left₀ (by norm_num) lo 4), (pow_le_pow_left₀ p hi 4).trans (by norm_num),
    le_trans (by norm_num) (pow_le_pow_left₀ (by norm_num) lo 24), (pow_le_pow_left₀ p hi 24).trans (by norm_num)⟩

/-- The effective term structure with a small last value. -/
theorem burst_low : ∃ w, effectiveTermStructure ⟨[0, 1, 2], [0, 2]⟩ ⟨[0, 1, 2], [1, 1 / 10 ^ 6]⟩ 2 = .ok w ∧
    0.6 < w := by
  obtain ⟨g, x, w, h1, h2, hw, x0, x1, hm, hg, hT⟩ := burst_run (1 / 10 ^ 6)
  obtain ⟨b1, b2, -⟩ := burst_moments (1 / 10 ^ 6)
  obtain ⟨e1, e2, e3, e4⟩ := exp4_bounds
  refine ⟨w, h2, ?_⟩
  have m1 : 1 ≤ moment1 burstGamma (lateOmega (1 / 10 ^ 6)) 2 := by rw [b1]; norm_num; linarith
  have m2 : moment2 burstGamma (lateOmega (1 / 10 ^ 6)) 2 ≤ 1 / 2 + 2 / 10 ^ 11 := by
    rw [b2]; norm_num at e4 ⊢; linarith
  set M := moment1 burstGamma (lateOmega (1 / 10 ^ 6)) 2
  have hq : 15 + 20 * x ≤ quart (Real.exp x) := by
    have hu := Real.add_one_le_exp x
    set u := Real.exp x
    have : quart (x + 1) ≤ quart u := quart_mono (by linarith) hu
    refine le_trans ?_ this
    unfold quart
    nlinarith [pow_nonneg x0 2, pow_nonneg x0 3, pow_nonneg x0 4]
  have hx : x ≤ 1 / 10 ^ 9 := by
    rw [hm] at m2
    unfold rhsX at m2
    have hM : 1 ≤ M ^ 2 := one_le_pow₀ m1
    have h3 : quart (Real.exp x) ≤ M ^ 2 * quart (Real.exp x) :=
      le_mul_of_one_le_left (by linarith) hM
    norm_num at m2 ⊢
    linarith
  have hgx : g ^ 2 * 2 ≤ 1 / 10 ^ 8 := by
    have := (abs_le.1 hg).2
    norm_num at this hx ⊢
    linarith
  have hE := (expInt_scale (sq_nonneg g) (show (0 : ℝ) < 2 by norm_num) (by norm_num at hgx ⊢; linarith)).2
  have hE3 : expInt (g ^ 2) 2 ≤ 2.1 := by norm_num at hgx ⊢; linarith
  have hE0 := expInt_pos (c := g ^ 2) (d := 2) (by norm_num)
  have h4 := (abs_le.1 hT).1
  by_contra hc
  push Not at hc
  have : w ^ 2 ≤ 0.36 := by nlinarith
  have : w ^ 2 * expInt (g ^ 2) 2 ≤ 0.36 * 2.1 := mul_le_mul this hE3 hE0.le (by norm_num)
  norm_num at h4 this
  linarith

/-- The effective term structure with last value `1/10`. -/
theorem burst_mid : ∃ w, effectiveTermStructure ⟨[0, 1, 2], [0, 2]⟩ ⟨[0, 1, 2], [1, 1 / 10]⟩ 2 = .ok w ∧
    w < 0.4 := by
  obtain ⟨g, x, w, h1, h2, hw, x0, x1, hm, hg, hT⟩ := burst_run (1 / 10)
  obtain ⟨b1, b2, -⟩ := burst_moments (1 / 10)
  obtain ⟨e1, e2, e3, e4⟩ := exp4_bounds
  refine ⟨w, h2, ?_⟩
  have m1 : moment1 burstGamma (lateOmega (1 / 10)) 2 ≤ 1.14 := by rw [b1]; norm_num; linarith
  have m1' : 0 ≤ moment1 burstGamma (lateOmega (1 / 10)) 2 := by rw [b1]; norm_num; linarith
  have m2 : 5000 ≤ moment2 burstGamma (lateOmega (1 / 10)) 2 := by
    rw [b2]; norm_num at e3 ⊢; linarith
  set M := moment1 burstGamma (lateOmega (1 / 10)) 2
  have hu : 15 ≤ Real.exp x := by
    by_contra hc
    push Not at hc
    have hq := quart_mono (Real.exp_pos x).le hc.le
    rw [show quart 15 = 58115 by norm_num [quart]] at hq
    rw [hm] at m2
    unfold rhsX at m2
    have hM : M ^ 2 ≤ 1.3 := by nlinarith
    have := quart_pos (Real.exp_pos x)
    have : M ^ 2 * quart (Real.exp x) ≤ 1.3 * 58115 := mul_le_mul hM hq this.le (by norm_num)
    norm_num at this
    linarith
  have hx : 2.7 ≤ x := by
    by_contra hc
    push Not at hc
    have h10 : Real.exp x ^ 10 ≤ Real.exp 1 ^ 27 := by
      rw [← Real.exp_nat_mul, ← Real.exp_nat_mul]
      apply Real.exp_le_exp.2
      push_cast
      linarith
    have h15 : (15 : ℝ) ^ 10 ≤ Real.exp x ^ 10 := pow_le_pow_left₀ (by norm_num) hu 10
    have hhi : Real.exp 1 ^ 27 ≤ 2.7182818286 ^ 27 :=
      pow_le_pow_left₀ (Real.exp_pos 1).le Real.exp_one_lt_d9.le 27
    have : (2.7182818286 : ℝ) ^ 27 < 15 ^ 10 := by norm_num
    linarith
  have hgx : 1.3 ≤ g ^ 2 := by
    have := (abs_le.1 hg).1
    norm_num at this hx ⊢
    linarith
  have hE : 9 ≤ expInt (g ^ 2) 2 := by
    refine le_trans ?_ (expInt_mono (by norm_num) hgx)
    rw [expInt_ne (by norm_num), le_div_iff₀ (by norm_num)]
    have := Real.sum_le_exp_of_nonneg (show (0 : ℝ) ≤ 1.3 * 2 by norm_num) 9
    simp only [Finset.sum_range_succ, Finset.sum_range_zero, Nat.factorial] at this
    norm_num at this ⊢
    linarith
  have h4 := (abs_le.1 hT).2
  by_contra hc
  push Not at hc
  have h5 : 0.16 ≤ w ^ 2 := by nlinarith
  have h6 : 0.16 * 9 ≤ w ^ 2 * expInt (g ^ 2) 2 := mul_le_mul h5 hE (by norm_num) (sq_nonneg w)
  norm_num at h4 h6 m1
  linarith

/-- The effective term structure with last value `2`. -/
theorem burst_high : ∃ w, effectiveTermStructure ⟨[0, 1, 2], [0, 2]⟩ ⟨[0, 1, 2], [1, 2]⟩ 2 = .ok w ∧
    0.6 < w := by
  obtain ⟨g, x, w, h1, h2, hw, x0, x1, hm, hg, hT⟩ := burst_run 2
  obtain ⟨b1, b2, -⟩ := burst_moments 2
  obtain ⟨e1, e2, e3, e4⟩ := exp4_bounds
  refine ⟨w, h2, ?_⟩
  have m1 : 54 ≤ moment1 burstGamma (lateOmega 2) 2 := by rw [b1]; norm_num; linarith
  set M := moment1 burstGamma (lateOmega 2) 2
  have hgx : g ^ 2 ≤ 2.5 := by
    have := (abs_le.1 hg).2
    norm_num at this ⊢
    linarith
  have hE : expInt (g ^ 2) 2 ≤ 60 := by
    refine (expInt_mono (by norm_num) hgx).trans ?_
    rw [expInt_ne (by norm_num), div_le_iff₀ (by norm_num)]
    have : Real.exp (2.5 * 2) ≤ 2.7182818286 ^ 5 := by
      rw [show (2.5 : ℝ) * 2 = ((5 : ℕ) : ℝ) * 1 by norm_num, Real.exp_nat_mul]
      exact pow_le_pow_left₀ (Real.exp_pos 1).le Real.exp_one_lt_d9.le 5
    norm_num at this ⊢
    linarith
  have h4 := (abs_le.1 hT).1
  have hE0 := expInt_pos (c := g ^ 2) (d := 2) (by norm_num)
  by_contra hc
  push Not at hc
  have : w ^ 2 ≤ 0.36 := by nlinarith
  have : w ^ 2 * expInt (g ^ 2) 2 ≤ 0.36 * 60 := mul_le_mul this hE hE0.le (by norm_num)
  norm_num at h4 this
  linarith

theorem burst_gap {v : ℝ} {w : ℝ}
    (h : effectiveTermStructure ⟨[0, 1, 2], [0, 2]⟩ ⟨[0, 1, 2], [1, v]⟩ 2 = .ok w) :
    alphaGap [0, 1, 2] [0, 2] [1] 2 ⟨1 / 2, 1 / 2, 0, 1⟩ v = .ok (w - 1 / 2) := by
  have hE : EndsAt [0, 1, 2] 2 := ⟨by simp, rfl, by norm_num, rfl⟩
  unfold alphaGap
  rw [hE.new (by simp), ok_bind, hE.new (by simp), ok_bind]
  simp only [List.cons_append, List.nil_append]
  rw [h, ok_bind]

/-- **C74.** "ω̃² is monotone in ω_i² (linear in ω_i² through I(Tᵢ)), so monotone in ω_i" (comment at
line 192) is false: the effective vol-vol changes too.  With vol-vol `0` then `2` and first term
structure `1`, the effective term structure is above `0.6` at a last value of `1e-6`, below `0.4` at
`0.1` and above `0.6` again at `2`.  For the target `0.5` the solver therefore takes the target to be
out of reach and returns `1e-6`, although the target is crossed between `0.1` and `2`. -/
theorem C74_alpha_monotone_false :
    tdSolve (alphaGap [0, 1, 2] [0, 2] [1] 2 ⟨1 / 2, 1 / 2, 0, 1⟩) (max (1 / 2 * 4) 0.5) = .ok (1 / 10 ^ 6) ∧
    ∃ v₁ v₂ v₃, alphaGap [0, 1, 2] [0, 2] [1] 2 ⟨1 / 2, 1 / 2, 0, 1⟩ (1 / 10 ^ 6) = .ok v₁ ∧ 0.1 < v₁ ∧
      alphaGap [0, 1, 2] [0, 2] [1] 2 ⟨1 / 2, 1 / 2, 0, 1⟩ (1 / 10) = .ok v₂ ∧ v₂ < -0.1 ∧
      alphaGap [0, 1, 2] [0, 2] [1] 2 ⟨1 / 2, 1 / 2, 0, 1⟩ 2 = .ok v₃ ∧ 0.1 < v₃ := by
  obtain ⟨w₁, k₁, l₁⟩ := burst_low
  obtain ⟨w₂, k₂, l₂⟩ := burst_mid
  obtain ⟨w₃, k₃, l₃⟩ := burst_high
  have g₁ := burst_gap k₁
  have g₃ := burst_gap k₃
  refine ⟨?_, w₁ - 1 / 2, w₂ - 1 / 2, w₃ - 1 / 2, g₁, by norm_num at l₁ ⊢; linarith, burst_gap k₂,
    by norm_num at l₂ ⊢; linarith, g₃, by norm_num at l₃ ⊢; linarith⟩
  have p3 : 0 ≤ w₃ - 1 / 2 := by norm_num at l₃ ⊢; linarith
  have p1 : 0 < w₁ - 1 / 2 := by norm_num at l₁ ⊢; linarith
  unfold tdSolve
  rw [show max ((1 : ℝ) / 2 * 4) 0.5 = 2 by norm_num, g₃, ok_bind, tdBump, if_neg (not_lt.2 p3), ok_bind, if_pos p3]
  unfold tdBisect
  rw [g₁, ok_bind, g₃, ok_bind, if_pos p1]

/-! ## Stage 4: the correlation -/

/-- **C74.** Stage 4.  Every returned correlation is `rawᵢ` clamped to `[-0.999, 0.999]`, and the
effective correlation at every pillar is the target plus what the clamps took away. -/
theorem C74_rho {ps : List (ℝ × Sabr)} {beta f0 : ℝ} {p : TdSabr} (h : tdStages ps beta f0 = .ok p) :
    ∃ raws : List ℝ, raws.length = ps.length ∧ p.rho.values = raws.map clamp999 ∧
      ∀ (i : ℕ) (T : ℝ) (m : Sabr), ps[i]? = some (T, m) → ∃ g w,
        effectiveVolVol ⟨p.nu.knots.take (i + 2), p.nu.values.take (i + 1)⟩
          ⟨p.nu.knots.take (i + 2), p.alpha.values.take (i + 1)⟩ T = .ok g ∧
        effectiveTermStructure ⟨p.nu.knots.take (i + 2), p.nu.values.take (i + 1)⟩
          ⟨p.nu.knots.take (i + 2), p.alpha.values.take (i + 1)⟩ T = .ok w ∧ 0 ≤ g ∧ 0 < w ∧ 0 < T ∧
        ((∀ a ∈ p.alpha.values, 1 / 10 ^ 15 < a) → 1 / 10 ^ 15 ≤ g →
          effectiveCorrelation ⟨p.nu.knots.take (i + 2), p.nu.values.take (i + 1)⟩
            ⟨p.nu.knots.take (i + 2), p.alpha.values.take (i + 1)⟩
            ⟨p.nu.knots.take (i + 2), p.rho.values.take (i + 1)⟩ T =
          .ok (m.rho + w / (g * T) * ∑ k ∈ Finset.range (i + 1),
            (p.rho.values.getD k 0 - raws.getD k 0) * skewWeight p.nu.knots p.nu.values p.alpha.values k)) := by
  obtain ⟨h1, h2, h3, k1, k2, k3, -, -, hch, hne, -, -, -, ha, hn, -⟩ := tdStages_parts h
  obtain ⟨raws, hl, e, hs⟩ := growRho_spec _ _ ps [0] 0 [] 0 _ rfl rfl h3
  rw [List.nil_append] at e
  refine ⟨raws, hl, e, fun i T m hp => ?_⟩
  obtain ⟨g, w, n1, n2, n3, n4, n5, n6⟩ := hs i _ hp
  have eks : [(0 : ℝ)] ++ ps.map Prod.fst = p.nu.knots := by rw [k1]; rfl
  simp only [List.length_nil, zero_add, eks] at n1 n2 n3 n4 n5 n6
  have hi : i < ps.length := (List.getElem?_eq_some_iff.1 hp).1
  have etake : p.nu.knots.take (i + 2) = 0 :: (ps.map Prod.fst).take (i + 1) := by rw [k1]; rfl
  obtain ⟨q1, q2⟩ := knots_upto hp
  rw [← etake] at q1 q2
  obtain ⟨hE, l1⟩ := EndsAt.of_new q1 q2 n1
  obtain ⟨-, l2⟩ := EndsAt.of_new q1 q2 n2
  have hpos : ∀ o ∈ p.alpha.values.take (i + 1), o ≠ 0 := fun o ho => (ha o (List.mem_of_mem_take ho)).ne'
  obtain ⟨γ, hg⟩ := hE.schedule l1
  obtain ⟨ω, ho⟩ := hE.schedule l2
  have hm := hE.moment1_pos hg ho hpos
  obtain ⟨w', m1, hw, -⟩ := C60_term_structure hg ho hE.expiry hm n3
  rw [m1] at n4
  cases n4
  obtain ⟨g0, -⟩ := hE.exact l1 l2 hpos n3
  have hT := hE.expiry.1
  refine ⟨g, w, n3, m1, g0, hw, hT, fun hal hg1 => ?_⟩
  have hgp : 0 < g := lt_of_lt_of_le (by norm_num) hg1
  have hrl : p.rho.values.length = ps.length := by rw [e, List.length_map, hl]
  have l3 : (p.rho.values.take (i + 1)).length + 1 = (p.nu.knots.take (i + 2)).length := by
    rw [etake, List.length_take, List.length_cons, List.length_take, List.length_map, hrl]
  have hlen3 : (p.rho.values.take (i + 1)).length = i + 1 := by rw [List.length_take]; omega
  unfold effectiveCorrelation
  rw [if_pos rfl, (hE.segs hg ho).1, ok_bind]
  have hsl : (mkSegs (p.nu.knots.take (i + 2)) (p.nu.values.take (i + 1)) (p.alpha.values.take (i + 1))).length =
      i + 1 := by
    unfold mkSegs
    simp only [List.length_zipWith, List.length_tail, List.length_zip]
    omega
  simp only
  rw [hsl, if_pos hlen3.ge, List.take_of_length_le hlen3.le,
    corrIntegral_mkSegs _ _ _ _ l1 l2 l3 (fun o ho => by
      have := hal o (List.mem_of_mem_take ho)
      exact this.trans_le (le_abs_self o)), ok_bind, n3, ok_bind, m1, ok_bind,
    if_neg (by rw [abs_of_pos hgp]; exact not_lt.2 hg1), hlen3]
  refine congrArg Outcome.ok ?_
  have hw0 := hw.ne'
  have hsum : ∑ k ∈ Finset.range (i + 1), raws.getD k 0 * skewWeight p.nu.knots p.nu.values p.alpha.values k =
      m.rho * g * T / w := by rw [← n6]
  have hmr : m.rho = w / (g * T) * (m.rho * g * T / w) := by field_simp
  rw [hmr, ← hsum, ← mul_add, ← Finset.sum_add_distrib]
  congr 1
  refine Finset.sum_congr rfl fun k hk => ?_
  rw [Finset.mem_range] at hk
  have t1 : ∀ (l : List ℝ) (n : ℕ), k < n → (l.take n).getD k 0 = l.getD k 0 := by
    intro l n hkn
    simp only [List.getD_eq_getElem?_getD, List.getElem?_take, if_pos hkn]
  have t2 : (p.nu.knots.take (i + 2)).getD (k + 1) 0 = p.nu.knots.getD (k + 1) 0 := by
    simp only [List.getD_eq_getElem?_getD, List.getElem?_take, if_pos (show k + 1 < i + 2 by omega)]
  rw [t1 _ _ hk, t1 _ _ hk, t1 _ _ hk, t1 _ _ (show k < i + 2 by omega), t2]
  unfold skewWeight
  ring

/-- **C74.** Hence when no correlation up to a pillar is clamped, the effective correlation at that
pillar is the target exactly. -/
theorem C74_rho_exact {ps : List (ℝ × Sabr)} {beta f0 : ℝ} {p : TdSabr} (h : tdStages ps beta f0 = .ok p)
    {i : ℕ} {T : ℝ} {m : Sabr} {g : ℝ} (hp : ps[i]? = some (T, m)) (hm : ∀ q ∈ ps, q.2.alpha ≤ 10 ^ 7)
    (hg : effectiveVolVol ⟨p.nu.knots.take (i + 2), p.nu.values.take (i + 1)⟩
      ⟨p.nu.knots.take (i + 2), p.alpha.values.take (i + 1)⟩ T = .ok g) (hg0 : 1 / 10 ^ 15 ≤ g)
    (hr : ∀ r ∈ p.rho.values.take (i + 1), |r| < 0.999) :
    effectiveCorrelation ⟨p.nu.knots.take (i + 2), p.nu.values.take (i + 1)⟩
      ⟨p.nu.knots.take (i + 2), p.alpha.values.take (i + 1)⟩
      ⟨p.nu.knots.take (i + 2), p.rho.values.take (i + 1)⟩ T = .ok m.rho := by
  obtain ⟨raws, hl, e, hs⟩ := C74_rho h
  obtain ⟨g', w, k1, -, -, -, -, k6⟩ := hs i T m hp
  rw [hg] at k1
  cases k1
  obtain ⟨hal, has⟩ := C74_alpha (tdStages_parts h).2.1
  have hi : i < ps.length := (List.getElem?_eq_some_iff.1 hp).1
  rw [k6 (by
    intro a ha
    obtain ⟨j, hj⟩ := List.mem_iff_getElem?.1 ha
    have hj' : j < ps.length := by
      rw [← hal]
      exact (List.getElem?_eq_some_iff.1 hj).1
    have hq : ps[j]? = some (ps[j].1, ps[j].2) := by simp [hj']
    have := (has j _ _ a hq hj (hm _ (List.getElem_mem hj'))).1
    exact lt_of_lt_of_le (by norm_num) this) hg0]
  refine congrArg Outcome.ok ?_
  rw [Finset.sum_eq_zero, mul_zero, add_zero]
  intro k hk
  rw [Finset.mem_range] at hk
  have hkl : k < raws.length := by omega
  have e1 : p.rho.values.getD k 0 = clamp999 raws[k] := by
    rw [e, List.getD_eq_getElem?_getD, List.getElem?_map, List.getElem?_eq_getElem hkl]
    rfl
  have e2 : raws.getD k 0 = raws[k] := by rw [List.getD_eq_getElem?_getD, List.getElem?_eq_getElem hkl]; rfl
  have hlt : |clamp999 raws[k]| < 0.999 := by
    refine hr _ ?_
    rw [e]
    refine List.mem_iff_getElem?.2 ⟨k, ?_⟩
    rw [List.getElem?_take, if_pos hk, List.getElem?_map, List.getElem?_eq_getElem hkl]
    rfl
  have : clamp999 raws[k] = raws[k] := by
    unfold clamp999 at hlt ⊢
    rcases le_total raws[k] 0.999 with h1 | h1
    · rw [min_eq_left h1] at hlt ⊢
      rcases le_total (-0.999) raws[k] with h2 | h2
      · exact max_eq_right h2
      · rw [max_eq_left h2] at hlt
        norm_num [abs_of_pos] at hlt
    · rw [min_eq_right h1] at hlt
      norm_num at hlt
  rw [e1, e2, this, sub_self, zero_mul]
/-! ## One pillar -/

theorem exp_small {T : ℝ} (hT : T ≤ 100) : Real.exp (1 / 10 ^ 10 + T / 2 ^ 39) ≤ 1 + 1 / 10 ^ 8 := by
  have h1 : 1 / 10 ^ 10 + T / 2 ^ 39 ≤ 1 / 10 ^ 9 := by
    have : T / 2 ^ 39 ≤ 100 / 2 ^ 39 := div_le_div_of_nonneg_right hT (by positivity)
    refine (add_le_add_right this _).trans ?_
    norm_num
  refine (Real.exp_le_exp.2 h1).trans ?_
  have := Real.abs_exp_sub_one_le (show |(1 : ℝ) / 10 ^ 9| ≤ 1 by rw [abs_of_pos (by norm_num)]; norm_num)
  rw [abs_of_pos (show (0 : ℝ) < 1 / 10 ^ 9 by norm_num)] at this
  have := (abs_le.1 this).2
  norm_num at this ⊢
  linarith

/-- The effective parameters of constant schedules. -/
theorem constSeg {ks gs os : List ℝ} {T x a : ℝ} (hE : EndsAt ks T) (hg : IsSchedule ks gs fun _ => x)
    (ho : IsSchedule ks os fun _ => a) (h0 : 1 / 10 ^ 3 ≤ T) (hT : T ≤ 100) (hx0 : 0 ≤ x) (hx : x ≤ 20) (ha : 0 < a) :
    ∃ g w, effectiveVolVol ⟨ks, gs⟩ ⟨ks, os⟩ T = .ok g ∧
      effectiveTermStructure ⟨ks, gs⟩ ⟨ks, os⟩ T = .ok w ∧ 0 ≤ g ∧ 0 < w ∧
      |g ^ 2 - x ^ 2| ≤ 1.1 / 10 ^ 7 ∧ |w - a| ≤ 2 / 10 ^ 6 * a := by
  have hT0 : 0 < T := lt_of_lt_of_le (by norm_num) h0
  obtain ⟨g, w, h1, h2, h3, h4, h5, h6, h7⟩ := C60_constant hg ho hE.expiry ha.ne' (by
    have : x ^ 2 ≤ 400 := by nlinarith
    have : x ^ 2 * T ≤ 400 * T := mul_le_mul_of_nonneg_right this hT0.le
    norm_num at h0 ⊢
    linarith)
  refine ⟨g, w, h1, h2, h3, h4, ?_, ?_⟩
  · have : |g ^ 2 - x ^ 2| * T ≤ 1.1 / 10 ^ 7 * T := by
      refine h5.trans ?_
      norm_num at h0 ⊢
      linarith
    exact le_of_mul_le_mul_right this hT0
  · have he := exp_small hT
    set E := Real.exp (1 / 10 ^ 10 + T / 2 ^ 39)
    have hw2 : 0 ≤ w ^ 2 := sq_nonneg w
    have ha2 : 0 < a ^ 2 := by positivity
    have u1 : (1 - 3 / 10 ^ 6) * a ^ 2 ≤ w ^ 2 := by
      have : E * w ^ 2 ≤ (1 + 1 / 10 ^ 8) * w ^ 2 := mul_le_mul_of_nonneg_right he hw2
      norm_num at h6 this ⊢
      linarith
    have u2 : w ^ 2 ≤ (1 + 3 / 10 ^ 6) * a ^ 2 := by
      have : (1 + 2 / 10 ^ 6) * E * a ^ 2 ≤ (1 + 2 / 10 ^ 6) * (1 + 1 / 10 ^ 8) * a ^ 2 := by gcongr
      refine (h7.trans this).trans ?_
      norm_num
      linarith
    rw [abs_le]
    constructor
    · by_contra hc
      push Not at hc
      have h8 : w < (1 - 2 / 10 ^ 6) * a := by linarith
      have := pow_lt_pow_left₀ h8 h4.le (two_ne_zero)
      norm_num [mul_pow] at this u1
      linarith
    · by_contra hc
      push Not at hc
      have h8 : (1 + 2 / 10 ^ 6) * a < w := by linarith
      have := pow_lt_pow_left₀ h8 (by positivity) (two_ne_zero)
      norm_num [mul_pow] at this u2
      linarith

/-- The effective parameters of one segment. -/
theorem oneSeg {T x a : ℝ} (h0 : 1 / 10 ^ 3 ≤ T) (hT : T ≤ 100) (hx0 : 0 ≤ x) (hx : x ≤ 20) (ha : 0 < a) :
    ∃ g w, effectiveVolVol ⟨[0, T], [x]⟩ ⟨[0, T], [a]⟩ T = .ok g ∧
      effectiveTermStructure ⟨[0, T], [x]⟩ ⟨[0, T], [a]⟩ T = .ok w ∧ 0 ≤ g ∧ 0 < w ∧
      |g ^ 2 - x ^ 2| ≤ 1.1 / 10 ^ 7 ∧ |w - a| ≤ 2 / 10 ^ 6 * a := by
  have hT0 : 0 < T := lt_of_lt_of_le (by norm_num) h0
  have hs : ∀ c : ℝ, IsSchedule [0, T] [c] fun _ => c :=
    fun c => ⟨rfl, by simpa using hT0, rfl, by simp [StepOn]⟩
  exact constSeg ⟨by simp, rfl, by simpa using hT0, rfl⟩ (hs x) (hs a) h0 hT hx0 hx ha

theorem sq_close_le {g a n : ℝ} (hn : 0.05 ≤ n) (hg : 0 ≤ g) (h1 : g ≤ n + 1 / 10 ^ 10)
    (h2 : a ^ 2 ≤ g ^ 2 + 1.1 / 10 ^ 7) : a ≤ n + 2 / 10 ^ 6 := by
  by_contra hc
  push Not at hc
  have h3 := pow_le_pow_left₀ hg h1 2
  have h4 := pow_lt_pow_left₀ hc (by norm_num at hn ⊢; linarith) two_ne_zero
  norm_num at h2 h3 h4 hn
  linarith

theorem sq_close_ge {g b n : ℝ} (hn : 0.05 ≤ n) (hb : 0 ≤ b) (h1 : n - 1 / 10 ^ 10 ≤ g)
    (h2 : g ^ 2 ≤ b ^ 2 + 1.1 / 10 ^ 7) : n - 2 / 10 ^ 6 ≤ b := by
  by_contra hc
  push Not at hc
  have h3 := pow_le_pow_left₀ (by norm_num at hn ⊢; linarith) h1 2
  have h4 := pow_lt_pow_left₀ hc hb two_ne_zero
  norm_num at h2 h3 h4 hn
  linarith

theorem single_nu {T : ℝ} {m : Sabr} (h0 : 1 / 10 ^ 3 ≤ T) (hT : T ≤ 100)
    (ha0 : 1 / 10 ^ 3 ≤ m.alpha) (hn0 : 0.05 ≤ m.nu) (hn1 : m.nu ≤ 10) :
    ∃ nu, tdSolve (nuGap [0, T] [] T m) (max (m.nu * 2) 0.1) = .ok nu ∧
      |nu - m.nu| ≤ 4 / 10 ^ 6 := by
  have hT0 : 0 < T := lt_of_lt_of_le (by norm_num) h0
  have hap : 0 < m.alpha := lt_of_lt_of_le (by norm_num) ha0
  have hE : EndsAt [0, T] T := ⟨by simp, rfl, by simpa using hT0, rfl⟩
  have hgap : ∀ x, 0 ≤ x → x ≤ 20 → ∃ g, nuGap [0, T] [] T m x = .ok (g - m.nu) ∧ 0 ≤ g ∧
      |g ^ 2 - x ^ 2| ≤ 1.1 / 10 ^ 7 := by
    intro x h1 h2
    obtain ⟨g, w, k1, k2, k3, k4, k5, -⟩ := oneSeg h0 hT h1 h2 hap
    refine ⟨g, ?_, k3, k5⟩
    unfold nuGap
    rw [hE.new (by simp), ok_bind, hE.new (by simp), ok_bind]
    simp only [List.length_nil, zero_add, List.replicate_one, List.nil_append]
    rw [k1, ok_bind]
  have b1 : m.nu * 2 ≤ max (m.nu * 2) 0.1 := le_max_left _ _
  have b2 : max (m.nu * 2) 0.1 ≤ 20 := max_le (by linarith) (by norm_num)
  have b3 : (0.1 : ℝ) ≤ max (m.nu * 2) 0.1 := le_max_right _ _
  generalize (max (m.nu * 2) 0.1 : ℝ) = H at b1 b2 b3
  obtain ⟨gl, l1, l2, l3⟩ := hgap (1 / 10 ^ 6) (by norm_num) (by norm_num)
  obtain ⟨gh, u1, u2, u3⟩ := hgap H (by norm_num at b3; linarith) b2
  obtain ⟨r, a, b, va, vb, s1, s2, s3, s4, s5, s6, s7, s8, s9, s10⟩ := tdSolve_bracket
    (f := nuGap [0, T] [] T m) (hi0 := H) (by norm_num at b3 ⊢; linarith)
    (fun x q1 q2 => by
      obtain ⟨g, e, -⟩ := hgap x (le_trans (by norm_num) q1) (q2.trans b2)
      exact ⟨_, e⟩) u1 (by
      have := (abs_le.1 u3).1
      norm_num at this hn0 b3
      nlinarith) l1 (by
      have := (abs_le.1 l3).2
      norm_num at this hn0
      nlinarith)
  refine ⟨r, s1, ?_⟩
  have ha0 : 0 ≤ a := le_trans (by norm_num) s2
  obtain ⟨ga, a1, a2, a3⟩ := hgap a ha0 (by linarith)
  obtain ⟨gb, c1, c2, c3⟩ := hgap b (by linarith) (by linarith)
  rw [a1] at s6
  rw [c1] at s7
  cases s6
  cases s7
  have t : b - a ≤ 1 / 10 ^ 10 := by
    refine s10.trans (max_le le_rfl ?_)
    refine (div_le_div_of_nonneg_right b2 (by positivity)).trans ?_
    norm_num
  have a4 := (abs_le.1 a3).1
  have c4 := (abs_le.1 c3).2
  have v1 : a ≤ m.nu + 2 / 10 ^ 6 := sq_close_le hn0 a2 (by linarith) (by linarith)
  have v2 : m.nu - 2 / 10 ^ 6 ≤ b := sq_close_ge (g := gb) hn0 (by linarith) (by linarith) (by linarith)
  rw [abs_le]
  norm_num at t v1 v2 ⊢
  constructor <;> linarith

theorem single_alpha {T nu : ℝ} {m : Sabr} (h0 : 1 / 10 ^ 3 ≤ T) (hT : T ≤ 100)
    (ha0 : 1 / 10 ^ 3 ≤ m.alpha) (ha1 : m.alpha ≤ 100) (hnn : 0 < nu) (hnq : nu ≤ 20) :
    ∃ al, tdSolve (alphaGap [0, T] [nu] [] T m) (max (m.alpha * 4) 0.5) = .ok al ∧
      |al - m.alpha| ≤ 4 / 10 ^ 6 * m.alpha := by
  have hT0 : 0 < T := lt_of_lt_of_le (by norm_num) h0
  have hap : 0 < m.alpha := lt_of_lt_of_le (by norm_num) ha0
  have hE : EndsAt [0, T] T := ⟨by simp, rfl, by simpa using hT0, rfl⟩
  have hgap3 : ∀ x, 0 < x → ∃ w, alphaGap [0, T] [nu] [] T m x = .ok (w - m.alpha) ∧ 0 < w ∧
      |w - x| ≤ 2 / 10 ^ 6 * x := by
    intro x h1
    obtain ⟨g, w, k1, k2, k3, k4, k5, k6⟩ := oneSeg h0 hT hnn.le hnq h1
    refine ⟨w, ?_, k4, k6⟩
    unfold alphaGap
    rw [hE.new (by simp), ok_bind, hE.new (by simp), ok_bind]
    simp only [List.nil_append]
    rw [k2, ok_bind]
  have b1 : m.alpha * 4 ≤ max (m.alpha * 4) 0.5 := le_max_left _ _
  have b2 : max (m.alpha * 4) 0.5 ≤ 400 := max_le (by linarith) (by norm_num)
  have b3 : (0.5 : ℝ) ≤ max (m.alpha * 4) 0.5 := le_max_right _ _
  generalize (max (m.alpha * 4) 0.5 : ℝ) = H at b1 b2 b3
  obtain ⟨gl, l1, l2, l3⟩ := hgap3 (1 / 10 ^ 6) (by norm_num)
  obtain ⟨gh, u1, u2, u3⟩ := hgap3 H (by norm_num at b3; linarith)
  obtain ⟨r, a, b, va, vb, s1, s2, s3, s4, s5, s6, s7, s8, s9, s10⟩ := tdSolve_bracket
    (f := alphaGap [0, T] [nu] [] T m) (hi0 := H) (by norm_num at b3 ⊢; linarith)
    (fun x q1 q2 => by
      obtain ⟨g, e, -⟩ := hgap3 x (lt_of_lt_of_le (by norm_num) q1)
      exact ⟨_, e⟩) u1 (by
      have := (abs_le.1 u3).1
      norm_num at this
      linarith) l1 (by
      have := (abs_le.1 l3).2
      norm_num at this ha0
      linarith)
  refine ⟨r, s1, ?_⟩
  have hap' : 0 < a := lt_of_lt_of_le (by norm_num) s2
  obtain ⟨ga, a1, a2, a3⟩ := hgap3 a hap'
  obtain ⟨gb, c1, c2, c3⟩ := hgap3 b (by linarith)
  rw [a1] at s6
  rw [c1] at s7
  cases s6
  cases s7
  have t : b - a ≤ 1 / 10 ^ 10 := by
    refine s10.trans (max_le le_rfl ?_)
    refine (div_le_div_of_nonneg_right b2 (by positivity)).trans ?_
    norm_num
  have a4 := (abs_le.1 a3).1
  have c4 := (abs_le.1 c3).2
  rw [abs_le]
  norm_num at t a4 c4 s8 s9 ha0 ⊢
  constructor <;> linarith

/-- **C74.** One pillar: the calibration succeeds and recovers the market parameters. -/
theorem C74_single {T beta f0 : ℝ} {m : Sabr} (h0 : 1 / 10 ^ 3 ≤ T) (hT : T ≤ 100)
    (ha0 : 1 / 10 ^ 3 ≤ m.alpha) (ha1 : m.alpha ≤ 100) (hn0 : 0.05 ≤ m.nu) (hn1 : m.nu ≤ 10)
    (hr : |m.rho| ≤ 0.998) (hb0 : 0 ≤ beta) (hb1 : beta ≤ 1) (hf : 0 < f0) :
    ∃ nu al rho, tdStages [(T, m)] beta f0 = .ok ⟨⟨[0, T], [al]⟩, ⟨[0, T], [rho]⟩, ⟨[0, T], [nu]⟩, beta, f0⟩ ∧
      |nu - m.nu| ≤ 1 / 10 ^ 5 ∧ |al - m.alpha| ≤ 1 / 10 ^ 5 * m.alpha ∧ |rho - m.rho| ≤ 1 / 10 ^ 4 := by
  have hT0 : 0 < T := lt_of_lt_of_le (by norm_num) h0
  have hap : 0 < m.alpha := lt_of_lt_of_le (by norm_num) ha0
  have hE : EndsAt [0, T] T := ⟨by simp, rfl, by simpa using hT0, rfl⟩
  obtain ⟨nu, hnu, hnu1⟩ := single_nu h0 hT ha0 hn0 hn1
  have hnu2 := abs_le.1 hnu1
  have hnp : 0.049 ≤ nu := by norm_num at hnu2 hn0 ⊢; linarith
  have hnq : nu ≤ 20 := by norm_num at hnu2 hn0 ⊢; linarith
  have hnn : 0 < nu := lt_of_lt_of_le (by norm_num) hnp
  obtain ⟨al, hal, hal1⟩ := single_alpha h0 hT ha0 ha1 hnn hnq
  have hal2 := abs_le.1 hal1
  have halp : 0 < al := by norm_num at hal2; linarith
  -- stage 4
  obtain ⟨g, w, k1, k2, k3, k4, k5, k6⟩ := oneSeg h0 hT hnn.le hnq halp
  have hs : 1 / 10 ^ 15 < |(T - 0) * nu / al| := by
    have : 0 < (T - 0) * nu / al := by rw [sub_zero]; positivity
    rw [abs_of_pos this, lt_div_iff₀ halp, sub_zero]
    have h1 : (1 / 10 ^ 3 : ℝ) * 0.049 ≤ T * nu := mul_le_mul h0 hnp (by norm_num) hT0.le
    have h2 : al ≤ 200 := by norm_num at hal2; linarith
    norm_num at h1 ⊢
    linarith
  set raw := (m.rho * g * T / w - 0) / ((T - 0) * nu / al) with hraw
  have hrw : raw = m.rho * ((g / nu) * (al / w)) := by
    rw [hraw, sub_zero, sub_zero]
    field_simp
  have hq1 : |g / nu - 1| ≤ 3 / 10 ^ 5 := by
    rw [div_sub_one hnn.ne', abs_div, abs_of_pos hnn, div_le_iff₀ hnn, abs_le]
    have := abs_le.1 k5
    norm_num at this hnp ⊢
    constructor <;> nlinarith
  have hq2 : |al / w - 1| ≤ 3 / 10 ^ 6 := by
    rw [div_sub_one k4.ne', abs_div, abs_of_pos k4, div_le_iff₀ k4, abs_le]
    have := abs_le.1 k6
    norm_num at this ⊢
    constructor <;> linarith
  have hraw1 : |raw - m.rho| ≤ 1 / 10 ^ 4 := by
    have e : raw - m.rho = m.rho * (g / nu * (al / w) - 1) := by rw [hrw]; ring
    have e2 : |g / nu * (al / w) - 1| ≤ 1 / 10 ^ 4 := by
      have : g / nu * (al / w) - 1 = (g / nu - 1) * (al / w - 1) + (g / nu - 1) + (al / w - 1) := by ring
      rw [this]
      have h3 : |(g / nu - 1) * (al / w - 1)| ≤ 3 / 10 ^ 5 * (3 / 10 ^ 6) := by
        rw [abs_mul]
        exact mul_le_mul hq1 hq2 (abs_nonneg _) (by norm_num)
      refine (abs_add_three _ _ _).trans ?_
      norm_num at h3 hq1 hq2 ⊢
      linarith
    rw [e, abs_mul]
    have h3 : |m.rho| ≤ 1 := hr.trans (by norm_num)
    have := mul_le_mul h3 e2 (abs_nonneg _) zero_le_one
    linarith
  have hcl : max (-0.999) (min raw 0.999) = raw := by
    have h1 := abs_le.1 hraw1
    have h2 := abs_le.1 hr
    norm_num at h1 h2
    rw [min_eq_left (by norm_num; linarith), max_eq_right (by norm_num; linarith)]
  refine ⟨nu, al, raw, ?_, hnu1.trans (by norm_num), hal1.trans (by
    refine mul_le_mul_of_nonneg_right (by norm_num) hap.le), hraw1⟩
  unfold tdStages
  simp only [growNu, growAlpha, growRho, List.map_cons, List.map_nil, List.nil_append, List.cons_append,
    List.length_nil, zero_add]
  rw [hnu]
  simp only [ok_bind]
  rw [hE.new (by simp)]
  simp only [ok_bind, List.take_succ_cons, List.take_zero]
  rw [hal]
  simp only [ok_bind]
  rw [hE.new (by simp)]
  simp only [ok_bind]
  rw [hE.new (by simp)]
  simp only [ok_bind, List.take_succ_cons, List.take_zero]
  rw [hE.new (by simp)]
  simp only [ok_bind]
  rw [k1, k2]
  simp only [ok_bind, List.getElem?_cons_zero, unwrap]
  rw [if_pos hs, ← hraw, hcl]
  simp only [ok_bind]
  rw [hE.new (by simp), ok_bind]
  unfold TdSabr.new
  have hrb : -1 < raw ∧ raw < 1 := by
    have h1 := abs_le.1 hraw1
    have h2 := abs_le.1 hr
    norm_num at h1 h2
    constructor <;> linarith
  rw [if_pos rfl, if_pos rfl, if_pos ⟨hb0, hb1⟩, if_pos hf, if_pos (by simpa using halp),
    if_pos (by simpa using hnn.le), if_pos (by simpa using hrb)]
/-- The hypotheses of the theorems on the stages hold for one pillar at one year. -/
example : ∃ p, tdStages [(1, ⟨1 / 2, 1 / 2, -0.3, 1 / 2⟩)] (1 / 2) 1 = .ok p ∧
    growNu [0] [] [(1, ⟨1 / 2, 1 / 2, -0.3, 1 / 2⟩)] = .ok p.nu.values ∧
    growAlpha p.nu.values [0] [] [(1, ⟨1 / 2, 1 / 2, -0.3, 1 / 2⟩)] = .ok p.alpha.values ∧
    ∃ g, effectiveVolVol ⟨p.nu.knots.take 2, p.nu.values.take 1⟩ ⟨p.nu.knots.take 2, p.alpha.values.take 1⟩ 1 = .ok g ∧
      1 / 10 ^ 15 ≤ g ∧ ∀ r ∈ p.rho.values.take 1, |r| < 0.999 := by
  obtain ⟨nu, al, rho, h, h1, h2, h3⟩ := C74_single (T := 1) (beta := 1 / 2) (f0 := 1)
    (m := ⟨1 / 2, 1 / 2, -0.3, 1 / 2⟩) (by norm_num) (by norm_num) (by norm_num) (by norm_num) (by norm_num)
    (by norm_num) (by norm_num) (by norm_num) (by norm_num) one_pos
  obtain ⟨k1, k2, -⟩ := tdStages_parts h
  have b1 := abs_le.1 h1
  have b2 := abs_le.1 h2
  have b3 := abs_le.1 h3
  norm_num at b1 b2 b3
  obtain ⟨g, w, g1, g2, g3, g4, g5, -⟩ := oneSeg (T := 1) (x := nu) (a := al) (by norm_num) (by norm_num)
    (by linarith) (by linarith) (by linarith)
  refine ⟨_, h, k1, k2, g, g1, ?_, ?_⟩
  · have := abs_le.1 g5
    norm_num at this ⊢
    nlinarith
  · intro r hr
    have : r = rho := by simpa using hr
    rw [this, abs_lt]
    norm_num
    constructor <;> linarith

/-! ## The whole calibration -/

/-- The root mean square of the differences between two lists of numbers. -/
noncomputable def rmsDiff (ws vs : List ℝ) : ℝ :=
  √((List.zipWith (fun w v => (w - v) ^ 2) ws vs).sum / vs.length)

theorem rmsDiff_three (g w r a b c : ℝ) : rmsDiff [g, w, r] [a, b, c] =
    √(((g - a) * (g - a) + (w - b) * (w - b) + (r - c) * (r - c)) / 3) := by
  unfold rmsDiff
  congr 1
  simp only [List.zipWith_cons_cons, List.zipWith_nil_left, List.sum_cons, List.sum_nil, List.length_cons,
    List.length_nil]
  push_cast
  ring

/-- **C74.** The whole calibration.  A result exists only for increasing positive expiries, positive
forwards and strikes, as many volatilities as strikes, an exponent in `[0, 1]` and a positive initial
forward.  The schedules come from stages 2 to 4 on the fits of stage 1.  Each fit is admissible, keeps
the exponent, is the SABR calibration from the seed with the middle volatility, and the reported
stage-1 error is the root mean square distance of its smile from the quotes.  The reported post-fit
error is the root mean square distance of the effective parameters from the fit. -/
theorem C74_calibrate {ps : List PillarTarget} {beta f0 : ℝ} {o : NmOptions} {res : TdFit}
    (h : tdCalibrate ps beta f0 o = .ok res) :
    ps ≠ [] ∧ (0 :: ps.map (·.expiry)).IsChain (· < ·) ∧ 0 ≤ beta ∧ beta ≤ 1 ∧ 0 < f0 ∧
    res.params.nu.knots = 0 :: ps.map (·.expiry) ∧ res.params.alpha.knots = 0 :: ps.map (·.expiry) ∧
    res.params.rho.knots = 0 :: ps.map (·.expiry) ∧ res.params.beta = beta ∧ res.params.forward0 = f0 ∧
    res.perPillar.length = ps.length ∧
    ∃ market : List Sabr, market.length = ps.length ∧
      tdStages ((ps.map (·.expiry)).zip market) beta f0 = .ok res.params ∧
      ∀ (i : ℕ) (q : PillarTarget), ps[i]? = some q →
        0 < q.forward ∧ 0 < q.expiry ∧ q.strikes.length = q.vols.length ∧ q.vols ≠ [] ∧ (∀ k ∈ q.strikes, 0 < k) ∧
        ∃ d v fit ws g w r, res.perPillar[i]? = some d ∧ market[i]? = some d.market ∧ d.expiry = q.expiry ∧
          q.vols[q.vols.length / 2]? = some v ∧ 0 < v ∧
          sabrCalibrate ⟨v, beta, -0.2, 0.3⟩ q.forward
            (List.zipWith (fun k u => ⟨k, u⟩) q.strikes q.vols) q.expiry o = .ok fit ∧ fit.params = d.market ∧
          d.market.beta = beta ∧ 0 < d.market.alpha ∧ |d.market.rho| < 1 ∧ 0 < d.market.nu ∧
          sabrImpliedVols d.market q.forward q.expiry q.strikes = .ok ws ∧ d.stage1Rmse = rmsDiff ws q.vols ∧
          effectiveVolVol ⟨res.params.nu.knots.take (i + 2), res.params.nu.values.take (i + 1)⟩
            ⟨res.params.nu.knots.take (i + 2), res.params.alpha.values.take (i + 1)⟩ q.expiry = .ok g ∧
          effectiveTermStructure ⟨res.params.nu.knots.take (i + 2), res.params.nu.values.take (i + 1)⟩
            ⟨res.params.nu.knots.take (i + 2), res.params.alpha.values.take (i + 1)⟩ q.expiry = .ok w ∧
          effectiveCorrelation ⟨res.params.nu.knots.take (i + 2), res.params.nu.values.take (i + 1)⟩
            ⟨res.params.nu.knots.take (i + 2), res.params.alpha.values.take (i + 1)⟩
            ⟨res.params.nu.knots.take (i + 2), res.params.rho.values.take (i + 1)⟩ q.expiry = .ok r ∧
          d.postFitRmse = rmsDiff [g, w, r] [d.market.nu, d.market.alpha, d.market.rho] := by
  unfold tdCalibrate at h
  split_ifs at h with hc
  obtain ⟨market, h1, h⟩ := bind_eq_ok.1 h
  obtain ⟨rmses, h2, h⟩ := bind_eq_ok.1 h
  obtain ⟨params, h3, h⟩ := bind_eq_ok.1 h
  obtain ⟨diags, h4, h⟩ := bind_eq_ok.1 h
  cases h
  obtain ⟨l1, s1⟩ := tdMarkets_spec h1
  obtain ⟨l2, s2⟩ := tdStage1_spec h2
  obtain ⟨l4, s4⟩ := tdDiags_spec params h4
  obtain ⟨-, -, -, k1, k2, k3, k4, k5, k6, -, k8, k9, k10, -⟩ := tdStages_parts h3
  have em : ((ps.map (·.expiry)).zip market).map Prod.fst = ps.map (·.expiry) := by
    rw [List.map_fst_zip (by simp [l1])]
  rw [em] at k1 k2 k3 k6
  refine ⟨hc.1, k6, k8, k9, k10, k1, k2, k3, k4, k5, by simpa [l1, l2] using l4, market, l1, h3, fun i q hq => ?_⟩
  obtain ⟨m, m1, m2⟩ := s1 i q hq
  have hz : (ps.zip market)[i]? = some (q, m) := by rw [List.getElem?_zip_eq_some]; exact ⟨hq, m1⟩
  obtain ⟨e, e1, e2⟩ := s2 i _ hz
  have hz2 : ((ps.zip market).zip rmses)[i]? = some ((q, m), e) := by
    rw [List.getElem?_zip_eq_some]; exact ⟨hz, e1⟩
  obtain ⟨d, d1, d2⟩ := s4 i _ hz2
  rw [zero_add] at d2
  unfold tdMarket at m2
  obtain ⟨v, v1, m2⟩ := bind_eq_ok.1 m2
  obtain ⟨seed, v2, m2⟩ := bind_eq_ok.1 m2
  obtain ⟨targets, v3, m2⟩ := bind_eq_ok.1 m2
  obtain ⟨fit, v4, m2⟩ := bind_eq_ok.1 m2
  cases m2
  have hv : q.vols[q.vols.length / 2]? = some v := by
    cases hx : q.vols[q.vols.length / 2]? with
    | none => rw [hx] at v1; simp [unwrap] at v1
    | some u => rw [hx] at v1; simp [unwrap] at v1; rw [v1]
  unfold Sabr.new at v2
  split_ifs at v2 with w1 w2 w3 w4
  cases v2
  unfold targetsFromGrid at v3
  split_ifs at v3 with w5
  cases v3
  have hne : q.vols ≠ [] := by
    intro h0
    rw [h0] at hv
    simp at hv
  have et : (q.strikes.zip q.vols).map (fun q => (⟨q.1, q.2⟩ : SmileTarget)) =
      List.zipWith (fun k u => ⟨k, u⟩) q.strikes q.vols := by
    simp [List.zip, List.map_zipWith]
  have v4' := v4
  unfold sabrCalibrate at v4'
  split_ifs at v4' with w6
  unfold tdStage1Rmse at e2
  obtain ⟨ss, z1, e2⟩ := bind_eq_ok.1 e2
  cases e2
  obtain ⟨ws, z2, z3, z4, z5⟩ := tdSumSq_spec _ _ _ w5 z1
  obtain ⟨fit', vs', ws', f1, -, -, -, f5, f6, f7, f8, -⟩ := C64_sabr ⟨v, beta, -0.2, 0.3⟩ w6.1 w6.2.1 w6.2.2 (by
    intro t ht
    obtain ⟨x, hx, rfl⟩ := List.mem_map.1 ht
    exact z5 _ (List.of_mem_zip hx).1) o
  rw [v4] at f1
  cases f1
  unfold tdDiag at d2
  obtain ⟨a1, b1, d2⟩ := bind_eq_ok.1 d2
  obtain ⟨a2, b2, d2⟩ := bind_eq_ok.1 d2
  obtain ⟨a3, b3, d2⟩ := bind_eq_ok.1 d2
  rw [(new_ok_iff.1 b1).2.2.2.2, (new_ok_iff.1 b2).2.2.2.2, (new_ok_iff.1 b3).2.2.2.2, k2, ← k1] at d2
  obtain ⟨g, g1, d2⟩ := bind_eq_ok.1 d2
  obtain ⟨w, g2, d2⟩ := bind_eq_ok.1 d2
  obtain ⟨r, g3, d2⟩ := bind_eq_ok.1 d2
  cases d2
  refine ⟨w6.1, w6.2.1, w5, hne, z5, _, v, fit, ws, g, w, r, d1, m1, rfl, hv, w1, by rw [← et]; exact v4, rfl, f6, f5, f7,
    f8, z2, ?_, g1, g2, g3, ?_⟩
  · unfold rmsDiff
    rw [z4, zero_add, w5]
  · rw [rmsDiff_three]

/-- **C74.** Without pillars, and with expiries out of order, the calibration panics. -/
theorem C74_panics (ps : List PillarTarget) (beta f0 : ℝ) (o : NmOptions)
    (h : ps = [] ∨ ¬ (ps.map (·.expiry)).IsChain (· < ·)) : tdCalibrate ps beta f0 o = .panic := by
  unfold tdCalibrate
  rw [if_neg]
  rintro ⟨h1, h2⟩
  rcases h with h | h
  · exact h1 h
  · exact h h2

example (o : NmOptions) : tdCalibrate [⟨2, 1, [1], [0.1]⟩, ⟨1, 1, [1], [0.1]⟩] 0.5 1 o = .panic :=
  C74_panics _ _ _ _ (.inr (by norm_num))

theorem foldl_max_spec : ∀ (l : List ℝ) (a : ℝ), a ≤ l.foldl max a ∧ (∀ x ∈ l, x ≤ l.foldl max a) ∧
    (l.foldl max a = a ∨ l.foldl max a ∈ l)
  | [], a => by simp
  | x :: l, a => by
    obtain ⟨h1, h2, h3⟩ := foldl_max_spec l (max a x)
    rw [List.foldl_cons]
    refine ⟨(le_max_left _ _).trans h1, fun y hy => ?_, ?_⟩
    · rcases List.mem_cons.1 hy with rfl | hy
      · exact (le_max_right _ _).trans h1
      · exact h2 y hy
    · rcases h3 with h3 | h3
      · rw [h3]
        rcases max_choice a x with h | h
        · exact .inl h
        · exact .inr (by rw [h]; simp)
      · exact .inr (List.mem_cons_of_mem _ h3)

/-- **C74.** The surface calibrator: the schedules of the calibration, no optimiser, and the largest
stage-1 error of a pillar as the error. -/
theorem C74_surface {beta f0 : ℝ} {strips : List SmileStrip} {o : NmOptions} {rep : FitReport TdSabr 3}
    (h : tdSurfaceCalibrate beta f0 strips o = .ok rep) :
    ∃ res, tdCalibrate (strips.map SmileStrip.pillar) beta f0 o = .ok res ∧ rep.params = res.params ∧
      rep.optimiser = none ∧ (∀ d ∈ res.perPillar, d.stage1Rmse ≤ rep.rmse) ∧
      ∃ d ∈ res.perPillar, d.stage1Rmse = rep.rmse := by
  unfold tdSurfaceCalibrate at h
  obtain ⟨res, h1, h⟩ := bind_eq_ok.1 h
  cases h
  obtain ⟨m1, m2, m3⟩ := foldl_max_spec (res.perPillar.map (·.stage1Rmse)) 0
  refine ⟨res, h1, rfl, rfl, fun d hd => m2 _ (List.mem_map_of_mem hd), ?_⟩
  rcases m3 with m3 | m3
  · obtain ⟨hne, -, -, -, -, -, -, -, -, -, hl, _, -, -, hs⟩ := C74_calibrate h1
    have hpos : 0 < (strips.map SmileStrip.pillar).length := List.length_pos_iff.2 hne
    obtain ⟨-, -, -, -, -, d, v, fit, ws, g, w, r, d1, -, -, -, -, -, -, -, -, -, -, -, d2, -⟩ :=
      hs 0 _ (List.getElem?_eq_getElem hpos)
    have hd : d ∈ res.perPillar := List.mem_of_getElem? d1
    have h0 : 0 ≤ d.stage1Rmse := by rw [d2]; exact Real.sqrt_nonneg _
    have h2 := m2 _ (List.mem_map_of_mem (f := (·.stage1Rmse)) hd)
    exact ⟨d, hd, by rw [m3] at h2 ⊢; exact le_antisymm h2 h0⟩
  · obtain ⟨d, hd, e⟩ := List.mem_map.1 m3
    exact ⟨d, hd, e⟩

theorem growRho_step {nus als ks rhos : List ℝ} {prev tail T nu al g w : ℝ} {m : Sabr} {rest : List (ℝ × Sabr)}
    (hE : EndsAt (ks ++ [T]) T) (h1 : (nus.take (rhos.length + 1)).length + 1 = (ks ++ [T]).length)
    (h2 : (als.take (rhos.length + 1)).length + 1 = (ks ++ [T]).length)
    (hg : effectiveVolVol ⟨ks ++ [T], nus.take (rhos.length + 1)⟩ ⟨ks ++ [T], als.take (rhos.length + 1)⟩ T = .ok g)
    (hw : effectiveTermStructure ⟨ks ++ [T], nus.take (rhos.length + 1)⟩ ⟨ks ++ [T], als.take (rhos.length + 1)⟩ T = .ok w)
    (hn : nus[rhos.length]? = some nu) (ha : als[rhos.length]? = some al) (hs : 1 / 10 ^ 15 < |(T - prev) * nu / al|) :
    growRho nus als ks prev rhos tail ((T, m) :: rest) = growRho nus als (ks ++ [T]) T
      (rhos ++ [max (-0.999) (min ((m.rho * g * T / w - tail) / ((T - prev) * nu / al)) 0.999)])
      (tail + (m.rho * g * T / w - tail) / ((T - prev) * nu / al) * ((T - prev) * nu / al)) rest := by
  rw [growRho, hE.new h1, ok_bind, hE.new h2, ok_bind, hg, ok_bind, hw, ok_bind, hn, ha]
  simp only [unwrap, ok_bind]
  rw [if_pos hs]

theorem unit_ratio {g w : ℝ} (h0 : 0 ≤ g) (hw : 0 < w) (h1 : |g ^ 2 - 1 ^ 2| ≤ 1.1 / 10 ^ 7)
    (h2 : |w - 1| ≤ 2 / 10 ^ 6 * 1) : |g / w - 1| ≤ 1 / 10 ^ 5 := by
  rw [div_sub_one hw.ne', abs_div, abs_of_pos hw, div_le_iff₀ hw, abs_le]
  obtain ⟨a1, a2⟩ := abs_le.1 h1
  obtain ⟨b1, b2⟩ := abs_le.1 h2
  norm_num at a1 a2 b1 b2 ⊢
  constructor <;> nlinarith

/-- **C74.** "A hard clamp … is benign" (comment at lines 243-247) is false beyond the clamped pillar:
the running sum keeps the unclamped value.  With vol-vol and term structure `1` on three one-year
segments and targets `-0.5, 0.5, 0.5` the second correlation is clamped from `1.5` to `0.999`; the
third, `0.5`, is well inside the bounds, but the effective correlation at the third pillar is below `0.35`
instead of `0.5`. -/
theorem C74_clamp_false : ∃ r₁ r₂ r₃ r, growRho [1, 1, 1] [1, 1, 1] [0] 0 [] 0
      [(1, ⟨1, 1 / 2, -0.5, 1⟩), (2, ⟨1, 1 / 2, 0.5, 1⟩), (3, ⟨1, 1 / 2, 0.5, 1⟩)] = .ok [r₁, r₂, r₃] ∧
    r₂ = 0.999 ∧ |r₃ - 0.5| ≤ 1 / 10 ^ 3 ∧
    effectiveCorrelation ⟨[0, 1, 2, 3], [1, 1, 1]⟩ ⟨[0, 1, 2, 3], [1, 1, 1]⟩ ⟨[0, 1, 2, 3], [r₁, r₂, r₃]⟩ 3 =
      .ok r ∧ r < 0.35 := by
  have E1 : EndsAt [0, 1] 1 := ⟨by simp, rfl, by norm_num, rfl⟩
  have E2 : EndsAt [0, 1, 2] 2 := ⟨by simp, rfl, by norm_num, rfl⟩
  have E3 : EndsAt [0, 1, 2, 3] 3 := ⟨by simp, rfl, by norm_num, rfl⟩
  have S1 : IsSchedule [0, 1] [1] fun _ => 1 := ⟨rfl, E1.chain, rfl, by simp [StepOn]⟩
  have S2 : IsSchedule [0, 1, 2] [1, 1] fun _ => 1 := ⟨rfl, E2.chain, rfl, by simp [StepOn]⟩
  have S3 : IsSchedule [0, 1, 2, 3] [1, 1, 1] fun _ => 1 := ⟨rfl, E3.chain, rfl, by simp [StepOn]⟩
  obtain ⟨g₁, w₁, a1, a2, a3, a4, a5, a6⟩ := constSeg E1 S1 S1 (by norm_num) (by norm_num) zero_le_one (by norm_num) one_pos
  obtain ⟨g₂, w₂, b1, b2, b3, b4, b5, b6⟩ := constSeg E2 S2 S2 (by norm_num) (by norm_num) zero_le_one (by norm_num) one_pos
  obtain ⟨g₃, w₃, c1, c2, c3, c4, c5, c6⟩ := constSeg E3 S3 S3 (by norm_num) (by norm_num) zero_le_one (by norm_num) one_pos
  have q1 := abs_le.1 (unit_ratio a3 a4 a5 a6)
  have q2 := abs_le.1 (unit_ratio b3 b4 b5 b6)
  have q3 := abs_le.1 (unit_ratio c3 c4 c5 c6)
  set x₁ := g₁ / w₁ with hx1
  set x₂ := g₂ / w₂ with hx2
  set x₃ := g₃ / w₃ with hx3
  norm_num at q1 q2 q3
  have d1 : -0.5 * g₁ / w₁ = -(x₁ / 2) := by rw [hx1]; ring
  have d2 : 0.5 * g₂ * 2 / w₂ = x₂ := by rw [hx2]; ring
  have d3 : 0.5 * g₃ * 3 / w₃ = 3 / 2 * x₃ := by rw [hx3]; ring
  have n1 : max (-0.999) (min (-(x₁ / 2)) 0.999) = -(x₁ / 2) := by
    rw [min_eq_left (by norm_num; linarith), max_eq_right (by norm_num; linarith)]
  have n2 : max (-0.999) (min (x₂ - -(x₁ / 2)) 0.999) = 0.999 := by
    rw [min_eq_right (by norm_num; linarith), max_eq_right (by norm_num)]
  have n3 : max (-0.999) (min (3 / 2 * x₃ - x₂) 0.999) = 3 / 2 * x₃ - x₂ := by
    rw [min_eq_left (by norm_num; linarith), max_eq_right (by norm_num; linarith)]
  have hlt : (1 : ℝ) / 10 ^ 15 < |1| := by norm_num
  refine ⟨-(x₁ / 2), 0.999, 3 / 2 * x₃ - x₂, w₃ / (g₃ * 3) * (-(x₁ / 2) + 0.999 + (3 / 2 * x₃ - x₂)), ?_, rfl, ?_, ?_, ?_⟩
  · rw [growRho_step (nu := 1) (al := 1) E1 rfl rfl a1 a2 rfl rfl (by norm_num)]
    simp only [sub_zero, mul_one, div_one, zero_add, List.nil_append]
    rw [d1, n1, growRho_step (nu := 1) (al := 1) E2 rfl rfl b1 b2 rfl rfl (by norm_num)]
    rw [show ((2 : ℝ) - 1) * 1 / 1 = 1 by norm_num, mul_one, div_one, d2, n2,
      show -(x₁ / 2) + (x₂ - -(x₁ / 2)) = x₂ by ring,
      growRho_step (nu := 1) (al := 1) E3 rfl rfl c1 c2 rfl rfl (by norm_num)]
    rw [show ((3 : ℝ) - 2) * 1 / 1 = 1 by norm_num, mul_one, div_one, d3, n3]
    rfl
  · rw [abs_le]
    norm_num
    constructor <;> linarith
  · unfold effectiveCorrelation
    rw [if_pos rfl, (E3.segs S3 S3).1, ok_bind]
    rw [show mkSegs [0, 1, 2, 3] [1, 1, 1] [1, 1, 1] = [⟨1, 1, 1⟩, ⟨1, 1, 1⟩, ⟨1, 1, 1⟩] by norm_num [mkSegs]]
    simp only [List.length_cons, List.length_nil, le_refl, if_true, List.take_succ_cons, List.take_zero,
      corrIntegral, if_pos hlt, ok_bind, c1, c2]
    have hg : ¬ |g₃| < 1 / 10 ^ 15 := by
      rw [abs_of_nonneg c3]
      have := abs_le.1 c5
      norm_num at this ⊢
      nlinarith
    rw [if_neg hg]
    refine congrArg Outcome.ok ?_
    ring
  · have hx0 : 0 < x₃ := by linarith
    have : w₃ / (g₃ * 3) = 1 / (3 * x₃) := by
      rw [hx3]
      have : g₃ ≠ 0 := by
        intro h0
        rw [hx3, h0, zero_div] at hx0
        exact lt_irrefl _ hx0
      field_simp
    rw [this, one_div, inv_mul_lt_iff₀ (by positivity)]
    norm_num
    linarith

/-- **C74.** One pillar from quotes to schedules: when the stage-1 fit is in the range of `C74_single`
the whole calibration returns, with that fit as the market parameters and schedules which recover it. -/
theorem C74_single_run {q : PillarTarget} {beta f0 v : ℝ} {o : NmOptions} {fit : SmileFit Sabr 3}
    (hv : q.vols[q.vols.length / 2]? = some v) (hv0 : 0 < v) (hl : q.strikes.length = q.vols.length)
    (hk : ∀ k ∈ q.strikes, 0 < k) (hfw : 0 < q.forward)
    (hfit : sabrCalibrate ⟨v, beta, -0.2, 0.3⟩ q.forward
      (List.zipWith (fun k u => ⟨k, u⟩) q.strikes q.vols) q.expiry o = .ok fit)
    (h0 : 1 / 10 ^ 3 ≤ q.expiry) (hT : q.expiry ≤ 100)
    (ha0 : 1 / 10 ^ 3 ≤ fit.params.alpha) (ha1 : fit.params.alpha ≤ 100) (hn0 : 0.05 ≤ fit.params.nu)
    (hn1 : fit.params.nu ≤ 10) (hr : |fit.params.rho| ≤ 0.998) (hb0 : 0 ≤ beta) (hb1 : beta ≤ 1) (hf : 0 < f0) :
    ∃ nu al rho d, tdCalibrate [q] beta f0 o =
        .ok ⟨⟨⟨[0, q.expiry], [al]⟩, ⟨[0, q.expiry], [rho]⟩, ⟨[0, q.expiry], [nu]⟩, beta, f0⟩, [d]⟩ ∧
      d.market = fit.params ∧ |nu - fit.params.nu| ≤ 1 / 10 ^ 5 ∧
      |al - fit.params.alpha| ≤ 1 / 10 ^ 5 * fit.params.alpha ∧ |rho - fit.params.rho| ≤ 1 / 10 ^ 4 := by
  have hT0 : 0 < q.expiry := lt_of_lt_of_le (by norm_num) h0
  obtain ⟨nu, al, rho, s1, s2, s3, s4⟩ := C74_single (m := fit.params) h0 hT ha0 ha1 hn0 hn1 hr hb0 hb1 hf
  have et : (q.strikes.zip q.vols).map (fun q => (⟨q.1, q.2⟩ : SmileTarget)) =
      List.zipWith (fun k u => ⟨k, u⟩) q.strikes q.vols := by
    simp [List.zip, List.map_zipWith]
  have hm : tdMarket beta o q = .ok fit.params := by
    unfold tdMarket
    rw [hv]
    simp only [unwrap, ok_bind]
    rw [Sabr.new, if_pos hv0, if_pos ⟨hb0, hb1⟩, if_pos (by norm_num), if_pos (by norm_num), ok_bind,
      targetsFromGrid, if_pos hl, ok_bind, et, hfit, ok_bind]
  have hsum : ∀ (ss : ℝ) (l : List (ℝ × ℝ)), (∀ x ∈ l, 0 < x.1) →
      ∃ r, tdSumSq fit.params q.forward q.expiry ss l = .ok r := by
    intro ss l
    induction l generalizing ss with
    | nil => exact fun _ => ⟨ss, rfl⟩
    | cons x l ih =>
      intro hx
      obtain ⟨k, u⟩ := x
      rw [tdSumSq, haganVol, if_pos ⟨hfw, hx (k, u) (by simp), hT0⟩, ok_bind]
      exact ih _ fun y hy => hx y (List.mem_cons_of_mem _ hy)
  obtain ⟨ss, hss⟩ := hsum 0 (q.strikes.zip q.vols) fun x hx => hk _ (List.of_mem_zip hx).1
  have hnb := abs_le.1 s2
  have hab := abs_le.1 s3
  have hnp : 0.049 ≤ nu := by norm_num at hnb hn0 ⊢; linarith
  have hnq : nu ≤ 20 := by norm_num at hnb ⊢; linarith
  have halp : 1 / 10 ^ 15 < al := by norm_num at hab ha0 ⊢; linarith
  have hal0 : 0 < al := lt_trans (by norm_num) halp
  obtain ⟨g, w, g1, g2, g3, g4, g5, g6⟩ := oneSeg h0 hT (le_trans (by norm_num) hnp) hnq hal0
  have hE : EndsAt [0, q.expiry] q.expiry := ⟨by simp, rfl, by simpa using hT0, rfl⟩
  have hs : ∀ c : ℝ, IsSchedule [0, q.expiry] [c] fun _ => c :=
    fun c => ⟨rfl, by simpa using hT0, rfl, by simp [StepOn]⟩
  obtain ⟨r, r1, -⟩ := C60_correlation (hs nu) (hs al) (hs rho) hE.expiry (by
    intro o ho
    rw [List.mem_singleton] at ho
    rw [ho]
    exact halp.trans_le (le_abs_self _)) g1 g2 (by
    have := abs_le.1 g5
    norm_num at this hnp ⊢
    nlinarith) g4
  refine ⟨nu, al, rho, ⟨q.expiry, fit.params, √(ss / q.strikes.length), √(((g - fit.params.nu) * (g - fit.params.nu) +
    (w - fit.params.alpha) * (w - fit.params.alpha) + (r - fit.params.rho) * (r - fit.params.rho)) / 3)⟩, ?_, rfl,
    s2, s3, s4⟩
  · unfold tdCalibrate
    rw [if_pos (by simp)]
    simp only [tdMarkets, hm, ok_bind, List.zip_cons_cons, List.zip_nil_left, List.map_cons, List.map_nil]
    unfold tdStage1 tdStage1Rmse
    rw [hss]
    simp only [tdStage1, ok_bind]
    rw [s1]
    simp only [ok_bind, tdDiags, tdDiag, List.zip_cons_cons, List.zip_nil_left, zero_add, List.take_succ_cons,
      List.take_zero]
    rw [hE.new (by simp), hE.new (by simp), hE.new (by simp)]
    simp only [ok_bind]
    rw [g1, g2, r1]
    simp only [ok_bind]

theorem nm_zero {n : ℕ} {f : (Fin n → ℝ) → Option ℝ} {x0 : Fin n → ℝ} {m : NmResult n}
    (hx : ∀ i, 1 / 10 ^ 12 < |x0 i|) (h : nelderMead f x0 ⟨0, 0, 0, 0⟩ = .ok m) : m.x = x0 := by
  have hv : ∀ b, nmVertices ⟨0, 0, 0, 0⟩ x0 b = x0 := by
    intro b
    unfold nmVertices
    refine Fin.cases rfl (fun i => ?_) b
    simp only [Fin.cases_succ]
    rw [nmDelta, if_pos (hx i), zero_mul, add_zero, Function.update_eq_self]
  unfold nelderMead at h
  split_ifs at h
  rw [nmLoop, ok_bind] at h
  simp only at h
  split at h
  · exact absurd h (by simp)
  · cases h
    exact hv _

/-- The hypotheses of the theorems above hold: with a flat quote of one half, one year and an
optimiser that stops at once, the whole calibration returns. -/
example : ∃ res, tdCalibrate [⟨1, 1, [1], [1 / 2]⟩] (1 / 2) 1 ⟨0, 0, 0, 0⟩ = .ok res ∧
    res.params.nu.knots = [0, 1] ∧ ∃ fit : Sabr, fit = ⟨1 / 2, 1 / 2, -0.2, 0.3⟩ ∧
      ∃ nu, res.params.nu.values = [nu] ∧ |nu - fit.nu| ≤ 1 / 10 ^ 5 := by
  obtain ⟨fit, vs, ws, h1, -⟩ := C64_sabr ⟨1 / 2, 1 / 2, -0.2, 0.3⟩ (f := 1) (T := 1) one_pos one_pos
    (targets := [⟨1, 1 / 2⟩]) (by simp) (by simp) ⟨0, 0, 0, 0⟩
  have hp : fit.params = ⟨1 / 2, 1 / 2, -0.2, 0.3⟩ := by
    have h := h1
    unfold sabrCalibrate at h
    rw [if_pos (by norm_num), sabrStart] at h
    rw [show max ((1 : ℝ) / 2) (1 / 10 ^ 8) = 1 / 2 by norm_num, show max (0.3 : ℝ) (1 / 10 ^ 8) = 0.3 by norm_num] at h
    rw [invSoftplus, if_pos (by norm_num), if_neg (by norm_num), ok_bind, invSoftplus, if_pos (by norm_num),
      if_neg (by norm_num), ok_bind, ok_bind] at h
    obtain ⟨m, k1, k2⟩ := bind_eq_ok.1 h
    have hlog : ∀ y : ℝ, 0 < y → y ≤ 1 / 2 → Real.log (Real.exp y - 1) ≤ -1 / 4 := by
      intro y h0 h1
      have e1 : Real.exp y ≤ Real.exp (1 / 2) := Real.exp_le_exp.2 h1
      have e2 : Real.exp (1 / 2) ≤ 1.7 := by
        have : Real.exp (1 / 2) ^ 2 = Real.exp 1 := by rw [← Real.exp_nat_mul]; norm_num
        have := Real.exp_one_lt_d9
        have := Real.exp_pos (1 / 2)
        nlinarith
      have e3 := Real.log_le_sub_one_of_pos (show 0 < Real.exp y - 1 by linarith [Real.add_one_lt_exp h0.ne'])
      norm_num at e2
      linarith
    have hx := nm_zero (by
      intro i
      fin_cases i
      · have := hlog (1 / 2) (by norm_num) le_rfl
        simp only [Fin.zero_eta, Matrix.cons_val_zero]
        rw [abs_of_nonpos (by linarith)]
        norm_num at this ⊢
        linarith
      · simp only [Fin.mk_one, Matrix.cons_val_one, Matrix.cons_val_zero]
        rw [rhoStart, Real.artanh_eq_half_log (by norm_num)]
        have := Real.log_le_sub_one_of_pos (show (0 : ℝ) < (1 + max (-(999 / 1000)) (min (-0.2) (999 / 1000))) /
          (1 - max (-(999 / 1000)) (min (-0.2) (999 / 1000))) by norm_num)
        norm_num at this ⊢
        rw [abs_of_nonpos (by linarith)]
        linarith
      · have := hlog 0.3 (by norm_num) (by norm_num)
        simp only [Fin.reduceFinMk, Matrix.cons_val]
        rw [abs_of_nonpos (by linarith)]
        norm_num at this ⊢
        linarith) k1
    cases k2
    obtain ⟨x0, y1, y2⟩ := sabrStart_spec ⟨1 / 2, 1 / 2, -0.2, 0.3⟩
    rw [sabrStart, show max ((1 : ℝ) / 2) (1 / 10 ^ 8) = 1 / 2 by norm_num,
      show max (0.3 : ℝ) (1 / 10 ^ 8) = 0.3 by norm_num, invSoftplus, if_pos (by norm_num), if_neg (by norm_num),
      ok_bind, invSoftplus, if_pos (by norm_num), if_neg (by norm_num), ok_bind] at y1
    cases y1
    simp only
    rw [hx, y2]
    simp only [Option.getD_some, sabrClip, clipTo]
    norm_num
  obtain ⟨nu, al, rho, d, r1, r2, r3, -⟩ := C74_single_run (q := ⟨1, 1, [1], [1 / 2]⟩) (beta := 1 / 2) (f0 := 1)
    (v := 1 / 2) (o := ⟨0, 0, 0, 0⟩) (fit := fit) rfl (by norm_num) rfl (by simp) one_pos h1 (by norm_num) (by norm_num)
    (by rw [hp]; norm_num) (by rw [hp]; norm_num) (by rw [hp]; norm_num) (by rw [hp]; norm_num) (by rw [hp]; norm_num)
    (by norm_num) (by norm_num) one_pos
  exact ⟨_, r1, rfl, _, rfl, nu, rfl, by rw [hp] at r3; exact r3⟩

end Verif
