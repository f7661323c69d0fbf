import Verif.Lemmas.SabrAlign

/-!
# Effective SABR parameters (C60)

The schedules are step functions of time (`IsSchedule`); the moments are integrals of those
functions (`moment1`, `moment2`).
-/

namespace Verif

open MeasureTheory Set intervalIntegral Outcome

/-- The constructor accepts every schedule, and reading it back gives the documented value: the
`k`-th value after knot `k` (by more than the slack `1e-15`) and up to knot `k + 1`. -/
theorem C60_schedule {ks vs : List ℝ} {f : ℝ → ℝ} {T : ℝ} (h : IsSchedule ks vs f) (hT : IsExpiry ks T) :
    PieceConst.new ks vs = .ok ⟨ks, vs⟩ ∧
    ∀ (i : ℕ) (hi : i + 1 < ks.length) (hv : i < vs.length) (t : ℝ),
      ks[i] + 1 / 10 ^ 15 < t → t ≤ ks[i + 1] → PieceConst.at ⟨ks, vs⟩ t = .ok vs[i] := by
  obtain ⟨h0, hch, hl, -⟩ := h
  obtain ⟨hTp, hTm, -⟩ := hT
  match ks, h0, hch, hl, hTm with
  | a :: ks', h0, hch, hl, hTm =>
    simp only [List.head?_cons, Option.some.injEq] at h0
    subst h0
    have hpw := List.isChain_iff_pairwise.1 hch
    constructor
    · unfold PieceConst.new
      have h2 : 2 ≤ (0 :: ks').length := by
        rcases List.mem_cons.1 hTm with h | h
        · exact absurd h hTp.ne'
        · have := List.length_pos_of_mem h
          simp only [List.length_cons]; omega
      rw [if_pos h2, if_pos hl, if_pos (by norm_num), if_pos hch]
    · intro i hi hv t h1 h2
      have hk : ∀ (n m : ℕ) (hm : m < (0 :: ks').length) (hnm : n < m),
          (0 :: ks')[n]'(by omega) < (0 :: ks')[m] := fun n m hm hnm =>
        List.pairwise_iff_getElem.1 hpw n m (by omega) hm hnm
      have hnn : 0 ≤ (0 :: ks')[i]'(by omega) := by
        rcases Nat.eq_zero_or_pos i with hz | hz
        · subst hz; simp
        · exact (hk 0 i (by omega) hz).le
      have hlast : (0 :: ks')[i + 1] ≤ (0 :: ks').getLastD 0 := by
        rw [show (0 :: ks').getLastD 0 = (0 :: ks')[(0 :: ks').length - 1]'(by simp) by
          simp [List.getLastD_eq_getLast?, List.getLast?_eq_getElem?]]
        rcases Nat.lt_or_ge (i + 1) ((0 :: ks').length - 1) with hlt | hge
        · exact (hk _ _ (by simp) hlt).le
        · have : i + 1 = (0 :: ks').length - 1 := by omega
          simp only [this]; exact le_rfl
      have ht0 : 0 < t := by
        have : (0 : ℝ) < 1 / 10 ^ 15 := by norm_num
        linarith
      unfold PieceConst.at PieceConst.finalTime
      rw [if_pos ⟨ht0.le, by
        have : (0 : ℝ) < 1 / 10 ^ 15 := by norm_num
        simp only; linarith⟩, if_neg (by simpa using ht0)]
      congr 1
      have hscan : ∀ (l : List ℝ) (w : List ℝ) (i : ℕ) (d : ℝ) (hi : i < l.length) (hw : i < w.length),
          (∀ j (hj : j < i), l[j] + 1 / 10 ^ 15 < t) → t ≤ l[i] →
          PieceConst.scan t d l w = w[i] := by
        intro l
        induction l with
        | nil => intro w i d hi; simp at hi
        | cons k l ih =>
          intro w i d hi hw hj ht
          match w, i, hw with
          | v :: w', 0, hw =>
            simp only [List.getElem_cons_zero] at ht ⊢
            rw [PieceConst.scan, if_pos]
            have : (0 : ℝ) < 1 / 10 ^ 15 := by norm_num
            linarith
          | v :: w', i + 1, hw =>
            have := hj 0 (by omega)
            simp only [List.getElem_cons_zero] at this
            rw [PieceConst.scan, if_neg (by linarith)]
            simp only [List.getElem_cons_succ] at ht ⊢
            apply ih
            · intro j hji
              have := hj (j + 1) (by omega)
              simpa using this
            · exact ht
      apply hscan
      · intro j hj
        have hlt : (0 :: ks')[j + 1]'(by omega) ≤ (0 :: ks')[i]'(by omega) := by
          rcases Nat.lt_or_ge (j + 1) i with hlt | hge
          · exact (hk _ _ (by omega) hlt).le
          · have : j + 1 = i := by omega
            simp only [this]; exact le_rfl
        have e : (0 :: ks').tail[j]'(by simp only [List.tail_cons]; simp only [List.length_cons] at hi; omega) =
            (0 :: ks')[j + 1]'(by omega) := by simp
        rw [e]
        linarith
      · simpa using h2
      · simpa using hi

/-- C60: a constant schedule takes its value at every time up to its end; it exists exactly for a positive
end. -/
theorem C60_constant_schedule (T v : ℝ) :
    (0 < T → ∃ p, PieceConst.constant T v = .ok p ∧ p.finalTime = T ∧ ∀ t, 0 ≤ t → t ≤ T → p.at t = .ok v) ∧
    (T ≤ 0 → PieceConst.constant T v = .panic) := by
  unfold PieceConst.constant PieceConst.new
  constructor
  · intro hT
    refine ⟨⟨[0, T], [v]⟩, ?_, rfl, fun t h0 h1 => ?_⟩
    · rw [if_pos (by simp), if_pos (by simp), if_pos (by norm_num), if_pos (by simpa using hT)]
    · have hf : (PieceConst.mk [0, T] [v]).finalTime = T := rfl
      unfold PieceConst.at
      rw [if_pos ⟨h0, by rw [hf]; linarith [show (0 : ℝ) < 1 / 10 ^ 15 by norm_num]⟩]
      split_ifs with h
      · rfl
      · simp only [List.tail_cons, PieceConst.scan]
        rw [if_pos (by linarith [show (0 : ℝ) < 1 / 10 ^ 15 by norm_num])]
  · intro hT
    rw [if_pos (by simp), if_pos (by simp), if_pos (by norm_num), if_neg (by simpa using hT)]

/-- The two sums of the code are the moments of the time-dependent model, with relative error
below `1e-12` and `1e-11`; the second moment is at least half the square of the first. -/
theorem C60_moments {γ ω : ℝ → ℝ} {ks gs os : List ℝ} {T : ℝ} (hg : IsSchedule ks gs γ)
    (ho : IsSchedule ks os ω) (hT : IsExpiry ks T) :
    ∃ segs, alignedSegments ⟨ks, gs⟩ ⟨ks, os⟩ T = .ok segs ∧
      (1 - 1 / 10 ^ 12) * moment1 γ ω T ≤ iIntegral segs ∧ iIntegral segs ≤ moment1 γ ω T ∧
      (1 - 1 / 10 ^ 11) * moment2 γ ω T ≤ lhsDoubleIntegral segs ∧
      lhsDoubleIntegral segs ≤ moment2 γ ω T ∧
      moment1 γ ω T ^ 2 / 2 ≤ moment2 γ ω T := by
  obtain ⟨segs, e1, e2, e3, e4, -, -⟩ := aligned_ok hg ho hg hT
  have hp : ∀ s ∈ segs, 0 < s.delta := fun s hs => (e3 s hs).1
  have m1 := moment1_eq e2 hp
  have m2 := moment2_eq e2 hp
  rw [e4] at m1 m2
  obtain ⟨b1, b2⟩ := iLoop_bounds segs 0 hp
  obtain ⟨c1, c2⟩ := lhsLoop_bounds segs 0 0 0 hp le_rfl le_rfl (by norm_num)
  have hj := (lhs_ge segs 0 0 0 hp le_rfl le_rfl le_rfl).1
  rw [m1] at b1 b2 hj
  rw [m2] at c1 c2 hj
  exact ⟨segs, e1, b2, b1, c2, c1, by simpa using hj⟩

/-- The effective vol-vol is returned, and its square times the expiry is within
`1e-10 + T / 2³⁹` of the only solution of the moment equation. -/
theorem C60_vol_vol {γ ω : ℝ → ℝ} {ks gs os : List ℝ} {T : ℝ} (hg : IsSchedule ks gs γ)
    (ho : IsSchedule ks os ω) (hT : IsExpiry ks T) (hm : 0 < moment1 γ ω T)
    (hV : varOf γ T + 1 ≤ 2 ^ 22 * T) :
    ∃ g x, effectiveVolVol ⟨ks, gs⟩ ⟨ks, os⟩ T = .ok g ∧ 0 ≤ g ∧
      MatchesMoments (moment1 γ ω T) (moment2 γ ω T) x ∧
      (∀ y, MatchesMoments (moment1 γ ω T) (moment2 γ ω T) y → y = x) ∧
      |g ^ 2 * T - x| ≤ 1 / 10 ^ 10 + T / 2 ^ 39 := by
  obtain ⟨segs, e1, e2, e3, e4, -, -⟩ := aligned_ok hg ho hg hT
  have hp : ∀ s ∈ segs, 0 < s.delta := fun s hs => (e3 s hs).1
  obtain ⟨segs', e1', b1, b2, c1, c2, hj⟩ := C60_moments hg ho hT
  rw [e1] at e1'
  cases e1'
  have hvar := segVar_eq segs 0 e2 hp
  rw [e4, zero_add] at hvar
  have hv0 := segVar_nonneg segs hp
  have hle := lhs_le segs 0 0 0 (Real.exp (4 * segVar segs)) hp (by rw [zero_add]) le_rfl (by simp)
  have m1 := moment1_eq e2 hp
  have m2 := moment2_eq e2 hp
  rw [e4] at m1 m2
  rw [m1, m2, zero_mul, zero_add] at hle
  obtain ⟨g, hgok⟩ := volVolOf_ok (i := iIntegral segs) (l := lhsDoubleIntegral segs) hT.1 hm b1 rfl hv0
    (c2.trans hle) (by rw [hvar]; exact hV)
  obtain ⟨x, hx0, hx⟩ := exists_matches hm hj
  obtain ⟨g0, acc⟩ := volVolOf_accuracy hT.1 hm b2 b1 c2 c1 hx0 hx hgok
  refine ⟨g, x, ?_, g0, matches_iff.2 ⟨hx0, hx⟩, ?_, acc⟩
  · unfold effectiveVolVol
    rw [e1]; exact hgok
  · intro y hy
    obtain ⟨hy0, hy'⟩ := matches_iff.1 hy
    exact rhsX_inj hm hy0 hx0 (by rw [← hy', hx])

theorem moment1_const (g w T : ℝ) :
    moment1 (fun _ => g) (fun _ => w) T = w ^ 2 * expInt (g ^ 2) T := by
  unfold moment1 varOf expInt
  simp [intervalIntegral.integral_const_mul]
  left
  congr 1; funext t; ring_nf

theorem expInt_scale {c T : ℝ} (hc : 0 ≤ c) (hT : 0 < T) (hx : c * T ≤ 1) :
    T ≤ expInt c T ∧ expInt c T ≤ T * (1 + c * T) := by
  constructor
  · have := expInt_mono hT.le hc
    rwa [expInt_zero] at this
  · rcases eq_or_lt_of_le hc with h | h
    · rw [← h, expInt_zero]; simp
    · rw [expInt_ne h.ne']
      have hx0 : 0 < c * T := by positivity
      have hb := abs_le.1 (exp_upto hx0.le hx 2 (by norm_num))
      simp only [Finset.sum_range_succ, Finset.sum_range_zero, Nat.factorial] at hb
      push_cast at hb
      norm_num at hb
      rw [div_le_iff₀ h]
      nlinarith [hb.2, sq_nonneg (c * T)]

/-- The effective term structure makes the constant-parameter first moment equal to the
time-dependent one, up to a relative error of `1e-6`. -/
theorem C60_term_structure {γ ω : ℝ → ℝ} {ks gs os : List ℝ} {T g : ℝ} (hg : IsSchedule ks gs γ)
    (ho : IsSchedule ks os ω) (hT : IsExpiry ks T) (hm : 0 < moment1 γ ω T)
    (h : effectiveVolVol ⟨ks, gs⟩ ⟨ks, os⟩ T = .ok g) :
    ∃ w, effectiveTermStructure ⟨ks, gs⟩ ⟨ks, os⟩ T = .ok w ∧ 0 < w ∧
      |moment1 (fun _ => g) (fun _ => w) T - moment1 γ ω T| ≤ 2 / 10 ^ 6 * moment1 γ ω T := by
  obtain ⟨segs, e1, b1, b2, -, -, -⟩ := C60_moments hg ho hT
  have hT0 := hT.1
  have hi0 : 0 < iIntegral segs := lt_of_lt_of_le (by norm_num; linarith) b1
  unfold effectiveTermStructure
  rw [e1, h]
  simp only [ok_bind]
  rw [show g * g * T = g ^ 2 * T by ring, show g * g = g ^ 2 by ring]
  have hgg : 0 ≤ g ^ 2 := sq_nonneg g
  have hx0 : 0 ≤ g ^ 2 * T := by positivity
  rw [abs_of_nonneg hx0]
  by_cases hx : g ^ 2 * T < 1 / 10 ^ 6
  · rw [if_pos hx]
    have hq : 0 < iIntegral segs / T := by positivity
    rw [if_pos hq.le]
    refine ⟨_, rfl, Real.sqrt_pos.2 hq, ?_⟩
    rw [moment1_const, Real.sq_sqrt hq.le]
    obtain ⟨s1, s2⟩ := expInt_scale hgg hT0 (by norm_num at hx; linarith)
    have hlow : iIntegral segs ≤ iIntegral segs / T * expInt (g ^ 2) T := by
      calc iIntegral segs = iIntegral segs / T * T := by field_simp
        _ ≤ _ := mul_le_mul_of_nonneg_left s1 hq.le
    have hhigh : iIntegral segs / T * expInt (g ^ 2) T ≤ iIntegral segs * (1 + g ^ 2 * T) := by
      calc _ ≤ iIntegral segs / T * (T * (1 + g ^ 2 * T)) := mul_le_mul_of_nonneg_left s2 hq.le
        _ = _ := by field_simp
    rw [abs_le]
    norm_num at hx b1 ⊢
    constructor <;> nlinarith
  · rw [if_neg hx]
    have hgp : 0 < g ^ 2 := by
      by_contra hc
      have : g ^ 2 = 0 := le_antisymm (not_lt.1 hc) hgg
      rw [this] at hx
      exact hx (by norm_num)
    have hden : 0 < Real.exp (g ^ 2 * T) - 1 := by
      have := Real.add_one_le_exp (g ^ 2 * T)
      have : 0 < g ^ 2 * T := by positivity
      linarith
    have hq : 0 < g ^ 2 * iIntegral segs / (Real.exp (g ^ 2 * T) - 1) := by positivity
    rw [if_pos hq.le]
    refine ⟨_, rfl, Real.sqrt_pos.2 hq, ?_⟩
    have hg0 : g ≠ 0 := by rintro rfl; simp at hgp
    rw [moment1_const, Real.sq_sqrt hq.le, expInt_ne hgp.ne']
    have : g ^ 2 * iIntegral segs / (Real.exp (g ^ 2 * T) - 1) * ((Real.exp (g ^ 2 * T) - 1) / g ^ 2) =
        iIntegral segs := by field_simp
    rw [this, abs_le]
    norm_num at b1 ⊢
    constructor <;> nlinarith

/-- Without vol-vol the effective vol-vol is zero and the effective term structure is the root mean
square of `ω`. -/
theorem C60_no_vol_vol {ω : ℝ → ℝ} {ks gs os : List ℝ} {T : ℝ} (hg : IsSchedule ks gs fun _ => 0)
    (ho : IsSchedule ks os ω) (hT : IsExpiry ks T) :
    effectiveVolVol ⟨ks, gs⟩ ⟨ks, os⟩ T = .ok 0 ∧
    effectiveTermStructure ⟨ks, gs⟩ ⟨ks, os⟩ T = .ok √((∫ t in 0..T, ω t ^ 2) / T) := by
  obtain ⟨segs, e1, e2, e3, e4, -, -⟩ := aligned_ok hg ho hg hT
  have hp : ∀ s ∈ segs, 0 < s.delta := fun s hs => (e3 s hs).1
  have hz : ∀ (l : List Seg) (a : ℝ), Steps (fun _ => 0) ω a l → (∀ s ∈ l, 0 < s.delta) →
      ∀ s ∈ l, s.gamma = 0 := by
    intro l
    induction l with
    | nil => simp
    | cons s l ih =>
      intro a hs hd x hx
      rcases List.mem_cons.1 hx with h | h
      · subst h
        have hdx := hd x (by simp)
        exact ((hs.1 (a + x.delta / 2) (by linarith) (by linarith)).1).symm
      · exact ih _ hs.2 (fun y hy => hd y (List.mem_cons_of_mem _ hy)) x h
  have hloop : ∀ (l : List Seg) (h : ℝ), (∀ s ∈ l, s.gamma = 0) →
      iLoop 0 l = iX 0 l ∧ lhsLoop 0 h l = h * iX 0 l + iX 0 l ^ 2 / 2 := by
    intro l
    induction l with
    | nil => intro h _; simp [iLoop, iX, lhsLoop]
    | cons s l ih =>
      intro h hl
      have hs := hl s (by simp)
      have es : ∀ d, expSeg 0 d = d := by intro d; unfold expSeg; norm_num
      have ek : ∀ d, expSegDiffKernel 0 d = d ^ 2 / 2 := by
        intro d; unfold expSegDiffKernel; norm_num; ring
      obtain ⟨i1, i2⟩ := ih (h + s.omega * s.omega * s.delta) fun x hx => hl x (List.mem_cons_of_mem _ hx)
      simp only [iLoop, iX, lhsLoop, hs, mul_zero, zero_mul, add_zero, Real.exp_zero, mul_one, es, ek,
        expInt_zero, i1, i2]
      exact ⟨trivial, by ring⟩
  obtain ⟨l1, l2⟩ := hloop segs 0 (hz segs 0 e2 hp)
  have m1 := moment1_eq e2 hp
  have mz : moment1 (fun _ => 0) ω T = ∫ t in 0..T, ω t ^ 2 := by
    unfold moment1 varOf; simp
  rw [e4, mz] at m1
  have hnn : 0 ≤ ∫ t in 0..T, ω t ^ 2 := by rw [← m1]; exact iX_nonneg segs 0 hp
  have hvv : effectiveVolVol ⟨ks, gs⟩ ⟨ks, os⟩ T = .ok 0 := by
    unfold effectiveVolVol
    rw [e1]
    simp only [ok_bind]
    unfold volVolOf iIntegral lhsDoubleIntegral
    rw [if_pos]
    rw [l1, l2]
    norm_num
    nlinarith [sq_nonneg (iX 0 segs)]
  refine ⟨hvv, ?_⟩
  unfold effectiveTermStructure
  rw [e1, hvv]
  simp only [ok_bind]
  have hz0 : |(0 : ℝ) * 0 * T| < 1 / 10 ^ 6 := by norm_num
  have hi : iIntegral segs = ∫ t in 0..T, ω t ^ 2 := by unfold iIntegral; rw [l1, m1]
  rw [if_pos hz0, hi, if_pos (div_nonneg hnn hT.1.le)]

theorem moments_const (g w T : ℝ) (hT : 0 < T) :
    MatchesMoments (moment1 (fun _ => g) (fun _ => w) T) (moment2 (fun _ => g) (fun _ => w) T) (g ^ 2 * T) := by
  have hs : Steps (fun _ => g) (fun _ => w) 0 [⟨T, g, w⟩] := ⟨fun _ _ _ => ⟨rfl, rfl⟩, trivial⟩
  have hp : ∀ s ∈ [(⟨T, g, w⟩ : Seg)], 0 < s.delta := by simpa using hT
  have m1 := moment1_eq hs hp
  have m2 := moment2_eq hs hp
  simp only [span, add_zero] at m1 m2
  rw [← m1, ← m2, matches_iff]
  refine ⟨by positivity, ?_⟩
  simp only [iX, lhsX, mul_zero, Real.exp_zero, mul_one, add_zero, zero_mul, zero_add]
  unfold rhsX
  by_cases hg : g = 0
  · subst hg
    simp only [mul_zero, expKer_zero, expInt_zero]
    norm_num [quart]
    ring
  · have hgg : g * g ≠ 0 := mul_ne_zero hg hg
    rw [expKer_eq hgg, innerX_factor, expInt_ne hgg, show g ^ 2 * T = g * g * T by ring]
    unfold quart
    field_simp
    ring

theorem expInt_ratio {c c' T : ℝ} (hT : 0 ≤ T) : expInt c' T ≤ Real.exp (|c' - c| * T) * expInt c T := by
  unfold expInt
  rw [← intervalIntegral.integral_const_mul]
  apply intervalIntegral.integral_mono_on hT
  · exact (by fun_prop : Continuous fun t => Real.exp (c' * t)).intervalIntegrable _ _
  · exact (by fun_prop : Continuous fun t => Real.exp (|c' - c| * T) * Real.exp (c * t)).intervalIntegrable _ _
  · intro t ht
    rw [← Real.exp_add]
    apply Real.exp_le_exp.2
    have h1 : (c' - c) * t ≤ |c' - c| * t := mul_le_mul_of_nonneg_right (le_abs_self _) ht.1
    have h2 : |c' - c| * t ≤ |c' - c| * T := mul_le_mul_of_nonneg_left ht.2 (abs_nonneg _)
    linarith

/-- Constant schedules are reproduced: the effective vol-vol and term structure are the constants, up
to the tolerance of the bisection and of the small-`x` branch. -/
theorem C60_constant {ks gs os : List ℝ} {T g₀ w₀ : ℝ} (hg : IsSchedule ks gs fun _ => g₀)
    (ho : IsSchedule ks os fun _ => w₀) (hT : IsExpiry ks T) (hw : w₀ ≠ 0)
    (hV : g₀ ^ 2 * T + 1 ≤ 2 ^ 22 * T) :
    ∃ g w, effectiveVolVol ⟨ks, gs⟩ ⟨ks, os⟩ T = .ok g ∧ effectiveTermStructure ⟨ks, gs⟩ ⟨ks, os⟩ T = .ok w ∧
      0 ≤ g ∧ 0 < w ∧ |g ^ 2 - g₀ ^ 2| * T ≤ 1 / 10 ^ 10 + T / 2 ^ 39 ∧
      (1 - 2 / 10 ^ 6) * w₀ ^ 2 ≤ Real.exp (1 / 10 ^ 10 + T / 2 ^ 39) * w ^ 2 ∧
      w ^ 2 ≤ (1 + 2 / 10 ^ 6) * Real.exp (1 / 10 ^ 10 + T / 2 ^ 39) * w₀ ^ 2 := by
  have hT0 := hT.1
  have hm : 0 < moment1 (fun _ => g₀) (fun _ => w₀) T := by
    rw [moment1_const]
    have := expInt_pos (c := g₀ ^ 2) hT0
    positivity
  obtain ⟨g, x, h1, h2, -, h4, h5⟩ := C60_vol_vol hg ho hT hm (by
    unfold varOf; simpa [mul_comm] using hV)
  obtain ⟨w, k1, k2, k3⟩ := C60_term_structure hg ho hT hm h1
  have hx := h4 _ (moments_const g₀ w₀ T hT0)
  rw [← hx, ← sub_mul, abs_mul, abs_of_pos hT0] at h5
  refine ⟨g, w, h1, k1, h2, k2, h5, ?_⟩
  rw [moment1_const, moment1_const, abs_le] at k3
  set d := Real.exp (1 / 10 ^ 10 + T / 2 ^ 39) with hd
  have hE := expInt_pos (c := g ^ 2) hT0
  have hE0 := expInt_pos (c := g₀ ^ 2) hT0
  have r1 : expInt (g ^ 2) T ≤ d * expInt (g₀ ^ 2) T :=
    (expInt_ratio (c := g₀ ^ 2) hT0.le).trans
      (mul_le_mul_of_nonneg_right (Real.exp_le_exp.2 h5) hE0.le)
  have r2 : expInt (g₀ ^ 2) T ≤ d * expInt (g ^ 2) T :=
    (expInt_ratio (c := g ^ 2) hT0.le).trans
      (mul_le_mul_of_nonneg_right (Real.exp_le_exp.2 (by rw [abs_sub_comm]; exact h5)) hE.le)
  constructor
  · have a := mul_le_mul_of_nonneg_left r1 (sq_nonneg w)
    have b : (1 - 2 / 10 ^ 6) * w₀ ^ 2 * expInt (g₀ ^ 2) T ≤ d * w ^ 2 * expInt (g₀ ^ 2) T := by
      linarith [k3.1]
    exact le_of_mul_le_mul_right b hE0
  · have a := mul_le_mul_of_nonneg_left r2 (show 0 ≤ (1 + 2 / 10 ^ 6) * w₀ ^ 2 by positivity)
    have b : w ^ 2 * expInt (g ^ 2) T ≤ (1 + 2 / 10 ^ 6) * d * w₀ ^ 2 * expInt (g ^ 2) T := by
      linarith [k3.2]
    exact le_of_mul_le_mul_right b hE

/-- The effective correlation preserves the average skew `ργ/ω`. -/
theorem C60_correlation {γ ω ρ : ℝ → ℝ} {ks gs os rs : List ℝ} {T g w : ℝ} (hg : IsSchedule ks gs γ)
    (ho : IsSchedule ks os ω) (hr : IsSchedule ks rs ρ) (hT : IsExpiry ks T)
    (hne : ∀ o ∈ os, 1 / 10 ^ 15 < |o|)
    (h1 : effectiveVolVol ⟨ks, gs⟩ ⟨ks, os⟩ T = .ok g) (h2 : effectiveTermStructure ⟨ks, gs⟩ ⟨ks, os⟩ T = .ok w)
    (hg0 : 1 / 10 ^ 15 ≤ g) (hw : 0 < w) :
    ∃ r, effectiveCorrelation ⟨ks, gs⟩ ⟨ks, os⟩ ⟨ks, rs⟩ T = .ok r ∧
      r * (g / w) = (1 / T) * ∫ t in 0..T, ρ t * γ t / ω t := by
  obtain ⟨segs, e1, -, -, -, e5, e6⟩ := aligned_ok hg ho hr hT
  have hgp : 0 < g := lt_of_lt_of_le (by norm_num) hg0
  have hT0 := hT.1
  refine ⟨w / (g * T) * ∫ t in 0..T, ρ t * γ t / ω t, ?_, ?_⟩
  · unfold effectiveCorrelation
    rw [if_pos rfl, e1]
    simp only [ok_bind]
    rw [if_pos e5, e6 hne, h1, h2]
    simp only [ok_bind]
    rw [if_neg (by rw [abs_of_pos hgp]; linarith)]
  · field_simp

/-- Changing the sign of the correlation schedule changes the sign of the effective correlation. -/
theorem C60_correlation_neg (γ ω : PieceConst) (ks rs : List ℝ) (T : ℝ) :
    effectiveCorrelation γ ω ⟨ks, rs.map Neg.neg⟩ T = Neg.neg <$> effectiveCorrelation γ ω ⟨ks, rs⟩ T := by
  have hc : ∀ (segs : List Seg) (l : List ℝ),
      corrIntegral segs (l.map Neg.neg) = Neg.neg <$> corrIntegral segs l := by
    intro segs
    induction segs with
    | nil => intro l; simp [corrIntegral]
    | cons s segs ih =>
      intro l
      cases l with
      | nil => simp [corrIntegral]
      | cons r l =>
        simp only [List.map_cons, corrIntegral]
        split_ifs
        · rw [ih]
          cases corrIntegral segs l with
          | ok v => simp only [map_ok, ok_bind]; congr 1; ring
          | fail e => rfl
          | panic => rfl
        · rfl
  unfold effectiveCorrelation
  split_ifs
  · cases alignedSegments γ ω T with
    | fail e => rfl
    | panic => rfl
    | ok segs =>
      simp only [ok_bind, List.length_map]
      split_ifs
      · rw [← List.map_take, hc]
        cases corrIntegral segs (rs.take segs.length) with
        | fail e => rfl
        | panic => rfl
        | ok v =>
          simp only [map_ok, ok_bind]
          cases effectiveVolVol γ ω T with
          | fail e => rfl
          | panic => rfl
          | ok g =>
            simp only [ok_bind]
            cases effectiveTermStructure γ ω T with
            | fail e => rfl
            | panic => rfl
            | ok w =>
              simp only [ok_bind]
              split_ifs
              · simp
              · simp
      · rfl
  · rfl

/-! ## What the documentation claims and the formulas do not give -/

theorem vol_vol_upper {γ ω : ℝ → ℝ} {ks gs os : List ℝ} {T x : ℝ} (hg : IsSchedule ks gs γ)
    (ho : IsSchedule ks os ω) (hT : IsExpiry ks T) (hm : 0 < moment1 γ ω T)
    (hx : MatchesMoments (moment1 γ ω T) (moment2 γ ω T) x) : x ≤ varOf γ T + 3 / 4 := by
  obtain ⟨segs, e1, e2, e3, e4, -, -⟩ := aligned_ok hg ho hg hT
  have hp : ∀ s ∈ segs, 0 < s.delta := fun s hs => (e3 s hs).1
  have hvar := segVar_eq segs 0 e2 hp
  rw [e4, zero_add] at hvar
  have hle := lhs_le segs 0 0 0 (Real.exp (4 * segVar segs)) hp (by rw [zero_add]) le_rfl (by simp)
  have m1 := moment1_eq e2 hp
  have m2 := moment2_eq e2 hp
  rw [e4] at m1 m2
  rw [m1, m2, zero_mul, zero_add, hvar] at hle
  obtain ⟨hx0, hx1⟩ := matches_iff.1 hx
  rw [hx1] at hle
  unfold rhsX at hle
  have hm2 : 0 < moment1 γ ω T ^ 2 := by positivity
  have hq : quart (Real.exp x) ≤ 15 * Real.exp (4 * vFrom γ 0 T) := by
    have : moment1 γ ω T ^ 2 * quart (Real.exp x) ≤ moment1 γ ω T ^ 2 * (15 * Real.exp (4 * vFrom γ 0 T)) := by
      linarith
    exact le_of_mul_le_mul_left this hm2
  have h4 : Real.exp (4 * x) ≤ quart (Real.exp x) := by
    rw [show Real.exp (4 * x) = Real.exp x ^ 4 by rw [← Real.exp_nat_mul]; norm_num]
    have := Real.exp_pos x
    unfold quart
    nlinarith [pow_pos this 2, pow_pos this 3]
  have h15 : (15 : ℝ) ≤ Real.exp 3 := by
    rw [show (3 : ℝ) = ((3 : ℕ) : ℝ) * 1 by norm_num, Real.exp_nat_mul]
    have := pow_le_pow_left₀ (show (0:ℝ) ≤ 2.7182818283 by norm_num) (le_of_lt Real.exp_one_gt_d9) 3
    refine le_trans (by norm_num) this
  have h5 : Real.exp (4 * x) ≤ Real.exp (3 + 4 * vFrom γ 0 T) := by
    rw [Real.exp_add]
    exact (h4.trans hq).trans (mul_le_mul_of_nonneg_right h15 (Real.exp_pos _).le)
  have := Real.exp_le_exp.1 h5
  unfold vFrom at this
  unfold varOf
  linarith

/-- The witness for the correlation: vol-vol one, term structure `1` then `1/1000`, correlation one
half throughout. -/
noncomputable def skewOmega (t : ℝ) : ℝ := if t < 1 then 1 else 1 / 1000

theorem skew_schedules : IsSchedule [0, 1, 2] [1, 1] (fun _ => 1) ∧
    IsSchedule [0, 1, 2] [1, 1 / 1000] skewOmega ∧ IsSchedule [0, 1, 2] [1 / 2, 1 / 2] (fun _ => 1 / 2) ∧
    IsExpiry [0, 1, 2] 2 := by
  refine ⟨⟨rfl, by norm_num, rfl, ?_⟩, ⟨rfl, by norm_num, rfl, ?_⟩, ⟨rfl, by norm_num, rfl, ?_⟩,
    ⟨by norm_num, by norm_num, ?_⟩⟩
  · simp [StepOn]
  · simp only [StepOn, skewOmega, and_true]
    exact ⟨fun t _ h => if_pos h, fun t h _ => if_neg (by linarith)⟩
  · simp [StepOn]
  · intro k hk h
    simp only [List.mem_cons, List.not_mem_nil, or_false] at hk
    rcases hk with rfl | rfl | rfl <;> norm_num at h

/-- "For constant `ρ(t) ≡ ρ₀`, returns `ρ₀` exactly", and `ρ̃` is a weighted time average of `ρ`:
both fail when `ω` varies. A constant correlation of one half gives an effective correlation above
one. -/
theorem C60_correlation_range_false :
    ∃ r, effectiveCorrelation ⟨[0, 1, 2], [1, 1]⟩ ⟨[0, 1, 2], [1, 1 / 1000]⟩ ⟨[0, 1, 2], [1 / 2, 1 / 2]⟩ 2 = .ok r ∧
      1 < r := by
  obtain ⟨hg, ho, hr, hT⟩ := skew_schedules
  have hs : Steps (fun _ => 1) skewOmega 0 [⟨1, 1, 1⟩, ⟨1, 1, 1 / 1000⟩] := by
    refine ⟨fun t _ h => ⟨rfl, if_pos (by norm_num at h; linarith)⟩,
      fun t h _ => ⟨rfl, if_neg (by norm_num at h; linarith)⟩, trivial⟩
  have m1 := moment1_eq hs (by simp)
  rw [show span [⟨1, 1, 1⟩, ⟨1, 1, 1 / 1000⟩] = 2 by norm_num [span]] at m1
  have he := Real.exp_one_gt_d9
  have hm : 1 < moment1 (fun _ => 1) skewOmega 2 := by
    rw [← m1]
    simp only [iX, mul_one, Real.exp_zero, one_mul, zero_add, add_zero]
    rw [expInt_ne one_ne_zero]
    have : 0 < Real.exp 1 * (Real.exp 1 - 1) := by nlinarith
    norm_num
    nlinarith
  have hvar : varOf (fun _ => 1) 2 = 2 := by unfold varOf; simp
  obtain ⟨g, x, k1, k2, k3, -, k5⟩ := C60_vol_vol hg ho hT (by linarith) (by rw [hvar]; norm_num)
  obtain ⟨w, l1, l2, l3⟩ := C60_term_structure hg ho hT (by linarith) k1
  have hx := vol_vol_upper hg ho hT (by linarith) k3
  rw [hvar] at hx
  have hj : moment1 (fun _ => 1) skewOmega 2 ^ 2 / 2 ≤ moment2 (fun _ => 1) skewOmega 2 :=
    (C60_moments hg ho hT).choose_spec.2.2.2.2.2
  -- bounds on `g² T`
  have hup : g ^ 2 * 2 ≤ 3 := by
    have := (abs_le.1 k5).2
    norm_num at this
    linarith
  have m2 := moment2_eq hs (by simp)
  rw [show span [⟨1, 1, 1⟩, ⟨1, 1, 1 / 1000⟩] = 2 by norm_num [span]] at m2
  have hlow : 1 / 10 ≤ x := by
    by_contra hc
    push Not at hc
    obtain ⟨x0, hx1⟩ := matches_iff.1 k3
    -- an upper bound on the right-hand side
    have hu : Real.exp x ≤ 1.2 := by
      have h1 : Real.exp x ≤ Real.exp (1 / 10) := Real.exp_le_exp.2 hc.le
      have h2 : Real.exp (1 / 10) ≤ 1.2 := by
        have := (abs_le.1 (exp_upto (x := 1 / 10) (by norm_num) (by norm_num) 2 (by norm_num))).2
        simp only [Finset.sum_range_succ, Finset.sum_range_zero, Nat.factorial] at this
        norm_num at this ⊢
        linarith
      exact h1.trans h2
    have hq := quart_mono (Real.exp_pos x).le hu
    have hM : 8 ≤ moment2 (fun _ => 1) skewOmega 2 := by
      rw [← m2]
      simp only [lhsX, mul_one, Real.exp_zero, one_mul, zero_add, add_zero, mul_zero, zero_mul]
      have k0 := expKer_eq (c := 1) one_ne_zero 1
      have e6 : 400 ≤ Real.exp 6 := by
        rw [show (6 : ℝ) = ((6 : ℕ) : ℝ) * 1 by norm_num, Real.exp_nat_mul]
        have := pow_le_pow_left₀ (show (0:ℝ) ≤ 2.7182818283 by norm_num) he.le 6
        refine le_trans (by norm_num) this
      have hk : 10 ≤ expKer 1 1 := by
        rw [k0]; unfold innerX
        have := Real.exp_one_lt_d9
        norm_num
        linarith
      have p1 := expInt_nonneg (c := 1) (d := 1) zero_le_one
      have p5 := expInt_nonneg (c := 5) (d := 1) zero_le_one
      have p6 := Real.exp_pos 6
      have p1' := Real.exp_pos 1
      have : 0 ≤ (1 / 1000 : ℝ) * (1 / 1000) * Real.exp 1 * expInt 5 1 * expInt 1 1 := by positivity
      have : 0 ≤ (1 / 1000 : ℝ) * (1 / 1000) * ((1 / 1000) * (1 / 1000)) * Real.exp 6 * expKer 1 1 := by
        have := expKer_nonneg (c := 1) (d := 1) zero_le_one zero_le_one
        positivity
      linarith
    have hm1 : moment1 (fun _ => 1) skewOmega 2 ≤ 2 := by
      rw [← m1]
      simp only [iX, mul_one, Real.exp_zero, one_mul, zero_add, add_zero]
      rw [expInt_ne one_ne_zero]
      have := Real.exp_one_lt_d9
      norm_num
      nlinarith
    rw [hx1] at hM
    unfold rhsX at hM
    have hq2 : quart (1.2 : ℝ) ≤ 20 := by norm_num [quart]
    have h2 : moment1 (fun _ => 1) skewOmega 2 ^ 2 ≤ 4 := by nlinarith
    have := quart_pos (Real.exp_pos x)
    nlinarith
  have hgl : 1 / 20 ≤ g ^ 2 * 2 := by
    have := (abs_le.1 k5).1
    norm_num at this hlow
    linarith
  have hgp : 1 / 10 < g := by
    by_contra hc
    push Not at hc
    nlinarith
  obtain ⟨r, q1, q2⟩ := C60_correlation hg ho hr hT (by
    intro o ho
    simp only [List.mem_cons, List.not_mem_nil, or_false] at ho
    rcases ho with rfl | rfl <;> norm_num) k1 l1 (by norm_num at hgp ⊢; linarith) l2
  refine ⟨r, q1, ?_⟩
  have hint : ∫ t in (0:ℝ)..2, (1 / 2 : ℝ) * 1 / skewOmega t = 1001 / 2 := by
    have i1 := head_integral (f := fun t => (1 / 2 : ℝ) * 1 / skewOmega t) (a := 0) (b := 1) (v := 1 / 2)
      (fun t _ h => by simp only [skewOmega]; rw [if_pos h]; norm_num) (t := 1) (by norm_num) le_rfl
    have i2 := head_integral (f := fun t => (1 / 2 : ℝ) * 1 / skewOmega t) (a := 1) (b := 2) (v := 500)
      (fun t h _ => by simp only [skewOmega]; rw [if_neg (by linarith)]; norm_num) (t := 2) (by norm_num) le_rfl
    rw [← integral_add_adjacent_intervals i1.2 i2.2, i1.1, i2.1]
    norm_num
  rw [hint] at q2
  rw [moment1_const] at l3
  have hE : expInt (g ^ 2) 2 * g ^ 2 ≤ 20 := by
    rw [mul_comm, mul_expInt]
    have h3 : Real.exp (g ^ 2 * 2) ≤ Real.exp 3 := Real.exp_le_exp.2 hup
    have : Real.exp 3 ≤ 21 := by
      rw [show (3 : ℝ) = ((3 : ℕ) : ℝ) * 1 by norm_num, Real.exp_nat_mul]
      have := pow_le_pow_left₀ (Real.exp_pos 1).le Real.exp_one_lt_d9.le 3
      refine le_trans this (by norm_num)
    linarith
  have hw2 : 1 / 2 ≤ w ^ 2 * expInt (g ^ 2) 2 := by
    have := (abs_le.1 l3).1
    norm_num at this
    linarith
  have hEp := expInt_pos (c := g ^ 2) (d := 2) (by norm_num)
  have hgw : g ^ 2 ≤ 40 * w ^ 2 := by
    have h1 := mul_le_mul_of_nonneg_left hE (sq_nonneg w)
    have h2 := mul_le_mul_of_nonneg_right hw2 (sq_nonneg g)
    nlinarith
  have hgw2 : g ≤ 7 * w := by
    by_contra hc
    push Not at hc
    nlinarith
  have hratio : g / w ≤ 7 := by rw [div_le_iff₀ l2]; exact hgw2
  have hrp : 0 < g / w := div_pos (by linarith) l2
  by_contra hc
  push Not at hc
  norm_num at q2
  nlinarith

/-- The witness for the term structure: no vol-vol in the first year, vol-vol one in the second. -/
noncomputable def lateGamma (t : ℝ) : ℝ := if t < 1 then 0 else 1

theorem late_schedules : IsSchedule [0, 1, 2] [0, 1] lateGamma ∧
    IsSchedule [0, 1, 2] [1, 1] (fun _ => 1) ∧ IsExpiry [0, 1, 2] 2 := by
  refine ⟨⟨rfl, by norm_num, rfl, ?_⟩, ⟨rfl, by norm_num, rfl, ?_⟩, skew_schedules.2.2.2⟩
  · simp only [StepOn, lateGamma, and_true]
    exact ⟨fun t _ h => if_pos h, fun t h _ => if_neg (by linarith)⟩
  · simp [StepOn]

/-- "For constant `ω₁(t) ≡ ω₀` this returns `ω₀` exactly" fails when `γ` varies. -/
theorem C60_constant_omega_false :
    ∃ w, effectiveTermStructure ⟨[0, 1, 2], [0, 1]⟩ ⟨[0, 1, 2], [1, 1]⟩ 2 = .ok w ∧ w < 0.999 := by
  obtain ⟨hg, ho, hT⟩ := late_schedules
  have hs : Steps lateGamma (fun _ => 1) 0 [⟨1, 0, 1⟩, ⟨1, 1, 1⟩] := by
    refine ⟨fun t _ h => ⟨if_pos (by norm_num at h; linarith), rfl⟩,
      fun t h _ => ⟨if_neg (by norm_num at h; linarith), rfl⟩, trivial⟩
  have m1 := moment1_eq hs (by simp)
  have m2 := moment2_eq hs (by simp)
  have hvar := segVar_eq _ 0 hs (by simp)
  rw [show span [⟨1, 0, 1⟩, ⟨1, 1, 1⟩] = 2 by norm_num [span]] at m1 m2 hvar
  have he := Real.exp_one_gt_d9
  have he2 := Real.exp_one_lt_d9
  have hm : moment1 lateGamma (fun _ => 1) 2 = Real.exp 1 := by
    rw [← m1]
    simp only [iX, mul_one, Real.exp_zero, one_mul, mul_zero, add_zero, expInt_zero]
    rw [expInt_ne one_ne_zero]
    norm_num
  have hM : 15 ≤ moment2 lateGamma (fun _ => 1) 2 := by
    rw [← m2]
    simp only [lhsX, mul_one, Real.exp_zero, one_mul, zero_add, add_zero, mul_zero, zero_mul, expInt_zero,
      expKer_zero]
    rw [expKer_eq one_ne_zero, expInt_ne one_ne_zero]
    unfold innerX
    have e6 : 402 ≤ Real.exp 6 := by
      rw [show (6 : ℝ) = ((6 : ℕ) : ℝ) * 1 by norm_num, Real.exp_nat_mul]
      have := pow_le_pow_left₀ (show (0:ℝ) ≤ 2.7182818283 by norm_num) he.le 6
      refine le_trans (by norm_num) this
    norm_num
    linarith
  have hv2 : varOf lateGamma 2 = 1 := by
    unfold varOf
    unfold vFrom at hvar
    rw [show (0:ℝ) + 2 = 2 by norm_num] at hvar
    rw [← hvar]; norm_num [segVar]
  have hmp : 0 < moment1 lateGamma (fun _ => 1) 2 := by rw [hm]; exact Real.exp_pos 1
  obtain ⟨g, x, k1, k2, k3, -, k5⟩ := C60_vol_vol hg ho hT hmp (by rw [hv2]; norm_num)
  obtain ⟨w, l1, l2, l3⟩ := C60_term_structure hg ho hT hmp k1
  refine ⟨w, l1, ?_⟩
  have hx : 3 / 5 ≤ x := by
    by_contra hc
    push Not at hc
    obtain ⟨x0, hx1⟩ := matches_iff.1 k3
    have hu : Real.exp x ≤ 1.83 := by
      by_contra hcc
      push Not at hcc
      have h5 := pow_le_pow_left₀ (by norm_num) hcc.le 5
      rw [← Real.exp_nat_mul] at h5
      have h3 : Real.exp ((5 : ℕ) * x) ≤ Real.exp ((3 : ℕ) * 1) := Real.exp_le_exp.2 (by push_cast; linarith)
      rw [Real.exp_nat_mul 1 3] at h3
      have := pow_le_pow_left₀ (Real.exp_pos 1).le he2.le 3
      have n1 : (2.7182818286 : ℝ) ^ 3 < 1.83 ^ 5 := by norm_num
      exact absurd ((h5.trans h3).trans this) (not_le.2 n1)
    have hq := quart_mono (Real.exp_pos x).le hu
    rw [hx1, hm] at hM
    unfold rhsX at hM
    have hq2 : quart (1.83 : ℝ) ≤ 46 := by norm_num [quart]
    have h2 : Real.exp 1 ^ 2 ≤ 7.4 := by nlinarith
    have := quart_pos (Real.exp_pos x)
    nlinarith
  have hgl : 0.299 ≤ g ^ 2 := by
    have := (abs_le.1 k5).1
    norm_num at this ⊢
    linarith
  rw [moment1_const, hm] at l3
  have hE : 2.73 ≤ expInt (g ^ 2) 2 := by
    refine le_trans ?_ (expInt_mono (by norm_num) hgl)
    rw [expInt_ne (by norm_num), le_div_iff₀ (by norm_num)]
    have := Real.sum_le_exp_of_nonneg (show (0:ℝ) ≤ 0.299 * 2 by norm_num) 5
    simp only [Finset.sum_range_succ, Finset.sum_range_zero, Nat.factorial] at this
    norm_num at this ⊢
    linarith
  have h2 := (abs_le.1 l3).2
  by_contra hc
  push Not at hc
  norm_num at h2 hc hE he2
  have : 0.998 * 2.73 ≤ w ^ 2 * expInt (g ^ 2) 2 := by
    apply mul_le_mul _ (by norm_num; exact hE) (by norm_num) (sq_nonneg w)
    norm_num; nlinarith
  norm_num at this
  linarith

/-- The hypotheses of the theorems above hold for a schedule with both parameters varying. -/
example : IsSchedule [0, 1, 2] [0, 1] lateGamma ∧ IsSchedule [0, 1, 2] [1, 1 / 1000] skewOmega ∧
    IsExpiry [0, 1, 2] 2 ∧ varOf lateGamma 2 + 1 ≤ 2 ^ 22 * 2 ∧ 0 < moment1 lateGamma skewOmega 2 := by
  have hs : Steps lateGamma skewOmega 0 [⟨1, 0, 1⟩, ⟨1, 1, 1 / 1000⟩] := by
    refine ⟨fun t _ h => ⟨if_pos (by norm_num at h; linarith), if_pos (by norm_num at h; linarith)⟩,
      fun t h _ => ⟨if_neg (by norm_num at h; linarith), if_neg (by norm_num at h; linarith)⟩, trivial⟩
  have m1 := moment1_eq hs (by simp)
  have hvar := segVar_eq _ 0 hs (by simp)
  rw [show span [⟨1, 0, 1⟩, ⟨1, 1, 1 / 1000⟩] = 2 by norm_num [span]] at m1 hvar
  refine ⟨late_schedules.1, skew_schedules.2.1, late_schedules.2.2, ?_, ?_⟩
  · unfold varOf
    unfold vFrom at hvar
    rw [show (0:ℝ) + 2 = 2 by norm_num] at hvar
    rw [← hvar]; norm_num [segVar]
  · rw [← m1]
    simp only [iX, mul_one, Real.exp_zero, one_mul, mul_zero, add_zero, expInt_zero]
    have := expInt_nonneg (c := 1) (d := 1) zero_le_one
    positivity

/-- A schedule without vol-vol and a constant schedule. -/
example : IsSchedule [0, 1, 2] [0, 0] (fun _ => 0) ∧ IsSchedule [0, 1, 2] [2, 2] (fun _ => 2) := by
  refine ⟨⟨rfl, by norm_num, rfl, ?_⟩, ⟨rfl, by norm_num, rfl, ?_⟩⟩ <;> simp [StepOn]

end Verif
