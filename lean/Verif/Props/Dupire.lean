import Verif.Lemmas.Dupire
import Mathlib.Analysis.SpecialFunctions.Log.Basic
import Mathlib.Analysis.Complex.ExponentialBounds

/-!
# C69: The Dupire surface recovers the local variance of the quotes
-/

namespace Verif

open Filter Topology Outcome

/-! ## Construction -/

theorem windowsIncrease_iff (xs : List ℝ) : windowsIncrease xs ↔ xs.Pairwise (· < ·) := by
  constructor
  · intro h
    rw [List.pairwise_iff_getElem]
    intro i j hi hj hij
    have := incr_lt h hij hj
    simpa [List.getD_eq_getElem?_getD, hi, hj] using this
  · intro h i hi
    rw [List.pairwise_iff_getElem] at h
    have := h i (i + 1) (by omega) hi (by omega)
    simpa [List.getD_eq_getElem?_getD, hi, show i < xs.length by omega] using this

/-- **C69.** A surface is built exactly for a rectangular grid of three or more increasing expiries
and strikes and a positive spot; it has one variance per node. -/
theorem C69_build (expiries strikes : List ℝ) (vols : List (List ℝ)) (spot rd rf : ℝ) :
    (3 ≤ expiries.length ∧ 3 ≤ strikes.length ∧ vols.length = expiries.length
        ∧ (∀ row ∈ vols, row.length = strikes.length)
        ∧ expiries.Pairwise (· < ·) ∧ strikes.Pairwise (· < ·) ∧ 0 < spot →
      ∃ v, LocalVol.build expiries strikes vols spot rd rf = .ok v ∧ v.expiries = expiries
        ∧ v.strikes = strikes ∧ v.variance.length = expiries.length
        ∧ ∀ row ∈ v.variance, row.length = strikes.length)
    ∧ (¬ (3 ≤ expiries.length ∧ 3 ≤ strikes.length ∧ vols.length = expiries.length
        ∧ (∀ row ∈ vols, row.length = strikes.length)
        ∧ expiries.Pairwise (· < ·) ∧ strikes.Pairwise (· < ·) ∧ 0 < spot) →
      LocalVol.build expiries strikes vols spot rd rf = .panic) := by
  rw [← windowsIncrease_iff, ← windowsIncrease_iff, LocalVol.build]
  refine ⟨fun h => ?_, fun h => if_neg h⟩
  rw [if_pos h]
  refine ⟨_, rfl, rfl, rfl, by simp, fun row hrow => ?_⟩
  simp only [List.mem_map] at hrow
  obtain ⟨i, -, rfl⟩ := hrow
  simp

theorem build_ok {expiries strikes : List ℝ} {vols : List (List ℝ)} {spot rd rf : ℝ} {v : LocalVol}
    (h : LocalVol.build expiries strikes vols spot rd rf = .ok v) :
    3 ≤ expiries.length ∧ 3 ≤ strikes.length ∧ windowsIncrease expiries ∧ windowsIncrease strikes
      ∧ 0 < spot ∧ v.expiries = expiries ∧ v.strikes = strikes
      ∧ (vols.length = expiries.length ∧ ∀ row ∈ vols, row.length = strikes.length)
      ∧ (∀ i < expiries.length, ∀ j < strikes.length,
        v.at i j = .ok (nodeVariance expiries strikes vols spot rd rf i j)
        ∧ v.node i j = nodeVariance expiries strikes vols spot rd rf i j) := by
  unfold LocalVol.build at h
  split at h
  · rename_i hc
    obtain ⟨h1, h2, h9, h10, h5, h6, h7⟩ := hc
    injection h with h
    subst h
    refine ⟨h1, h2, h5, h6, h7, rfl, rfl, ⟨h9, h10⟩, fun i hi j hj => ?_⟩
    constructor
    · simp [LocalVol.at, hi, unwrap, hj]
    · simp [LocalVol.node, List.getD_eq_getElem?_getD, hi, hj]
  · cases h

/-- The grid of the examples. -/
noncomputable def exSmile : LocalVol :=
  ⟨[1, 2, 3], [1, 3 / 2, 3], (List.range 3).map fun i => (List.range 3).map fun j =>
    nodeVariance [1, 2, 3] [1, 3 / 2, 3] (List.replicate 3 [1 / 10, 1 / 10, 1 / 10]) 2 (1 / 50)
      (1 / 100) i j⟩

theorem exSmile_build : LocalVol.build [1, 2, 3] [1, 3 / 2, 3]
    (List.replicate 3 [1 / 10, 1 / 10, 1 / 10]) 2 (1 / 50) (1 / 100) = .ok exSmile := by
  rw [LocalVol.build, if_pos]
  · rfl
  · refine ⟨by simp, by simp, by simp, by simp, ?_, ?_, by norm_num⟩ <;>
    · rw [windowsIncrease_iff]; norm_num

/-- Strikes out of order are refused. -/
example : LocalVol.build [1, 2, 3] [1, 3, 2] (List.replicate 3 [1, 1, 1]) 2 0 0 = .panic :=
  (C69_build _ _ _ _ _ _).2 (by norm_num)

/-! ## The surface -/

/-- **C69.** All variances, at the nodes and between and outside them, belong to volatilities between
1% and 200%; the volatility is the root of the variance. -/
theorem C69_band {expiries strikes : List ℝ} {vols : List (List ℝ)} {spot rd rf : ℝ} {v : LocalVol}
    (h : LocalVol.build expiries strikes vols spot rd rf = .ok v) (t k : ℝ) :
    ∃ x, v.localVariance t k = .ok x ∧ 1 / 10000 ≤ x ∧ x ≤ 4
      ∧ v.localVol t k = .ok (√x) ∧ 1 / 100 ≤ √x ∧ √x ≤ 2 := by
  obtain ⟨h1, h2, h3, h4, h5, h6, h7, h9, h8⟩ := build_ok h
  obtain ⟨i0, i1, wt, a1, a2, a3, a4, a5, -⟩ := bracketAt_spec h3 (by omega) t
  obtain ⟨j0, j1, wk, b1, b2, b3, b4, b5, -⟩ := bracketAt_spec h4 (by omega) k
  have hb : ∀ i j, 1 / 10000 ≤ nodeVariance expiries strikes vols spot rd rf i j
      ∧ nodeVariance expiries strikes vols spot rd rf i j ≤ 4 := by
    intro i j
    rw [nodeVariance_eq, intoBand]
    exact ⟨le_max_left _ _, max_le (by norm_num) (min_le_left _ _)⟩
  have hv : v.localVariance t k = .ok (nodeVariance expiries strikes vols spot rd rf i0 j0
      + wk * (nodeVariance expiries strikes vols spot rd rf i0 j1
        - nodeVariance expiries strikes vols spot rd rf i0 j0)
      + wt * (nodeVariance expiries strikes vols spot rd rf i1 j0
        + wk * (nodeVariance expiries strikes vols spot rd rf i1 j1
          - nodeVariance expiries strikes vols spot rd rf i1 j0)
        - (nodeVariance expiries strikes vols spot rd rf i0 j0
          + wk * (nodeVariance expiries strikes vols spot rd rf i0 j1
            - nodeVariance expiries strikes vols spot rd rf i0 j0)))) := by
    rw [LocalVol.localVariance, h6, h7, a1, ok_bind]
    dsimp only
    rw [b1, ok_bind]
    dsimp only
    rw [(h8 i0 a2 j0 b2).1, ok_bind, (h8 i0 a2 j1 b3).1, ok_bind, (h8 i1 a3 j0 b2).1, ok_bind,
      (h8 i1 a3 j1 b3).1, ok_bind]
  have hin : ∀ w lo hi : ℝ, 0 ≤ w → w ≤ 1 → 1 / 10000 ≤ lo → lo ≤ 4 → 1 / 10000 ≤ hi → hi ≤ 4 →
      1 / 10000 ≤ lo + w * (hi - lo) ∧ lo + w * (hi - lo) ≤ 4 := by
    intro w lo hi w0 w1 l0 l1 u0 u1
    constructor <;> nlinarith
  obtain ⟨p1, p2⟩ := hin wk _ _ b4 b5 (hb i0 j0).1 (hb i0 j0).2 (hb i0 j1).1 (hb i0 j1).2
  obtain ⟨p3, p4⟩ := hin wk _ _ b4 b5 (hb i1 j0).1 (hb i1 j0).2 (hb i1 j1).1 (hb i1 j1).2
  obtain ⟨p5, p6⟩ := hin wt _ _ a4 a5 p1 p2 p3 p4
  refine ⟨_, hv, p5, p6, ?_, ?_, ?_⟩
  · rw [LocalVol.localVol, hv, ok_bind]
  · exact Real.le_sqrt_of_sq_le (by linarith [show ((1 : ℝ) / 100) ^ 2 = 1 / 10000 by norm_num])
  · rw [Real.sqrt_le_left (by norm_num)]
    linarith [show (2 : ℝ) ^ 2 = 4 by norm_num]

example (t k : ℝ) : ∃ x, exSmile.localVariance t k = .ok x ∧ 1 / 10000 ≤ x ∧ x ≤ 4 := by
  obtain ⟨x, h1, h2, h3, -⟩ := C69_band exSmile_build t k
  exact ⟨x, h1, h2, h3⟩

theorem localVariance_interpolate {expiries strikes : List ℝ} {vols : List (List ℝ)}
    {spot rd rf : ℝ} {v : LocalVol} (h : LocalVol.build expiries strikes vols spot rd rf = .ok v)
    (t k : ℝ) : v.localVariance t k
      = .ok (interpolate v.expiries (fun i => interpolate v.strikes (fun j => v.node i j) k) t) := by
  obtain ⟨h1, h2, h3, h4, h5, h6, h7, h9, h8⟩ := build_ok h
  obtain ⟨i0, i1, wt, a1, a2, a3, a4, a5, a6⟩ := bracketAt_spec h3 (by omega) t
  obtain ⟨j0, j1, wk, b1, b2, b3, b4, b5, b6⟩ := bracketAt_spec h4 (by omega) k
  rw [LocalVol.localVariance, h6, h7, a1, ok_bind]
  dsimp only
  rw [b1, ok_bind]
  dsimp only
  rw [(h8 i0 a2 j0 b2).1, ok_bind, (h8 i0 a2 j1 b3).1, ok_bind, (h8 i1 a3 j0 b2).1, ok_bind,
    (h8 i1 a3 j1 b3).1, ok_bind, ← a6, ← b6, ← b6, (h8 i0 a2 j0 b2).2, (h8 i0 a2 j1 b3).2,
    (h8 i1 a3 j0 b2).2, (h8 i1 a3 j1 b3).2]

/-- **C69.** Between four neighbouring nodes the variance is their bilinear interpolation; in
particular it is the node's variance at a node. -/
theorem C69_bilinear {expiries strikes : List ℝ} {vols : List (List ℝ)} {spot rd rf : ℝ}
    {v : LocalVol} (h : LocalVol.build expiries strikes vols spot rd rf = .ok v) (i j : ℕ)
    (hi : i + 1 < expiries.length) (hj : j + 1 < strikes.length) (t k : ℝ)
    (ht : expiries.getD i 0 ≤ t) (ht' : t ≤ expiries.getD (i + 1) 0)
    (hk : strikes.getD j 0 ≤ k) (hk' : k ≤ strikes.getD (j + 1) 0) :
    v.localVariance t k = .ok (bilinear
      ((t - expiries.getD i 0) / (expiries.getD (i + 1) 0 - expiries.getD i 0))
      ((k - strikes.getD j 0) / (strikes.getD (j + 1) 0 - strikes.getD j 0))
      (v.node i j) (v.node i (j + 1)) (v.node (i + 1) j) (v.node (i + 1) (j + 1))) := by
  obtain ⟨h1, h2, h3, h4, h5, h6, h7, h9, h8⟩ := build_ok h
  rw [localVariance_interpolate h, h6, h7, interpolate_cell h3 _ hi (.inl ht) (.inl ht'),
    ramp_mid (h3 i hi) ht ht', interpolate_cell h4 _ hj (.inl hk) (.inl hk'),
    interpolate_cell h4 _ hj (.inl hk) (.inl hk'), ramp_mid (h4 j hj) hk hk', bilinear]
  refine congrArg Outcome.ok ?_
  ring

example : exSmile.localVariance (3 / 2) 2 = .ok (bilinear (1 / 2) (1 / 3) (exSmile.node 0 1)
    (exSmile.node 0 2) (exSmile.node 1 1) (exSmile.node 1 2)) := by
  have := C69_bilinear exSmile_build 0 1 (by simp) (by simp) (3 / 2) 2 (by norm_num) (by norm_num)
    (by norm_num) (by norm_num)
  rw [this]
  refine congrArg Outcome.ok ?_
  norm_num

theorem intoRange_mem {xs : List ℝ} (h : windowsIncrease xs) (hl : 2 ≤ xs.length) (t : ℝ) :
    ∀ y, interpolate xs y (intoRange xs t) = interpolate xs y t := by
  intro y
  have hle : xs.getD 0 0 ≤ xs.getD (xs.length - 1) 0 := incr_le h (by omega) (by omega)
  have h01 := h 0 (by omega)
  have hlast := h (xs.length - 2) (by omega)
  rw [show xs.length - 2 + 1 = xs.length - 1 by omega] at hlast
  unfold intoRange
  rcases le_total t (xs.getD 0 0) with h0 | h0
  · rw [min_eq_right (h0.trans hle), max_eq_left h0, interpolate_cell h y (i := 0) (by omega)
      (.inr rfl) (.inl h01.le), interpolate_cell h y (i := 0) (by omega)
      (.inr rfl) (.inl (h0.trans h01.le)), ramp_zero h01 le_rfl, ramp_zero h01 h0]
  · rcases le_total t (xs.getD (xs.length - 1) 0) with h1 | h1
    · rw [min_eq_right h1, max_eq_right h0]
    · have e := show xs.length - 2 + 1 = xs.length - 1 by omega
      rw [min_eq_left h1, max_eq_right hle, interpolate_cell h y (i := xs.length - 2) (by omega)
        (.inl hlast.le) (.inr (by omega)), interpolate_cell h y (i := xs.length - 2) (by omega)
        (.inl (hlast.le.trans h1)) (.inr (by omega)), e, ramp_one hlast le_rfl, ramp_one hlast h1]

/-- **C69.** The variance depends continuously on time and strike, and outside the grid it is that
of the nearest point of the grid. -/
theorem C69_continuous {expiries strikes : List ℝ} {vols : List (List ℝ)} {spot rd rf : ℝ}
    {v : LocalVol} (h : LocalVol.build expiries strikes vols spot rd rf = .ok v) :
    (∃ g : ℝ × ℝ → ℝ, Continuous g ∧ ∀ t k, v.localVariance t k = .ok (g (t, k)))
    ∧ ∀ t k, v.localVariance t k
      = v.localVariance (intoRange expiries t) (intoRange strikes k) := by
  obtain ⟨h1, h2, h3, h4, h5, h6, h7, h9, h8⟩ := build_ok h
  refine ⟨⟨fun p => interpolate v.expiries
    (fun i => interpolate v.strikes (fun j => v.node i j) p.2) p.1, ?_, fun t k =>
      localVariance_interpolate h t k⟩, fun t k => ?_⟩
  · have hr : ∀ a b, Continuous fun p : ℝ × ℝ => ramp a b p.1 := fun a b =>
      (continuous_ramp a b).comp continuous_fst
    have hr2 : ∀ a b, Continuous fun p : ℝ × ℝ => ramp a b p.2 := fun a b =>
      (continuous_ramp a b).comp continuous_snd
    have hin : ∀ i, Continuous fun p : ℝ × ℝ => interpolate v.strikes (fun j => v.node i j) p.2 := by
      intro i
      unfold interpolate
      exact continuous_const.add (continuous_finsetSum _ fun j _ => (hr2 _ _).mul continuous_const)
    unfold interpolate
    exact (hin 0).add (continuous_finsetSum _ fun i _ => (hr _ _).mul ((hin (i + 1)).sub (hin i)))
  · rw [localVariance_interpolate h, localVariance_interpolate h, h6, h7,
      intoRange_mem h3 (by omega) t]
    refine congrArg Outcome.ok (congrArg (fun y => interpolate expiries y t) ?_)
    funext i
    rw [intoRange_mem h4 (by omega) k]

/-- Before the first expiry and above the last strike. -/
example : exSmile.localVariance 0 7 = exSmile.localVariance 1 3 := by
  rw [(C69_continuous exSmile_build).2 0 7]
  norm_num [intoRange]

/-! ## The finite differences -/

/-- **C69.** The finite differences are exact, at every node and for every increasing grid: the first
differences on affine and the second on quadratic functions. -/
theorem C69_stencils (xs : List ℝ) (hl : 3 ≤ xs.length) (h : xs.Pairwise (· < ·)) (i : ℕ)
    (hi : i < xs.length) (a b c : ℝ) :
    fdT (fun k => a + b * xs.getD k 0) xs i = b
    ∧ fdK (fun k => a + b * xs.getD k 0) xs i = b
    ∧ fdKK (fun k => a + b * xs.getD k 0 + c * xs.getD k 0 ^ 2) xs i = 2 * c := by
  rw [← windowsIncrease_iff] at h
  have key : ∀ p q, p < q → q < xs.length →
      (a + b * xs.getD q 0 - (a + b * xs.getD p 0)) / (xs.getD q 0 - xs.getD p 0) = b := by
    intro p q hpq hq
    have := incr_lt h hpq hq
    rw [show a + b * xs.getD q 0 - (a + b * xs.getD p 0) = b * (xs.getD q 0 - xs.getD p 0) by ring,
      mul_div_assoc, div_self (by linarith), mul_one]
  have hT : fdT (fun k => a + b * xs.getD k 0) xs i = b := by
    unfold fdT
    dsimp only
    split
    · exact key 0 1 (by omega) (by omega)
    · split
      · exact key _ _ (by omega) (by omega)
      · exact key _ _ (by omega) (by omega)
  refine ⟨hT, hT, ?_⟩
  have key2 : ∀ p, 1 ≤ p → p + 1 < xs.length →
      fdKKInner (fun k => a + b * xs.getD k 0 + c * xs.getD k 0 ^ 2) xs p = 2 * c := by
    intro p h1 h2
    have q1 := incr_lt h (by omega : p - 1 < p) (by omega)
    have q2 := incr_lt h (by omega : p < p + 1) h2
    unfold fdKKInner
    dsimp only
    generalize xs.getD (p - 1) 0 = x at *
    generalize xs.getD p 0 = y at *
    generalize xs.getD (p + 1) 0 = z at *
    have n1 : y - x ≠ 0 := by linarith
    have n2 : z - y ≠ 0 := by linarith
    have n3 : y - x + (z - y) ≠ 0 := by linarith
    rw [div_eq_iff (by positivity)]
    ring
  unfold fdKK
  dsimp only
  split
  · exact key2 1 (by omega) (by omega)
  · split
    · exact key2 _ (by omega) (by omega)
    · exact key2 _ (by omega) (by omega)

example : fdKK (fun k => 5 * [(1 : ℝ), 3 / 2, 3].getD k 0 ^ 2) [1, 3 / 2, 3] 0 = 10 := by
  have := (C69_stencils [1, 3 / 2, 3] (by simp) (by norm_num) 0 (by simp) 0 0 5).2.2
  norm_num at this ⊢
  exact this

/-! ## Dupire's formula -/

/-- **C69.** If the quotes come from a price surface that solves the forward equation with local
variance `s`, then on every sufficiently fine grid the variance at the node is as close to `s` as
wanted (moved into the admissible band).  The grid may be irregular and the node may lie on its
edge; the strikes must be convex enough for the floor on the denominator. -/
theorem C69_recovers (C : ℝ → ℝ → ℝ) (D : ℝ → ℝ) (rd rf T K ct ckk s : ℝ)
    (h : HasLocalVariance C D rd rf T K ct ckk s) (hs : 0 < s) (hc : 1 / 10 ^ 8 < K ^ 2 * ckk)
    (ε : ℝ) (hε : 0 < ε) :
    ∃ δ > 0, ∀ (expiries strikes : List ℝ) (vols : List (List ℝ)) (spot : ℝ) (v : LocalVol)
      (i j : ℕ), LocalVol.build expiries strikes vols spot rd rf = .ok v →
      GridNear expiries strikes vols spot rd rf C T K δ i j →
      |v.node i j - intoBand s| < ε := by
  have hd : (0 : ℝ) < K ^ 2 * ckk := lt_trans (by norm_num) hc
  have hn : 0 < 1 / 2 * s * K ^ 2 * ckk := by
    rw [mul_assoc]; positivity
  obtain ⟨η, hη, hq⟩ := quotient_near (n := 1 / 2 * s * K ^ 2 * ckk) hd hε
  set η' := min η (min ((1 / 2 * s * K ^ 2 * ckk) / 2) ((K ^ 2 * ckk - 1 / 10 ^ 8) / 2)) with hη'
  have p1 : 0 < (K ^ 2 * ckk - 1 / 10 ^ 8) / 2 := by linarith
  have hpos : 0 < η' := lt_min hη (lt_min (by positivity) p1)
  obtain ⟨δ, hδ, hb⟩ := dupire_near h hpos
  refine ⟨δ, hδ, fun X Y vols spot v i j hv hg => ?_⟩
  obtain ⟨h1, h2, h3, h4, h5, h6, h7, h9, h8⟩ := build_ok hv
  obtain ⟨b1, b2⟩ := hb X Y vols spot i j h3 h4 h1 h2 hg
  obtain ⟨-, hq2⟩ := hq _ _ (b1.trans (min_le_left _ _)) (b2.trans (min_le_left _ _))
  have c1 := b1.trans ((min_le_right _ _).trans (min_le_left _ _))
  have c2 := b2.trans ((min_le_right _ _).trans (min_le_right _ _))
  rw [abs_le] at c1 c2
  rw [(h8 i hg.row j hg.col).2, nodeVariance_eq, if_pos ⟨by linarith, by linarith⟩]
  refine (intoBand_lipschitz _ _).trans_lt ?_
  have : 2 * (1 / 2 * s * K ^ 2 * ckk) / (K ^ 2 * ckk) = s := by
    rw [div_eq_iff hd.ne']; ring
  rwa [this] at hq2

/-- **C69.** Black prices whose total variance `w` depends on the expiry only have the local variance
`w'`. -/
theorem C69_term_structure (spot rd rf T K : ℝ) (w : ℝ → ℝ) (w' : ℝ) (hS : 0 < spot) (hT : 0 < T)
    (hK : 0 < K) (hw : 0 < w T) (hd : HasDerivAt w w' T) :
    ∃ D ct ckk, 0 < ckk
      ∧ ckk = Real.exp (-rd * T)
        * (normPdf (bd2 (spot * Real.exp ((rd - rf) * T)) K √(w T)) / (K * √(w T)))
      ∧ HasLocalVariance (termCall spot rd rf w) D rd rf T K ct ckk w' := by
  have hterm : ∀ t, 0 < t → 0 < w t → ∀ k, termCall spot rd rf w t k
      = Real.exp (-rd * t) * blackCore (spot * Real.exp ((rd - rf) * t)) k (√(w t)) := by
    intro t ht hwt k
    rw [termCall, quotedCall, bsCall_core (Real.sqrt_pos.2 (by positivity)) ht,
      ← Real.sqrt_mul (by positivity), div_mul_cancel₀ _ ht.ne']
  set F := fun t => spot * Real.exp ((rd - rf) * t) with hFd
  have hF : 0 < F T := by positivity
  have hs : 0 < √(w T) := Real.sqrt_pos.2 hw
  have dF : HasDerivAt F ((rd - rf) * F T) T := by
    have := (((hasDerivAt_id T).const_mul (rd - rf)).exp).const_mul spot
    refine this.congr_deriv ?_
    simp only [hFd, id]
    ring
  have ds : HasDerivAt (fun t => √(w t)) (w' / (2 * √(w T))) T := hd.sqrt hw.ne'
  have dB := hasDerivAt_blackCore_T hF hK hs.ne' dF ds
  have dE : HasDerivAt (fun t => Real.exp (-rd * t)) (-rd * Real.exp (-rd * T)) T := by
    refine (((hasDerivAt_id T).const_mul (-rd)).exp).congr_deriv ?_
    simp only [id]
    ring
  have dC := dE.mul dB
  refine ⟨fun k => Real.exp (-rd * T) * -normCdf (bd2 (F T) k √(w T)),
    -rd * Real.exp (-rd * T) * blackCore (F T) K √(w T)
      + Real.exp (-rd * T) * ((rd - rf) * F T * normCdf (bd1 (F T) K √(w T))
        + F T * normPdf (bd1 (F T) K √(w T)) * (w' / (2 * √(w T)))),
    Real.exp (-rd * T) * (normPdf (bd2 (F T) K √(w T)) / (K * √(w T))), ?_, rfl, ?_, ?_, ?_, ?_⟩
  · have := normPdf_pos (bd2 (F T) K √(w T))
    positivity
  · refine dC.congr_of_eventuallyEq ?_
    filter_upwards [lt_mem_nhds hT, hd.continuousAt.eventually (lt_mem_nhds hw)] with t ht hwt
    exact hterm t ht hwt K
  · filter_upwards [lt_mem_nhds hK] with k hk
    refine ((hasDerivAt_blackCore_K hF hk hs.ne').const_mul (Real.exp (-rd * T))).congr_of_eventuallyEq
      (Eventually.of_forall fun k => ?_)
    exact hterm T hT hw k
  · exact (hasStrictDerivAt_cdf_d2_K hF hK).const_mul _
  · rw [hterm T hT hw K, blackCore]
    have hb := black_pdf hF hK hs.ne'
    generalize normPdf (bd1 (F T) K √(w T)) = p1 at *
    generalize normPdf (bd2 (F T) K √(w T)) = p2 at *
    have e1 : F T * p1 * (w' / (2 * √(w T))) = K * p2 * (w' / (2 * √(w T))) := by rw [hb]
    have e2 : 1 / 2 * w' * K ^ 2 * (Real.exp (-rd * T) * (p2 / (K * √(w T))))
        = Real.exp (-rd * T) * (K * p2 * (w' / (2 * √(w T)))) := by
      field_simp
    rw [e2, e1]
    ring

/-- **C69.** A flat volatility is recovered: on every sufficiently fine grid of quotes at the same
volatility the variance at the node is as close to its square as wanted (moved into the band). -/
theorem C69_flat (spot rd rf T K σ : ℝ) (hS : 0 < spot) (hT : 0 < T) (hK : 0 < K) (hσ : 0 < σ)
    (ε : ℝ) (hε : 0 < ε) :
    ∃ δ > 0, ∀ (expiries strikes : List ℝ) (vols : List (List ℝ)) (v : LocalVol) (i j : ℕ),
      LocalVol.build expiries strikes vols spot rd rf = .ok v →
      (∀ row ∈ vols, ∀ x ∈ row, x = σ) →
      i < expiries.length → j < strikes.length → expiries.getD i 0 = T → strikes.getD j 0 = K →
      (∀ a < expiries.length, a ≤ i + 1 → i ≤ a + 1 → |expiries.getD a 0 - T| < δ) →
      (∀ b < strikes.length, b ≤ j + 2 → j ≤ b + 2 → |strikes.getD b 0 - K| < δ) →
      |v.node i j - intoBand (σ ^ 2)| < ε := by
  have hw : HasDerivAt (fun t => σ ^ 2 * t) (σ ^ 2) T := by
    simpa using (hasDerivAt_id T).const_mul (σ ^ 2)
  obtain ⟨D, ct, ckk, hp, -, hl⟩ := C69_term_structure spot rd rf T K (fun t => σ ^ 2 * t) (σ ^ 2) hS hT
    hK (by positivity) hw
  have hd : 0 < K ^ 2 * ckk := by positivity
  obtain ⟨η, hη, hq⟩ := quotient_near (n := 1 / 2 * σ ^ 2 * K ^ 2 * ckk) hd hε
  obtain ⟨δ, hδ, hb⟩ := dupire_near hl hη
  refine ⟨min δ T, by positivity, fun X Y vols v i j hv hf hi hj eT eK nT nK => ?_⟩
  obtain ⟨h1, h2, h3, h4, h5, h6, h7, h9, h8⟩ := build_ok hv
  have hval : ∀ a < X.length, ∀ b < Y.length, (vols.getD a []).getD b 0 = σ := by
    intro a ha b hb'
    have ha' : a < vols.length := by rw [h9.1]; exact ha
    have hr := h9.2 _ (List.getElem_mem ha')
    rw [show vols.getD a [] = vols[a] by simp [List.getD_eq_getElem?_getD, ha'],
      show vols[a].getD b 0 = vols[a][b]'(by omega) by
        rw [List.getD_eq_getElem?_getD, List.getElem?_eq_getElem (by omega)]; rfl]
    exact hf _ (List.getElem_mem ha') _ (List.getElem_mem _)
  have hroot : ∀ t : ℝ, 0 < t → √(σ ^ 2 * t / t) = σ := by
    intro t ht
    rw [mul_div_assoc, div_self ht.ne', mul_one, Real.sqrt_sq hσ.le]
  have hg : GridNear X Y vols spot rd rf (termCall spot rd rf fun t => σ ^ 2 * t) T K δ i j := by
    refine ⟨hi, hj, eT, eK, fun a ha p1 p2 => ?_, fun b hb' p1 p2 => ?_⟩
    · have hn := nT a ha p1 p2
      have hpos : 0 < X.getD a 0 := by
        have := hn.trans_le (min_le_right _ _)
        rw [abs_lt] at this
        linarith
      refine ⟨hn.trans_le (min_le_left _ _), ?_⟩
      rw [hval a ha j hj, termCall, hroot _ hpos]
    · refine ⟨(nK b hb' p1 p2).trans_le (min_le_left _ _), ?_⟩
      rw [hval i hi b hb', termCall, hroot _ hT]
  obtain ⟨b1, b2⟩ := hb X Y vols spot i j h3 h4 h1 h2 hg
  obtain ⟨-, hq2⟩ := hq _ _ b1 b2
  rw [(h8 i hi j hj).2, nodeVariance_eq]
  refine (intoBand_lipschitz _ _).trans_lt ?_
  split
  · have : 2 * (1 / 2 * σ ^ 2 * K ^ 2 * ckk) / (K ^ 2 * ckk) = σ ^ 2 := by
      rw [div_eq_iff hd.ne']; ring
    rwa [this] at hq2
  · rw [hval i hi j hj, ← sq, sub_self, abs_zero]
    exact hε

/-- A volatility of 10%: the band does not interfere. -/
example : ∃ δ > 0, ∀ (expiries strikes : List ℝ) (vols : List (List ℝ)) (v : LocalVol) (i j : ℕ),
    LocalVol.build expiries strikes vols 2 (1 / 50) (1 / 100) = .ok v →
    (∀ row ∈ vols, ∀ x ∈ row, x = 1 / 10) →
    i < expiries.length → j < strikes.length → expiries.getD i 0 = 1 → strikes.getD j 0 = 2 →
    (∀ a < expiries.length, a ≤ i + 1 → i ≤ a + 1 → |expiries.getD a 0 - 1| < δ) →
    (∀ b < strikes.length, b ≤ j + 2 → j ≤ b + 2 → |strikes.getD b 0 - 2| < δ) →
    |v.node i j - 1 / 100| < 1 / 1000000 := by
  have := C69_flat 2 (1 / 50) (1 / 100) 1 2 (1 / 10) (by norm_num) (by norm_num) (by norm_num)
    (by norm_num) (1 / 1000000) (by norm_num)
  rwa [show intoBand ((1 / 10) ^ 2) = 1 / 100 by norm_num [intoBand]] at this

/-- A rising term structure has a local variance above the implied one: `w(T) = T² / 100` at one
year has implied variance 1/100 and local variance 1/50. -/
example : ∃ D ct ckk, 0 < ckk
    ∧ HasLocalVariance (termCall 2 0 0 fun t => t ^ 2 / 100) D 0 0 1 2 ct ckk (1 / 50) := by
  obtain ⟨D, ct, ckk, h, -, h'⟩ := C69_term_structure 2 0 0 1 2 (fun t => t ^ 2 / 100) (1 / 50)
    (by norm_num) (by norm_num) (by norm_num) (by norm_num)
    (((hasDerivAt_pow 2 (1 : ℝ)).div_const 100).congr_deriv (by norm_num))
  exact ⟨D, ct, ckk, h, h'⟩

/-- At the money this surface is convex enough for `C69_recovers`: fine grids find 1/50. -/
example : ∃ δ > 0, ∀ (expiries strikes : List ℝ) (vols : List (List ℝ)) (spot : ℝ) (v : LocalVol)
    (i j : ℕ), LocalVol.build expiries strikes vols spot 0 0 = .ok v →
    GridNear expiries strikes vols spot 0 0 (termCall 2 0 0 fun t => t ^ 2 / 100) 1 2 δ i j →
    |v.node i j - 1 / 50| < 1 / 1000000 := by
  obtain ⟨D, ct, ckk, -, he, h⟩ := C69_term_structure 2 0 0 1 2 (fun t => t ^ 2 / 100) (1 / 50)
    (by norm_num) (by norm_num) (by norm_num) (by norm_num)
    (((hasDerivAt_pow 2 (1 : ℝ)).div_const 100).congr_deriv (by norm_num))
  have hs : √((1 : ℝ) ^ 2 / 100) = 1 / 10 := by
    rw [show ((1 : ℝ) ^ 2 / 100) = (1 / 10) ^ 2 by norm_num, Real.sqrt_sq (by norm_num)]
  have hb : bd2 (2 * Real.exp ((0 - 0) * 1)) 2 (1 / 10) = -(1 / 20) := by
    norm_num [bd2, bd1]
  beta_reduce at he
  rw [hs, hb] at he
  have hpdf : 1 / 10 ≤ normPdf (-(1 / 20)) := by
    unfold normPdf
    have h1 := Real.add_one_le_exp (-((-(1 / 20) : ℝ) ^ 2) / 2)
    have h2 : √(2 * Real.pi) ≤ 3 := by
      rw [Real.sqrt_le_left (by norm_num)]
      have := Real.pi_le_four
      linarith
    have h3 : 0 < √(2 * Real.pi) := by positivity
    rw [le_div_iff₀ h3]
    have h4 : (3 : ℝ) / 10 ≤ -((-(1 / 20) : ℝ) ^ 2) / 2 + 1 := by norm_num
    linarith
  have := C69_recovers _ D 0 0 1 2 ct ckk (1 / 50) h (by norm_num) (by
    rw [he, neg_zero, zero_mul, Real.exp_zero]
    norm_num
    linarith) (1 / 1000000) (by norm_num)
  rwa [show intoBand (1 / 50) = 1 / 50 by norm_num [intoBand]] at this

/-- **C69.** Where the quotes are not convex in the strike (up to the floor) or the formula's
numerator is not positive, the node gets the implied variance, moved into the band. -/
theorem C69_arbitrage {expiries strikes : List ℝ} {vols : List (List ℝ)} {spot rd rf : ℝ}
    {v : LocalVol} (h : LocalVol.build expiries strikes vols spot rd rf = .ok v) (i j : ℕ)
    (hi : i < expiries.length) (hj : 1 ≤ j) (hj' : j + 1 < strikes.length) (q : ℕ → ℝ)
    (hq : ∀ b < strikes.length, q b = quotedCall spot rd rf (expiries.getD i 0) (strikes.getD b 0)
      ((vols.getD i []).getD b 0))
    (ha : q (j + 1) * (strikes.getD j 0 - strikes.getD (j - 1) 0)
        + q (j - 1) * (strikes.getD (j + 1) 0 - strikes.getD j 0)
      ≤ q j * (strikes.getD (j + 1) 0 - strikes.getD (j - 1) 0)) :
    v.node i j = intoBand ((vols.getD i []).getD j 0 ^ 2) := by
  obtain ⟨h1, h2, h3, h4, h5, h6, h7, h9, h8⟩ := build_ok h
  rw [(h8 i hi j (by omega)).2, nodeVariance_eq, if_neg, sq]
  rintro ⟨hc, -⟩
  have q1 := incr_lt h4 (by omega : j - 1 < j) (by omega)
  have q2 := incr_lt h4 (by omega : j < j + 1) hj'
  have hp : ∀ b < strikes.length, gridPrice expiries strikes vols spot rd rf i b = q b :=
    fun b hb => (hq b hb).symm
  rw [dupireDenom, fdKK] at hc
  rw [if_neg (by omega), if_neg (by omega), fdKKInner] at hc
  dsimp only at hc
  rw [hp j (by omega), hp (j - 1) (by omega), hp (j + 1) hj'] at hc
  have hneg : 2 * (q (j + 1) * (strikes.getD j 0 - strikes.getD (j - 1) 0)
      - q j * (strikes.getD j 0 - strikes.getD (j - 1) 0 + (strikes.getD (j + 1) 0 - strikes.getD j 0))
      + q (j - 1) * (strikes.getD (j + 1) 0 - strikes.getD j 0))
      / ((strikes.getD j 0 - strikes.getD (j - 1) 0) * (strikes.getD (j + 1) 0 - strikes.getD j 0)
        * (strikes.getD j 0 - strikes.getD (j - 1) 0
          + (strikes.getD (j + 1) 0 - strikes.getD j 0))) ≤ 0 := by
    have p1 : 0 < strikes.getD j 0 - strikes.getD (j - 1) 0 := by linarith
    have p2 : 0 < strikes.getD (j + 1) 0 - strikes.getD j 0 := by linarith
    refine div_nonpos_of_nonpos_of_nonneg ?_ (by positivity)
    nlinarith
  have hm : strikes.getD j 0 * strikes.getD j 0 * (2 * (q (j + 1)
      * (strikes.getD j 0 - strikes.getD (j - 1) 0)
      - q j * (strikes.getD j 0 - strikes.getD (j - 1) 0 + (strikes.getD (j + 1) 0 - strikes.getD j 0))
      + q (j - 1) * (strikes.getD (j + 1) 0 - strikes.getD j 0))
      / ((strikes.getD j 0 - strikes.getD (j - 1) 0) * (strikes.getD (j + 1) 0 - strikes.getD j 0)
        * (strikes.getD j 0 - strikes.getD (j - 1) 0
          + (strikes.getD (j + 1) 0 - strikes.getD j 0)))) ≤ 0 :=
    mul_nonpos_of_nonneg_of_nonpos (mul_self_nonneg _) hneg
  have : (0 : ℝ) < 1 / 10 ^ 8 := by norm_num
  linarith

/-- In the money without volatility the quotes are linear in the strike. -/
example (v : LocalVol) (h : LocalVol.build [1, 2, 3] [1, 5 / 4, 3 / 2] (List.replicate 3 [0, 0, 0])
    2 0 0 = .ok v) : v.node 1 1 = 1 / 10000 := by
  have := C69_arbitrage h 1 1 (by simp) le_rfl (by simp)
    (fun b => 2 - [(1 : ℝ), 5 / 4, 3 / 2].getD b 0) (fun b hb => ?_) (by norm_num)
  · rw [this]; norm_num [intoBand]
  · have hb : b < 3 := hb
    interval_cases b <;> norm_num [quotedCall, bsCallForward]

/-- **C69, refuted in the code.** A flat volatility outside the band is not recovered by any grid. -/
theorem C69_band_false (expiries strikes : List ℝ) (vols : List (List ℝ)) (spot rd rf σ : ℝ)
    (hσ : 0 < σ ∧ σ < 1 / 100 ∨ 2 < σ) (v : LocalVol)
    (h : LocalVol.build expiries strikes vols spot rd rf = .ok v) (t k : ℝ) :
    v.localVol t k ≠ .ok σ := by
  obtain ⟨x, -, -, -, h1, h2, h3⟩ := C69_band h t k
  rw [h1]
  intro e
  injection e with e
  rcases hσ with ⟨-, hσ⟩ | hσ <;> linarith

/-- The quotes of the next refutation: no volatility, both rates at `-ln 2`. -/
theorem scaled_node (c : ℝ) (hc : 0 < c) :
    ∃ v, LocalVol.build [1, 2, 3] [c * 1, c * (3 / 2), c * 3] (List.replicate 3 [0, 0, 0]) (c * 2)
        (-Real.log 2) (-Real.log 2) = .ok v
      ∧ v.node 1 1 = intoBand (if 1 / 10 ^ 8 < 6 * c then (3 - 4 * Real.log 2) / 6 else 0) := by
  have hb := (C69_build [1, 2, 3] [c * 1, c * (3 / 2), c * 3] (List.replicate 3 [0, 0, 0]) (c * 2)
    (-Real.log 2) (-Real.log 2)).1 (by
      refine ⟨by simp, by simp, by simp, by simp, by norm_num, ?_, by positivity⟩
      simp only [List.pairwise_cons, List.mem_cons, List.not_mem_nil, or_false, forall_eq_or_imp,
        forall_eq, List.Pairwise.nil, and_true, IsEmpty.forall_iff, implies_true]
      refine ⟨⟨?_, ?_⟩, ?_⟩ <;> nlinarith)
  obtain ⟨v, hv, -⟩ := hb
  refine ⟨v, hv, ?_⟩
  obtain ⟨-, -, -, -, -, -, -, -, h8⟩ := build_ok hv
  rw [(h8 1 (by simp) 1 (by simp)).2, nodeVariance_eq]
  have hexp : ∀ n : ℕ, Real.exp (- -Real.log 2 * n) = 2 ^ n := by
    intro n
    rw [neg_neg, mul_comm, ← Real.log_pow, Real.exp_log (by positivity)]
  have hp : ∀ i j, gridPrice [1, 2, 3] [c * 1, c * (3 / 2), c * 3] (List.replicate 3 [0, 0, 0])
      (c * 2) (-Real.log 2) (-Real.log 2) i j
      = Real.exp (- -Real.log 2 * [(1 : ℝ), 2, 3].getD i 0)
        * max (c * 2 - [c * 1, c * (3 / 2), c * 3].getD j 0) 0 := by
    intro i j
    unfold gridPrice bsCallForward
    dsimp only
    rw [if_pos, sub_self, zero_mul, Real.exp_zero, mul_one]
    left
    have : ∀ i j : ℕ, ((List.replicate 3 [(0 : ℝ), 0, 0]).getD i []).getD j 0 = 0 := by
      intro i j
      rcases i with _ | _ | _ | i <;> rcases j with _ | _ | _ | j <;> simp
    rw [this]
  have m0 : max (c * 2 - c * 1) 0 = c := by rw [max_eq_left (by linarith)]; ring
  have m1 : max (c * 2 - c * (3 / 2)) 0 = c / 2 := by rw [max_eq_left (by linarith)]; ring
  have m2 : max (c * 2 - c * 3) 0 = 0 := max_eq_right (by linarith)
  have x1 : Real.exp (- -Real.log 2 * 1) = 2 := by simpa using hexp 1
  have x2 : Real.exp (- -Real.log 2 * 2) = 4 := by
    have := hexp 2; push_cast at this; rw [this]; norm_num
  have x3 : Real.exp (- -Real.log 2 * 3) = 8 := by
    have := hexp 3; push_cast at this; rw [this]; norm_num
  have g01 := hp 0 1
  have g10 := hp 1 0
  have g11 := hp 1 1
  have g12 := hp 1 2
  have g21 := hp 2 1
  change _ = Real.exp (- -Real.log 2 * 1) * max (c * 2 - c * (3 / 2)) 0 at g01
  change _ = Real.exp (- -Real.log 2 * 2) * max (c * 2 - c * 1) 0 at g10
  change _ = Real.exp (- -Real.log 2 * 2) * max (c * 2 - c * (3 / 2)) 0 at g11
  change _ = Real.exp (- -Real.log 2 * 2) * max (c * 2 - c * 3) 0 at g12
  change _ = Real.exp (- -Real.log 2 * 3) * max (c * 2 - c * (3 / 2)) 0 at g21
  rw [x1, m1] at g01
  rw [x2, m0] at g10
  rw [x2, m1] at g11
  rw [x2, m2] at g12
  rw [x3, m1] at g21
  have hn : dupireNumer [1, 2, 3] [c * 1, c * (3 / 2), c * 3] (List.replicate 3 [0, 0, 0]) (c * 2)
      (-Real.log 2) (-Real.log 2) 1 1 = c * (3 / 2 - 2 * Real.log 2) := by
    unfold dupireNumer fdT
    rw [g11]
    dsimp only
    rw [if_neg (by norm_num), if_neg (by simp), g21, g01, sub_self, zero_mul]
    change (8 * (c / 2) - 2 * (c / 2)) / ((3 : ℝ) - 1) + 0 * _ + _ = _
    ring
  have hd : dupireDenom [1, 2, 3] [c * 1, c * (3 / 2), c * 3] (List.replicate 3 [0, 0, 0]) (c * 2)
      (-Real.log 2) (-Real.log 2) 1 1 = 6 * c := by
    unfold dupireDenom fdKK fdKKInner
    dsimp only
    rw [if_neg (by norm_num), if_neg (by simp), g11, g12, g10]
    change c * (3 / 2) * (c * (3 / 2)) * (2 * (4 * 0 * (c * (3 / 2) - c * 1)
      - 4 * (c / 2) * (c * (3 / 2) - c * 1 + (c * 3 - c * (3 / 2)))
      + 4 * c * (c * 3 - c * (3 / 2))) / ((c * (3 / 2) - c * 1) * (c * 3 - c * (3 / 2))
        * (c * (3 / 2) - c * 1 + (c * 3 - c * (3 / 2))))) = _
    rw [show c * (3 / 2) - c * 1 = c / 2 by ring, show c * 3 - c * (3 / 2) = c * (3 / 2) by ring]
    field_simp
    ring
  have hlog : 0 < 3 / 2 - 2 * Real.log 2 := by linarith [Real.log_two_lt_d9]
  rw [hn, hd]
  refine congrArg intoBand ?_
  by_cases h6 : 1 / 10 ^ 8 < 6 * c
  · rw [if_pos ⟨h6, by positivity⟩, if_pos h6]
    field_simp
    ring
  · rw [if_neg (fun h => h6 h.1), if_neg h6]
    simp

/-- **C69, refuted in the code.** The surface depends on the unit of the FX rate: the same quotes
with spot and strikes a billionth of the size give another variance, because the floor on the
denominator does not scale. -/
theorem C69_scale_false : ∃ (expiries strikes : List ℝ) (vols : List (List ℝ)) (spot rd rf c : ℝ)
    (v v' : LocalVol), 0 < c ∧ LocalVol.build expiries strikes vols spot rd rf = .ok v
      ∧ LocalVol.build expiries (strikes.map (c * ·)) vols (c * spot) rd rf = .ok v'
      ∧ v.node 1 1 ≠ v'.node 1 1 := by
  obtain ⟨v, hv, hn⟩ := scaled_node 1 one_pos
  obtain ⟨v', hv', hn'⟩ := scaled_node (1 / 10 ^ 9) (by norm_num)
  refine ⟨[1, 2, 3], [1 * 1, 1 * (3 / 2), 1 * 3], List.replicate 3 [0, 0, 0], 1 * 2, -Real.log 2,
    -Real.log 2, 1 / 10 ^ 9, v, v', by norm_num, hv, ?_, ?_⟩
  · rw [← hv']
    simp
  · rw [hn, hn', if_pos (by norm_num), if_neg (by norm_num), intoBand, intoBand]
    have h1 := Real.log_two_lt_d9
    have h2 := Real.log_two_gt_d9
    rw [min_eq_right (by linarith), max_eq_right (by linarith), min_eq_right (by norm_num),
      max_eq_left (by norm_num)]
    intro e
    linarith

end Verif
