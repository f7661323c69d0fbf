import Verif.Lemmas.TdSabrCal

/-! # Monotonicity of the effective vol-vol in its last value -/

namespace Verif

open Outcome

/-- `∫ ω² e^{5G}` over the segments. -/
noncomputable def hAccX : ℝ → List Seg → ℝ
  | _, [] => 0
  | g, s :: rest =>
    s.omega * s.omega * Real.exp (5 * g) * expInt (5 * (s.gamma * s.gamma)) s.delta
      + hAccX (g + s.gamma * s.gamma * s.delta) rest

theorem iX_snoc : ∀ (pre : List Seg) (g : ℝ) (s : Seg), iX g (pre ++ [s]) =
    iX g pre + s.omega * s.omega * Real.exp (g + segVar pre) * expInt (s.gamma * s.gamma) s.delta
  | [], g, s => by simp [iX, segVar]
  | a :: pre, g, s => by
    rw [List.cons_append, iX, iX_snoc pre, iX, segVar, ← add_assoc g]
    ring

theorem lhsX_snoc : ∀ (pre : List Seg) (g h : ℝ) (s : Seg), lhsX g h (pre ++ [s]) =
    lhsX g h pre + s.omega * s.omega * Real.exp (g + segVar pre) * (h + hAccX g pre) *
      expInt (s.gamma * s.gamma) s.delta
    + s.omega * s.omega * (s.omega * s.omega) * Real.exp (6 * (g + segVar pre)) *
      expKer (s.gamma * s.gamma) s.delta
  | [], g, h, s => by simp [lhsX, segVar, hAccX]
  | a :: pre, g, h, s => by
    rw [List.cons_append, lhsX, lhsX_snoc pre, lhsX, segVar, hAccX, ← add_assoc g, ← add_assoc h]
    ring

/-- A double integral over a triangle is at most half of the one over the square. -/
theorem expKer_le_mul {c d : ℝ} (hc : 0 ≤ c) (hd : 0 ≤ d) :
    2 * expKer c d ≤ expInt (5 * c) d * expInt c d := by
  rcases eq_or_lt_of_le hc with h | h
  · rw [← h, expKer_zero, mul_zero, expInt_zero]
    exact le_of_eq (by ring)
  · rw [expKer_eq h.ne', innerX_factor, expInt_ne (show 5 * c ≠ 0 by positivity), expInt_ne h.ne',
      show 5 * c * d = (5 : ℕ) * (c * d) by push_cast; ring, Real.exp_nat_mul]
    set u := Real.exp (c * d) with hu
    have hu1 : 1 ≤ u := Real.one_le_exp (by positivity)
    have e : (u ^ 5 - 1) / (5 * c) * ((u - 1) / c) - 2 * ((u - 1) ^ 2 *
        (u ^ 4 + 2 * u ^ 3 + 3 * u ^ 2 + 4 * u + 5) / 6 / (5 * c ^ 2)) =
        (u - 1) ^ 2 * (2 * u ^ 4 + u ^ 3 - u - 2) / (15 * c ^ 2) := by
      field_simp
      ring
    have hq : 0 ≤ 2 * u ^ 4 + u ^ 3 - u - 2 := by
      have h3 : u ≤ u ^ 3 := le_self_pow₀ hu1 (by norm_num)
      have h4 : 1 ≤ u ^ 4 := one_le_pow₀ hu1
      linarith
    have : 0 ≤ (u - 1) ^ 2 * (2 * u ^ 4 + u ^ 3 - u - 2) / (15 * c ^ 2) := by positivity
    linarith

theorem seg_inv : ∀ (pre : List Seg) (g h i m : ℝ), (∀ s ∈ pre, 0 < s.delta) → 0 ≤ i → 0 ≤ h →
    h ≤ Real.exp (4 * g) * i → 2 * m ≤ h * i →
    h + hAccX g pre ≤ Real.exp (4 * (g + segVar pre)) * (i + iX g pre) ∧
      2 * (m + lhsX g h pre) ≤ (h + hAccX g pre) * (i + iX g pre)
  | [], g, h, i, m, _, _, _, h1, h2 => by simpa [hAccX, segVar, iX, lhsX] using ⟨h1, h2⟩
  | s :: rest, g, h, i, m, hp, hi, hh, h1, h2 => by
    have hd := (hp s (by simp)).le
    have hc := mul_self_nonneg s.gamma
    have hE := expInt_nonneg (c := s.gamma * s.gamma) hd
    have hE5 := expInt_nonneg (c := 5 * (s.gamma * s.gamma)) hd
    have hle := expInt5_le hc hd
    have hmono : expInt (s.gamma * s.gamma) s.delta ≤ expInt (5 * (s.gamma * s.gamma)) s.delta :=
      expInt_mono hd (by linarith)
    have hker := expKer_le_mul hc hd
    set E := expInt (s.gamma * s.gamma) s.delta
    set E5 := expInt (5 * (s.gamma * s.gamma)) s.delta
    set K := expKer (s.gamma * s.gamma) s.delta
    set c := s.gamma * s.gamma with hcd
    have hw := mul_self_nonneg s.omega
    set w := s.omega * s.omega
    have eg := Real.exp_pos g
    have e5 : Real.exp (5 * g) = Real.exp (4 * g) * Real.exp g := by rw [← Real.exp_add]; congr 1; ring
    have e6 : Real.exp (6 * g) = Real.exp (4 * g) * Real.exp g * Real.exp g := by
      rw [← Real.exp_add, ← Real.exp_add]; congr 1; ring
    have e4 := Real.exp_pos (4 * g)
    have hcd0 : 0 ≤ c * s.delta := mul_nonneg hc hd
    have ecd : 1 ≤ Real.exp (4 * (c * s.delta)) := Real.one_le_exp (by linarith)
    have i1 := seg_inv rest (g + c * s.delta) (h + w * Real.exp (5 * g) * E5)
      (i + w * Real.exp g * E) (m + (w * Real.exp g * h * E + w * w * Real.exp (6 * g) * K))
      (fun x hx => hp x (List.mem_cons_of_mem s hx)) (by positivity) (by positivity) (by
        rw [show 4 * (g + c * s.delta) = 4 * g + 4 * (c * s.delta) by ring, Real.exp_add, e5]
        have a1 : h ≤ Real.exp (4 * g) * Real.exp (4 * (c * s.delta)) * i := by
          have : Real.exp (4 * g) * i ≤ Real.exp (4 * g) * Real.exp (4 * (c * s.delta)) * i := by
            have := mul_le_mul_of_nonneg_left ecd (mul_nonneg e4.le hi)
            linarith
          linarith
        have a2 : w * (Real.exp (4 * g) * Real.exp g) * E5 ≤
            w * (Real.exp (4 * g) * Real.exp g) * (Real.exp (4 * (c * s.delta)) * E) :=
          mul_le_mul_of_nonneg_left hle (by positivity)
        linarith) (by
        rw [e5, e6]
        have a1 : w * Real.exp g * h * E ≤ w * (Real.exp (4 * g) * Real.exp g) * E5 * i := by
          have b1 : h * E ≤ Real.exp (4 * g) * i * E5 := mul_le_mul h1 hmono hE (by positivity)
          have := mul_le_mul_of_nonneg_left b1 (show 0 ≤ w * Real.exp g by positivity)
          linarith
        have a2 : 2 * (w * w * (Real.exp (4 * g) * Real.exp g * Real.exp g) * K) ≤
            w * (Real.exp (4 * g) * Real.exp g) * E5 * (w * Real.exp g * E) := by
          have := mul_le_mul_of_nonneg_left hker
            (show 0 ≤ w * w * (Real.exp (4 * g) * Real.exp g * Real.exp g) by positivity)
          linarith
        nlinarith)
    have eh : hAccX g (s :: rest) = w * Real.exp (5 * g) * E5 + hAccX (g + c * s.delta) rest := rfl
    have ei : iX g (s :: rest) = w * Real.exp g * E + iX (g + c * s.delta) rest := rfl
    have el : lhsX g h (s :: rest) = w * Real.exp g * h * E + w * w * Real.exp (6 * g) * K +
        lhsX (g + c * s.delta) (h + w * Real.exp (5 * g) * E5) rest := rfl
    have ev : segVar (s :: rest) = c * s.delta + segVar rest := rfl
    rw [eh, ei, el, ev]
    refine ⟨?_, ?_⟩
    · have := i1.1
      rw [← add_assoc, ← add_assoc, ← add_assoc]; exact this
    · refine le_trans (le_of_eq ?_) (i1.2.trans (le_of_eq ?_)) <;> ring

theorem hX_nonneg : ∀ (segs : List Seg) (g : ℝ), (∀ s ∈ segs, 0 < s.delta) → 0 ≤ hAccX g segs
  | [], _, _ => le_rfl
  | s :: rest, g, h => by
    have hd := h s (by simp)
    have := hX_nonneg rest (g + s.gamma * s.gamma * s.delta) fun x hx => h x (List.mem_cons_of_mem s hx)
    have := expInt_nonneg (c := 5 * (s.gamma * s.gamma)) hd.le
    have := mul_self_nonneg s.omega
    rw [hAccX]
    positivity

/-- `K/E²` is a function of the total variance of the segment. -/
theorem expKer_ratio {c : ℝ} (hc : 0 ≤ c) (d : ℝ) :
    expKer c d = quart (Real.exp (c * d)) / 30 * expInt c d ^ 2 := by
  rcases eq_or_lt_of_le hc with h | h
  · rw [← h, expKer_zero, expInt_zero]
    norm_num [quart]
    ring
  · rw [expKer_eq h.ne', innerX_factor, expInt_ne h.ne']
    unfold quart
    field_simp
    ring

/-- The algebra of the comparison: `A, M, H` are the moments of the earlier segments, `E ≤ E'` and
`K = κE²`, `K' = κ'E'²` those of the last one. -/
theorem last_ratio {A M H b q E E' k k' : ℝ} (hA : 0 ≤ A) (hb : 0 ≤ b) (hE : 0 ≤ E) (hEE : E ≤ E')
    (hk : 1 / 2 ≤ k) (hkk : k ≤ k') (hq : 0 ≤ q) (hH : H ≤ q * A) (hM : 2 * M ≤ H * A) :
    (M + b * H * E + b ^ 2 * q * (k * E ^ 2)) * (A + b * E') ^ 2 ≤
      (M + b * H * E' + b ^ 2 * q * (k' * E' ^ 2)) * (A + b * E) ^ 2 := by
  have hE' : 0 ≤ E' := hE.trans hEE
  have hd : 0 ≤ E' - E := sub_nonneg.2 hEE
  have hkp : 0 ≤ k' - k := sub_nonneg.2 hkk
  have t1 : 0 ≤ b * (A * (E' - E) * (H * A - 2 * M)) := by
    have : 0 ≤ H * A - 2 * M := by linarith
    positivity
  have hqA : 2 * M ≤ q * A ^ 2 := by nlinarith
  have t2 : 0 ≤ b ^ 2 * ((E' ^ 2 - E ^ 2) * (q * A ^ 2 / 2 - M) +
      q * A ^ 2 * ((k' - k) * E' ^ 2 + (k - 1 / 2) * (E' ^ 2 - E ^ 2))) := by
    have h1 : 0 ≤ E' ^ 2 - E ^ 2 := by nlinarith
    have h2 : 0 ≤ q * A ^ 2 / 2 - M := by linarith
    have h3 : 0 ≤ k - 1 / 2 := by linarith
    positivity
  have t3 : 0 ≤ b ^ 3 * (E * E' * ((q * A - H) * (E' - E) +
      2 * q * A * ((k' - k) * E' + (k - 1 / 2) * (E' - E)))) := by
    have h2 : 0 ≤ q * A - H := by linarith
    have h3 : 0 ≤ k - 1 / 2 := by linarith
    positivity
  have t4 : 0 ≤ b ^ 4 * (q * (k' - k) * (E ^ 2 * E' ^ 2)) := by positivity
  have e : (M + b * H * E' + b ^ 2 * q * (k' * E' ^ 2)) * (A + b * E) ^ 2 -
      (M + b * H * E + b ^ 2 * q * (k * E ^ 2)) * (A + b * E') ^ 2 =
      b * (A * (E' - E) * (H * A - 2 * M)) +
      b ^ 2 * ((E' ^ 2 - E ^ 2) * (q * A ^ 2 / 2 - M) +
        q * A ^ 2 * ((k' - k) * E' ^ 2 + (k - 1 / 2) * (E' ^ 2 - E ^ 2))) +
      b ^ 3 * (E * E' * ((q * A - H) * (E' - E) +
        2 * q * A * ((k' - k) * E' + (k - 1 / 2) * (E' - E)))) +
      b ^ 4 * (q * (k' - k) * (E ^ 2 * E' ^ 2)) := by ring
  linarith

theorem last_gamma_mono {pre : List Seg} {d a b o x y : ℝ} (hp : ∀ s ∈ pre, 0 < s.delta) (hd : 0 < d)
    (ha : 0 ≤ a) (hab : a ≤ b) (hm : 0 < iX 0 (pre ++ [⟨d, a, o⟩]))
    (h1 : lhsX 0 0 (pre ++ [⟨d, a, o⟩]) = rhsX (iX 0 (pre ++ [⟨d, a, o⟩])) x)
    (h2 : lhsX 0 0 (pre ++ [⟨d, b, o⟩]) = rhsX (iX 0 (pre ++ [⟨d, b, o⟩])) y) : x ≤ y := by
  obtain ⟨i1, i2⟩ := seg_inv pre 0 0 0 0 hp le_rfl le_rfl (by simp) (by simp)
  have hA := iX_nonneg pre 0 hp
  have hH := hX_nonneg pre 0 hp
  have haa := mul_self_nonneg a
  have hab2 : a * a ≤ b * b := mul_self_le_mul_self ha hab
  have hbb := mul_self_nonneg b
  have hE := expInt_nonneg (c := a * a) hd.le
  have hEE := expInt_mono hd.le hab2
  have hu : 1 ≤ Real.exp (a * a * d) := Real.one_le_exp (by positivity)
  have hv : Real.exp (a * a * d) ≤ Real.exp (b * b * d) :=
    Real.exp_le_exp.2 (mul_le_mul_of_nonneg_right hab2 hd.le)
  have hk : 1 / 2 ≤ quart (Real.exp (a * a * d)) / 30 := by
    have := quart_mono zero_le_one hu
    rw [show quart 1 = 15 by norm_num [quart]] at this
    linarith
  have hkk : quart (Real.exp (a * a * d)) / 30 ≤ quart (Real.exp (b * b * d)) / 30 := by
    have := quart_mono (Real.exp_pos (a * a * d)).le hv
    linarith
  simp only [zero_add] at i1 i2
  have hmb : 0 < iX 0 (pre ++ [⟨d, b, o⟩]) := by
    refine lt_of_lt_of_le hm ?_
    rw [iX_snoc, iX_snoc]
    have := mul_le_mul_of_nonneg_left hEE
      (show 0 ≤ o * o * Real.exp (0 + segVar pre) by
        have := mul_self_nonneg o
        positivity)
    simpa using this
  have key := last_ratio (A := iX 0 pre) (M := lhsX 0 0 pre) (H := hAccX 0 pre)
    (b := o * o * Real.exp (segVar pre)) (q := Real.exp (4 * segVar pre)) hA
    (mul_nonneg (mul_self_nonneg o) (Real.exp_pos _).le) hE hEE hk hkk (Real.exp_pos _).le i1 i2
  have e6 : Real.exp (6 * segVar pre) = Real.exp (segVar pre) ^ 2 * Real.exp (4 * segVar pre) := by
    rw [← Real.exp_nat_mul, ← Real.exp_add]; congr 1; push_cast; ring
  have f1 : ∀ c : ℝ, lhsX 0 0 (pre ++ [⟨d, c, o⟩]) = lhsX 0 0 pre +
      o * o * Real.exp (segVar pre) * hAccX 0 pre * expInt (c * c) d +
      (o * o * Real.exp (segVar pre)) ^ 2 * Real.exp (4 * segVar pre) *
        (quart (Real.exp (c * c * d)) / 30 * expInt (c * c) d ^ 2) := by
    intro c
    rw [lhsX_snoc]
    simp only [zero_add]
    rw [e6, expKer_ratio (mul_self_nonneg c) d]
    ring
  have f2 : ∀ c : ℝ, iX 0 (pre ++ [⟨d, c, o⟩]) = iX 0 pre + o * o * Real.exp (segVar pre) * expInt (c * c) d := by
    intro c
    rw [iX_snoc]
    simp only [zero_add]
  rw [← f1, ← f1, ← f2, ← f2, h1, h2] at key
  unfold rhsX at key
  by_contra hc
  push Not at hc
  have hlt : quart (Real.exp y) < quart (Real.exp x) := by
    have h := Real.exp_lt_exp.2 hc
    have p := Real.exp_pos y
    unfold quart
    have := pow_lt_pow_left₀ h p.le (n := 4) (by norm_num)
    have := pow_lt_pow_left₀ h p.le (n := 3) (by norm_num)
    have := pow_lt_pow_left₀ h p.le (n := 2) (by norm_num)
    linarith
  have hpos : 0 < iX 0 (pre ++ [⟨d, a, o⟩]) ^ 2 * iX 0 (pre ++ [⟨d, b, o⟩]) ^ 2 := by positivity
  nlinarith [mul_lt_mul_of_pos_left hlt hpos]

end Verif
