import Verif.Model.Cholesky
import Verif.Spec.Cholesky
import Mathlib.Algebra.Order.BigOperators.Group.Finset
import Mathlib.Algebra.BigOperators.Ring.Finset
import Mathlib.Tactic.Linarith
import Mathlib.Tactic.Ring
import Mathlib.Tactic.FieldSimp
import Mathlib.Tactic.IntervalCases
import Mathlib.Tactic.Positivity

/-!
# C52: Cholesky factorisation
-/

namespace Verif

open Classical Finset

theorem cholSum_eq (m l : Nat → Nat → ℝ) (i j : Nat) :
    cholSum m l i j = m i j - ∑ k ∈ range j, l i k * l j k := by
  rw [cholSum]
  induction j generalizing i with
  | zero => simp
  | succ j _ =>
    have key : ∀ (t : Nat) (c : ℝ) (u v : Nat → ℝ),
        (List.range t).foldl (fun s k => s - u k * v k) c = c - ∑ k ∈ range t, u k * v k := by
      intro t
      induction t with
      | zero => intro c u v; simp
      | succ t ih =>
        intro c u v
        rw [List.range_succ, List.foldl_append, ih, Finset.sum_range_succ]
        simp only [List.foldl_cons, List.foldl_nil]
        ring
    exact key _ _ _ _

/-- Entry `(a,b)` has been computed when the loop stands at `(i,j)`. -/
def Done (i j a b : Nat) : Prop := b ≤ a ∧ (a < i ∨ (a = i ∧ b < j))

/-- The part of the factor computed when the loop stands at `(i,j)` satisfies its equations. -/
structure Partial (m : Nat → Nat → ℝ) (i j : Nat) (l : Nat → Nat → ℝ) : Prop where
  eqn : ∀ a b, Done i j a b → l a b * l b b = m a b - ∑ k ∈ range b, l a k * l b k
  diag : ∀ a, Done i j a a → 0 < l a a
  rest : ∀ a b, ¬ Done i j a b → l a b = 0

theorem setEntry_ne (l : Nat → Nat → ℝ) (i j a b : Nat) (v : ℝ) (h : ¬ (a = i ∧ b = j)) :
    setEntry l i j v a b = l a b := by rw [setEntry, if_neg h]

theorem setEntry_eq (l : Nat → Nat → ℝ) (i j : Nat) (v : ℝ) : setEntry l i j v i j = v := by
  rw [setEntry, if_pos ⟨rfl, rfl⟩]

/-- Writing the next entry extends the computed part. -/
theorem Partial.extend {m : Nat → Nat → ℝ} {i j : Nat} {l : Nat → Nat → ℝ} (h : Partial m i j l)
    (hj : j ≤ i) (v : ℝ)
    (hv : v * (if i = j then v else l j j) = m i j - ∑ k ∈ range j, l i k * l j k)
    (hp : i = j → 0 < v) : Partial m i (j + 1) (setEntry l i j v) := by
  have hdone : ∀ a b, Done i (j + 1) a b ↔ Done i j a b ∨ (a = i ∧ b = j) := by
    intro a b; unfold Done; omega
  have hold : ∀ a b, Done i j a b → setEntry l i j v a b = l a b := by
    intro a b hd
    apply setEntry_ne
    unfold Done at hd; omega
  refine ⟨fun a b hd => ?_, fun a hd => ?_, fun a b hd => ?_⟩
  · rcases (hdone a b).1 hd with hd | ⟨rfl, rfl⟩
    · have hbb : Done i j b b := by unfold Done at *; omega
      rw [hold a b hd, hold b b hbb, h.eqn a b hd]
      congr 1
      refine Finset.sum_congr rfl fun k hk => ?_
      rw [Finset.mem_range] at hk
      rw [setEntry_ne _ _ _ _ _ _ (by unfold Done at hd; omega),
        setEntry_ne _ _ _ _ _ _ (by unfold Done at hd; omega)]
    · rw [setEntry_eq]
      have e : setEntry l a b v b b = if a = b then v else l b b := by
        by_cases hab : a = b
        · subst hab; rw [setEntry_eq, if_pos rfl]
        · rw [setEntry_ne _ _ _ _ _ _ (by omega), if_neg hab]
      rw [e, hv]
      congr 1
      refine Finset.sum_congr rfl fun k hk => ?_
      rw [Finset.mem_range] at hk
      rw [setEntry_ne _ _ _ _ _ _ (by omega), setEntry_ne _ _ _ _ _ _ (by omega)]
  · rcases (hdone a a).1 hd with hd | ⟨rfl, rfl⟩
    · rw [hold a a hd]; exact h.diag a hd
    · rw [setEntry_eq]; exact hp rfl
  · rw [hdone, not_or] at hd
    rw [setEntry_ne _ _ _ _ _ _ hd.2]
    exact h.rest a b hd.1

/-- The pivot at `i` is not positive. -/
def PivotFails (m : Nat → Nat → ℝ) (i : Nat) : Prop :=
  ∃ l, Partial m i i l ∧ m i i - ∑ k ∈ range i, l i k * l i k ≤ 0

theorem cholEntry_spec {m : Nat → Nat → ℝ} {i j : Nat} {l : Nat → Nat → ℝ} (h : Partial m i j l)
    (hj : j ≤ i) :
    (∃ l', cholEntry m i l j = some l' ∧ Partial m i (j + 1) l') ∨
    (cholEntry m i l j = none ∧ PivotFails m i) := by
  rw [cholEntry]
  simp only [cholSum_eq]
  by_cases hij : i = j
  · subst hij
    rw [if_pos rfl]
    by_cases hs : m i i - ∑ k ∈ range i, l i k * l i k ≤ 0
    · rw [if_pos hs]; exact Or.inr ⟨rfl, l, h, hs⟩
    · rw [if_neg hs]
      refine Or.inl ⟨_, rfl, h.extend hj _ ?_ fun _ => Real.sqrt_pos.2 (not_le.1 hs)⟩
      rw [if_pos rfl, Real.mul_self_sqrt (not_le.1 hs).le]
  · rw [if_neg hij]
    refine Or.inl ⟨_, rfl, h.extend hj _ ?_ fun e => absurd e hij⟩
    rw [if_neg hij]
    have := h.diag j (by unfold Done; omega)
    rw [div_mul_cancel₀ _ this.ne']

theorem cholRow_prefix {m : Nat → Nat → ℝ} {i : Nat} {l : Nat → Nat → ℝ} (h : Partial m i 0 l)
    (t : Nat) (ht : t ≤ i + 1) :
    (∃ l', (List.range t).foldlM (cholEntry m i) l = some l' ∧ Partial m i t l') ∨
    ((List.range t).foldlM (cholEntry m i) l = none ∧ PivotFails m i) := by
  induction t with
  | zero => exact Or.inl ⟨l, rfl, h⟩
  | succ t ih =>
    rw [List.range_succ, List.foldlM_append]
    rcases ih (by omega) with ⟨l', h1, h2⟩ | ⟨h1, h2⟩
    · rw [h1]
      rcases cholEntry_spec h2 (by omega : t ≤ i) with ⟨l'', h3, h4⟩ | ⟨h3, h4⟩
      · exact Or.inl ⟨l'', by simp [h3], h4⟩
      · exact Or.inr ⟨by simp [h3], h4⟩
    · rw [h1]; exact Or.inr ⟨rfl, h2⟩

theorem Partial.next {m : Nat → Nat → ℝ} {i : Nat} {l : Nat → Nat → ℝ} (h : Partial m i (i + 1) l) :
    Partial m (i + 1) 0 l := by
  have hd : ∀ a b, Done (i + 1) 0 a b ↔ Done i (i + 1) a b := by
    intro a b; unfold Done; omega
  exact ⟨fun a b hab => h.eqn a b ((hd a b).1 hab), fun a ha => h.diag a ((hd a a).1 ha),
    fun a b hab => h.rest a b fun hc => hab ((hd a b).2 hc)⟩

theorem cholesky_prefix (m : Nat → Nat → ℝ) (t : Nat) :
    (∃ l, (List.range t).foldlM (cholRow m) (fun _ _ => 0) = some l ∧ Partial m t 0 l) ∨
    ((List.range t).foldlM (cholRow m) (fun _ _ => 0) = none ∧ ∃ i < t, PivotFails m i) := by
  induction t with
  | zero =>
    refine Or.inl ⟨_, rfl, fun a b hd => ?_, fun a hd => ?_, fun _ _ _ => rfl⟩ <;>
    · unfold Done at hd; omega
  | succ t ih =>
    rw [List.range_succ, List.foldlM_append]
    rcases ih with ⟨l, h1, h2⟩ | ⟨h1, i, hi, h2⟩
    · rw [h1]
      rcases cholRow_prefix h2 (t + 1) le_rfl with ⟨l', h3, h4⟩ | ⟨h3, h4⟩
      · exact Or.inl ⟨l', by simp [cholRow, h3], h4.next⟩
      · exact Or.inr ⟨by simp [cholRow, h3], t, by omega, h4⟩
    · rw [h1]; exact Or.inr ⟨rfl, i, by omega, h2⟩

/-- Sums over all columns stop at the diagonal. -/
theorem Partial.product {m : Nat → Nat → ℝ} {n i j : Nat} {l : Nat → Nat → ℝ}
    (h : Partial m i j l) (a b : Nat) (hd : Done i j a b) (hbn : b < n) :
    ∑ k ∈ range n, l a k * l b k = m a b := by
  have h1 : ∑ k ∈ range n, l a k * l b k = ∑ k ∈ range (b + 1), l a k * l b k := by
    symm
    refine Finset.sum_subset (fun x hx => ?_) fun x _ hx => ?_
    · rw [Finset.mem_range] at *; omega
    · rw [Finset.mem_range, not_lt] at hx
      rw [h.rest b x (by unfold Done; omega), mul_zero]
  rw [h1, Finset.sum_range_succ, h.eqn a b hd]; ring

theorem Partial.factor {m : Nat → Nat → ℝ} {n : Nat} {l : Nat → Nat → ℝ} (h : Partial m n 0 l)
    (hs : SymmetricN n m) : CholeskyFactor n m l := by
  refine ⟨fun a _ b _ hab => h.rest a b (by unfold Done; omega), fun a ha => h.diag a ?_,
    fun a ha b hb => ?_⟩
  · unfold Done; omega
  · by_cases hab : b ≤ a
    · exact h.product a b (by unfold Done; omega) hb
    · rw [hs a ha b hb, ← h.product b a (by unfold Done; omega) ha]
      exact Finset.sum_congr rfl fun k _ => mul_comm _ _

/-- The quadratic form of `l lᵀ` is a sum of squares. -/
theorem quadForm_factor (n p : Nat) (m l : Nat → Nat → ℝ) (x : Nat → ℝ)
    (h : ∀ a < n, ∀ b < n, ∑ k ∈ range p, l a k * l b k = m a b) :
    quadForm n m x = ∑ k ∈ range p, (∑ a ∈ range n, x a * l a k) ^ 2 := by
  have e : ∀ k, (∑ a ∈ range n, x a * l a k) ^ 2 =
      ∑ a ∈ range n, ∑ b ∈ range n, x a * l a k * (x b * l b k) := by
    intro k; rw [sq, Finset.sum_mul_sum]
  rw [Finset.sum_congr rfl fun k _ => e k, Finset.sum_comm, quadForm]
  refine Finset.sum_congr rfl fun a ha => ?_
  rw [Finset.sum_comm]
  refine Finset.sum_congr rfl fun b hb => ?_
  rw [← h a (Finset.mem_range.1 ha) b (Finset.mem_range.1 hb), Finset.mul_sum, Finset.sum_mul]
  exact Finset.sum_congr rfl fun k _ => by ring

/-- A triangular system with zero right-hand side has only the zero solution. -/
theorem triangular_zero (n : Nat) (l : Nat → Nat → ℝ) (x : Nat → ℝ)
    (hl : ∀ a < n, ∀ b < n, a < b → l a b = 0) (hd : ∀ a < n, l a a ≠ 0)
    (h : ∀ k < n, ∑ a ∈ range n, x a * l a k = 0) : ∀ a < n, x a = 0 := by
  induction n with
  | zero => intro a ha; omega
  | succ n ih =>
    have hn : x n = 0 := by
      have h1 := h n (by omega)
      rw [Finset.sum_range_succ, Finset.sum_eq_zero, zero_add] at h1
      · exact (mul_eq_zero.1 h1).resolve_right (hd n (by omega))
      · intro a ha
        rw [Finset.mem_range] at ha
        rw [hl a (by omega) n (by omega) ha, mul_zero]
    intro a ha
    rcases Nat.lt_or_ge a n with h1 | h1
    · refine ih (fun a ha b hb => hl a (by omega) b (by omega)) (fun a ha => hd a (by omega))
        (fun k hk => ?_) a h1
      have h2 := h k (by omega)
      rwa [Finset.sum_range_succ, hn, zero_mul, add_zero] at h2
    · have : a = n := by omega
      rw [this, hn]

/-- Back substitution. -/
theorem triangular_solve (n : Nat) (l : Nat → Nat → ℝ)
    (hl : ∀ a < n, ∀ b < n, a < b → l a b = 0) (hd : ∀ a < n, l a a ≠ 0) (c : Nat → ℝ) :
    ∃ y : Nat → ℝ, ∀ k < n, ∑ a ∈ range n, y a * l a k = c k := by
  induction n generalizing c with
  | zero => exact ⟨fun _ => 0, fun k hk => by omega⟩
  | succ n ih =>
    obtain ⟨y, hy⟩ := ih (fun a ha b hb => hl a (by omega) b (by omega))
      (fun a ha => hd a (by omega)) (fun k => c k - c n / l n n * l n k)
    refine ⟨fun a => if a = n then c n / l n n else y a, fun k hk => ?_⟩
    rw [Finset.sum_range_succ]
    beta_reduce
    rw [if_pos rfl]
    have e : ∑ a ∈ range n, (if a = n then c n / l n n else y a) * l a k =
        ∑ a ∈ range n, y a * l a k := by
      refine Finset.sum_congr rfl fun a ha => ?_
      rw [Finset.mem_range] at ha
      rw [if_neg (by omega)]
    rw [e]
    rcases Nat.lt_or_ge k n with h1 | h1
    · rw [hy k h1]; ring
    · have : k = n := by omega
      subst this
      rw [Finset.sum_eq_zero, zero_add, div_mul_cancel₀ _ (hd k (by omega))]
      intro a ha
      rw [Finset.mem_range] at ha
      rw [hl a (by omega) k (by omega) ha, mul_zero]

/-- A matrix with a failing pivot is not positive definite. -/
theorem not_posDef_of_pivot {n i : Nat} {m : Nat → Nat → ℝ} (hi : i < n) (hs : SymmetricN n m)
    (h : PivotFails m i) : ¬ PositiveDefiniteN n m := by
  obtain ⟨l, hp, hle⟩ := h
  obtain ⟨y, hy⟩ := triangular_solve i l (fun a _ b _ hab => hp.rest a b (by unfold Done; omega))
    (fun a ha => (hp.diag a (by unfold Done; omega)).ne') (fun k => -l i k)
  intro hpd
  set x : Nat → ℝ := fun a => if a < i then y a else if a = i then 1 else 0 with hx
  have hxi : x i = 1 := by simp [hx]
  have hxlt : ∀ a < i, x a = y a := fun a ha => by simp [hx, ha]
  have hxgt : ∀ a, i < a → x a = 0 := fun a ha => by
    simp only [hx]; rw [if_neg (by omega), if_neg (by omega)]
  have hpos := hpd x ⟨i, hi, by rw [hxi]; norm_num⟩
  -- only the first `i + 1` coordinates contribute
  have hcut : ∀ g : Nat → ℝ, (∀ a, i < a → g a = 0) →
      ∑ a ∈ range n, g a = ∑ a ∈ range i, g a + g i := by
    intro g hg
    rw [← Finset.sum_range_succ]
    symm
    refine Finset.sum_subset (fun a ha => ?_) fun a _ ha => ?_
    · rw [Finset.mem_range] at *; omega
    · rw [Finset.mem_range, not_lt] at ha; exact hg a (by omega)
  have hq : quadForm n m x = quadForm i m y + 2 * ∑ a ∈ range i, y a * m a i + m i i := by
    rw [quadForm, hcut _ (fun a ha => Finset.sum_eq_zero fun b _ => by rw [hxgt a ha]; ring)]
    rw [hcut (fun b => x i * m i b * x b) (fun b hb => by rw [hxgt b hb]; ring), hxi]
    have e1 : ∑ a ∈ range i, ∑ b ∈ range n, x a * m a b * x b =
        quadForm i m y + ∑ a ∈ range i, y a * m a i := by
      rw [quadForm, ← Finset.sum_add_distrib]
      refine Finset.sum_congr rfl fun a ha => ?_
      rw [hcut (fun b => x a * m a b * x b) (fun b hb => by rw [hxgt b hb]; ring), hxi,
        hxlt a (Finset.mem_range.1 ha), mul_one]
      congr 1
      exact Finset.sum_congr rfl fun b hb => by rw [hxlt b (Finset.mem_range.1 hb)]
    have e2 : ∑ b ∈ range i, 1 * m i b * x b = ∑ a ∈ range i, y a * m a i := by
      refine Finset.sum_congr rfl fun b hb => ?_
      have hb := Finset.mem_range.1 hb
      rw [hxlt b hb, hs i hi b (by omega)]; ring
    rw [e1, e2]; ring
  have hfac : ∀ a < i, ∀ b < i, ∑ k ∈ range i, l a k * l b k = m a b := by
    intro a ha b hb
    by_cases hab : b ≤ a
    · exact hp.product a b (by unfold Done; omega) hb
    · rw [hs a (by omega) b (by omega), ← hp.product b a (by unfold Done; omega) ha]
      exact Finset.sum_congr rfl fun k _ => mul_comm _ _
  have h1 : quadForm i m y = ∑ k ∈ range i, l i k * l i k := by
    rw [quadForm_factor i i m l y hfac]
    refine Finset.sum_congr rfl fun k hk => ?_
    rw [hy k (Finset.mem_range.1 hk)]; ring
  have h2 : ∑ a ∈ range i, y a * m a i = -∑ k ∈ range i, l i k * l i k := by
    have e : ∀ a ∈ range i, y a * m a i = ∑ k ∈ range i, l i k * (y a * l a k) := by
      intro a ha
      have ha := Finset.mem_range.1 ha
      rw [hs a (by omega) i hi, ← hp.product i a (by unfold Done; omega) ha, Finset.mul_sum]
      exact Finset.sum_congr rfl fun k _ => by ring
    rw [Finset.sum_congr rfl e, Finset.sum_comm, ← Finset.sum_neg_distrib]
    refine Finset.sum_congr rfl fun k hk => ?_
    rw [← Finset.mul_sum, hy k (Finset.mem_range.1 hk)]; ring
  rw [hq, h1, h2] at hpos
  linarith

/-- **C52**: a returned factor is lower triangular with positive diagonal, and its product with
its transpose is the (symmetric) input, for every size. -/
theorem C52_factor (n : Nat) (m l : Nat → Nat → ℝ) (hs : SymmetricN n m)
    (h : cholesky n m = some l) : CholeskyFactor n m l := by
  rcases cholesky_prefix m n with ⟨l', h1, h2⟩ | ⟨h1, _⟩
  · rw [cholesky, h1] at h
    injection h with h
    subst h
    exact h2.factor hs
  · rw [cholesky, h1] at h; cases h

/-- A matrix with a triangular factor is positive definite. -/
theorem posDef_of_factor {n : Nat} {m l : Nat → Nat → ℝ} (h : CholeskyFactor n m l) :
    PositiveDefiniteN n m := by
  intro x ⟨a, ha, hxa⟩
  rw [quadForm_factor n n m l x h.product]
  have hnn : ∀ k ∈ range n, 0 ≤ (∑ a ∈ range n, x a * l a k) ^ 2 := fun k _ => sq_nonneg _
  rcases (Finset.sum_nonneg hnn).lt_or_eq with h1 | h1
  · exact h1
  · exfalso
    have h2 := (Finset.sum_eq_zero_iff_of_nonneg hnn).1 h1.symm
    refine hxa (triangular_zero n l x h.lower (fun b hb => (h.diagonal b hb).ne') (fun k hk => ?_)
      a ha)
    exact pow_eq_zero_iff (two_ne_zero) |>.1 (h2 k (Finset.mem_range.2 hk))

/-- **C52**: the factorisation succeeds exactly for positive definite matrices; `None` exactly
for the others. -/
theorem C52_iff (n : Nat) (m : Nat → Nat → ℝ) (hs : SymmetricN n m) :
    ((cholesky n m).isSome ↔ PositiveDefiniteN n m) ∧
    (cholesky n m = none ↔ ¬ PositiveDefiniteN n m) := by
  have key : (cholesky n m).isSome ↔ PositiveDefiniteN n m := by
    rcases cholesky_prefix m n with ⟨l, h1, h2⟩ | ⟨h1, i, hi, h2⟩
    · have he : cholesky n m = some l := h1
      rw [he]
      exact ⟨fun _ => posDef_of_factor (h2.factor hs), fun _ => rfl⟩
    · have he : cholesky n m = none := h1
      rw [he]
      exact ⟨fun h => by simp at h, fun h => absurd h (not_posDef_of_pivot hi hs h2)⟩
  refine ⟨key, ?_⟩
  rw [← key]
  cases cholesky n m <;> simp

/-- **C52**: the factor is the only one: any lower triangular matrix with positive diagonal whose
product with its transpose is the input agrees with it. -/
theorem C52_unique (n : Nat) (m l l' : Nat → Nat → ℝ) (h : CholeskyFactor n m l)
    (h' : CholeskyFactor n m l') : ∀ a < n, ∀ b < n, l a b = l' a b := by
  have eqn : ∀ {l : Nat → Nat → ℝ}, CholeskyFactor n m l → ∀ a < n, ∀ b ≤ a,
      l a b * l b b = m a b - ∑ k ∈ range b, l a k * l b k := by
    intro l h a ha b hb
    rw [← h.product a ha b (by omega)]
    have e : ∑ k ∈ range n, l a k * l b k = ∑ k ∈ range (b + 1), l a k * l b k := by
      symm
      refine Finset.sum_subset (fun x hx => ?_) fun x hxn hx => ?_
      · rw [Finset.mem_range] at *; omega
      · rw [Finset.mem_range] at hxn
        rw [Finset.mem_range, not_lt] at hx
        rw [h.lower b (by omega) x hxn (by omega), mul_zero]
    rw [e, Finset.sum_range_succ]; ring
  have key : ∀ a, a < n → ∀ b, b ≤ a → l a b = l' a b := by
    intro a
    induction a using Nat.strong_induction_on with
    | _ a iha =>
      intro ha b
      induction b using Nat.strong_induction_on with
      | _ b ihb =>
        intro hb
        have e1 := eqn h a ha b hb
        have e2 := eqn h' a ha b hb
        have es : ∑ k ∈ range b, l a k * l b k = ∑ k ∈ range b, l' a k * l' b k := by
          refine Finset.sum_congr rfl fun k hk => ?_
          rw [Finset.mem_range] at hk
          rw [ihb k hk (by omega)]
          rcases Nat.lt_or_ge b a with hba | hba
          · rw [iha b hba (by omega) k (by omega)]
          · have : b = a := by omega
            subst this
            rw [ihb k hk (by omega)]
        rcases Nat.lt_or_ge b a with hba | hba
        · have hd : l b b = l' b b := iha b hba (by omega) b le_rfl
          rw [es, ← e2, hd] at e1
          exact mul_right_cancel₀ (h'.diagonal b (by omega)).ne' e1
        · have : b = a := by omega
          subst this
          rw [es, ← e2] at e1
          have p1 := h.diagonal b ha
          have p2 := h'.diagonal b ha
          nlinarith [mul_pos p1 p2]
  intro a ha b hb
  rcases Nat.lt_or_ge a b with hab | hab
  · rw [h.lower a ha b hb hab, h'.lower a ha b hb hab]
  · exact key a ha b hab

theorem Correlation4.symmetric (c : Correlation4) : SymmetricN 4 c.matrix := by
  intro a ha b hb
  interval_cases a <;> interval_cases b <;> rfl

/-- **C52**: for the four-factor FX model, `is_valid` decides positive definiteness of the
correlation matrix, and the factor reproduces it with unit rows. -/
theorem C52_correlation4 (c : Correlation4) :
    (c.isValid = true ↔ PositiveDefiniteN 4 c.matrix) ∧
    ∀ l, c.cholesky = some l → CholeskyFactor 4 c.matrix l ∧
      ∀ a < 4, ∑ k ∈ range 4, l a k ^ 2 = 1 := by
  refine ⟨(C52_iff 4 c.matrix c.symmetric).1, fun l h => ?_⟩
  have hf := C52_factor 4 c.matrix l c.symmetric h
  refine ⟨hf, fun a ha => ?_⟩
  have h1 := hf.product a ha a ha
  have h2 : c.matrix a a = 1 := by interval_cases a <;> rfl
  rw [← h2, ← h1]
  exact Finset.sum_congr rfl fun k _ => sq _

/-- Independent factors are valid; a perfect correlation is not. -/
example : (⟨0, 0, 0, 0, 0, 0⟩ : Correlation4).isValid = true ∧
    (⟨1, 0, 0, 0, 0, 0⟩ : Correlation4).isValid = false := by
  constructor
  · rw [(C52_correlation4 _).1]
    intro x ⟨a, ha, hx⟩
    simp only [quadForm, Finset.sum_range_succ, Finset.sum_range_zero, Correlation4.matrix]
    interval_cases a <;> nlinarith [sq_nonneg (x 0), sq_nonneg (x 1), sq_nonneg (x 2),
      sq_nonneg (x 3), mul_self_pos.2 hx]
  · rw [Bool.eq_false_iff, Ne, (C52_correlation4 _).1]
    intro h
    have := h (fun a => if a = 0 then 1 else if a = 1 then -1 else 0) ⟨0, by norm_num, by norm_num⟩
    simp only [quadForm, Finset.sum_range_succ, Finset.sum_range_zero, Correlation4.matrix] at this
    norm_num at this

/-- A three-by-three matrix with a factor: `[[4,2,0],[2,2,1],[0,1,2]]`. -/
example : CholeskyFactor 3
    (fun a b => if a = b then (if a = 0 then 4 else 2) else if a + b = 1 then 2 else
      if a + b = 3 then 1 else 0)
    (fun a b => if a = 0 ∧ b = 0 then 2 else if b ≤ a ∧ a ≤ b + 1 then 1 else 0) := by
  refine ⟨fun a ha b hb hab => ?_, fun a ha => ?_, fun a ha b hb => ?_⟩
  · interval_cases a <;> interval_cases b <;> norm_num at hab ⊢
  · interval_cases a <;> norm_num
  · simp only [Finset.sum_range_succ, Finset.sum_range_zero]
    interval_cases a <;> interval_cases b <;> norm_num

end Verif
