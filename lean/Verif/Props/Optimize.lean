import Verif.Model.Optimize
import Verif.Spec.NelderMead
import Mathlib.Data.List.Basic
import Mathlib.Data.List.Sort
import Mathlib.Data.List.GetD
import Mathlib.Tactic.Ring
import Mathlib.Tactic.FieldSimp
import Mathlib.Tactic.Linarith
import Mathlib.Tactic.NormNum
import Mathlib.Tactic.FinCases

/-!
# C51: Nelder-Mead
-/

namespace Verif

open Classical Outcome

theorem nmNumbers_some {n : Nat} {v : Fin n → Option ℝ} {w : Fin n → ℝ}
    (h : nmNumbers v = some w) : ∀ i, v i = some (w i) := by
  rw [nmNumbers] at h
  by_cases hn : ∀ i, v i ≠ none
  · rw [if_pos hn] at h
    injection h with h
    intro i
    rw [← h]
    rcases hv : v i with _ | x
    · exact absurd hv (hn i)
    · simp only [hv]; rfl
  · rw [if_neg hn] at h; cases h

theorem nmNumbers_of {n : Nat} {v : Fin n → Option ℝ} {w : Fin n → ℝ}
    (h : ∀ i, v i = some (w i)) : nmNumbers v = some w := by
  rw [nmNumbers, if_pos (fun i => by rw [h i]; simp)]
  congr 1
  funext i
  rw [h i]; rfl

theorem nmOrder_perm {n : Nat} (v : Fin (n + 1) → ℝ) : (nmOrder v).Perm (List.finRange (n + 1)) :=
  List.mergeSort_perm _ _

theorem nmOrder_length {n : Nat} (v : Fin (n + 1) → ℝ) : (nmOrder v).length = n + 1 := by
  rw [(nmOrder_perm v).length_eq, List.length_finRange]

theorem nmOrder_nodup {n : Nat} (v : Fin (n + 1) → ℝ) : (nmOrder v).Nodup :=
  (nmOrder_perm v).nodup_iff.2 (List.nodup_finRange _)

theorem nmOrder_mem {n : Nat} (v : Fin (n + 1) → ℝ) (i : Fin (n + 1)) : i ∈ nmOrder v :=
  (nmOrder_perm v).mem_iff.2 (List.mem_finRange i)

theorem nmOrder_sorted {n : Nat} (v : Fin (n + 1) → ℝ) :
    (nmOrder v).Pairwise fun a b => v a ≤ v b := by
  have h := List.pairwise_mergeSort (le := fun a b : Fin (n + 1) => decide (v a ≤ v b))
    (fun a b c h1 h2 => by simp only [decide_eq_true_eq] at *; linarith)
    (fun a b => by simp only [Bool.or_eq_true, decide_eq_true_eq]; exact le_total _ _)
    (List.finRange (n + 1))
  exact h.imp fun h => by simpa using h

/-- The head of the order has the smallest value, its last element the largest. -/
theorem nmOrder_best {n : Nat} (v : Fin (n + 1) → ℝ) (i : Fin (n + 1)) :
    v ((nmOrder v).getD 0 0) ≤ v i ∧ v i ≤ v ((nmOrder v).getD n 0) := by
  have hl := nmOrder_length v
  have hs := List.pairwise_iff_getElem.1 (nmOrder_sorted v)
  obtain ⟨k, hk, rfl⟩ := List.getElem_of_mem (nmOrder_mem v i)
  have h0 : 0 < (nmOrder v).length := by omega
  have hn : n < (nmOrder v).length := by omega
  rw [List.getD_eq_getElem _ _ h0, List.getD_eq_getElem _ _ hn]
  constructor
  · rcases Nat.eq_zero_or_pos k with rfl | h
    · exact le_rfl
    · exact hs 0 k h0 hk h
  · rcases Nat.lt_or_ge k n with h | h
    · exact hs k n hk hn h
    · have : k = n := by omega
      subst this; exact le_rfl

theorem nmOrder_best_ne_worst {n : Nat} (hn : 1 ≤ n) (v : Fin (n + 1) → ℝ) :
    (nmOrder v).getD 0 0 ≠ (nmOrder v).getD n 0 := by
  have hl := nmOrder_length v
  rw [List.getD_eq_getElem _ _ (by omega), List.getD_eq_getElem _ _ (by omega)]
  intro h
  have := (nmOrder_nodup v).getElem_inj_iff.1 h
  omega

theorem nmOrder_best_not_mem {n : Nat} (v : Fin (n + 1) → ℝ) :
    (nmOrder v).getD 0 0 ∉ (nmOrder v).drop 1 := by
  have hl := nmOrder_length v
  have hnd := nmOrder_nodup v
  rcases ho : nmOrder v with _ | ⟨a, l⟩
  · rw [ho] at hl; simp at hl
  · rw [ho] at hnd
    simpa using (List.nodup_cons.1 hnd).1

/-- The stored values are the objective at the stored vertices. -/
def NmState.Sound {n : Nat} (f : (Fin n → ℝ) → Option ℝ) (s : NmState n) : Prop :=
  ∀ i, s.values i = f (s.simplex i)

/-- A vertex with value at most `y` is present. -/
def NmState.AtMost {n : Nat} (s : NmState n) (y : ℝ) : Prop :=
  ∃ i x, s.values i = some x ∧ x ≤ y

theorem set_sound {n : Nat} {f : (Fin n → ℝ) → Option ℝ} {s : NmState n} (h : s.Sound f)
    (i : Fin (n + 1)) (x : Fin n → ℝ) : (s.set i x (f x)).Sound f := by
  intro k
  rw [NmState.set]
  simp only [Function.update_apply]
  by_cases hk : k = i
  · rw [if_pos hk, if_pos hk]
  · rw [if_neg hk, if_neg hk]; exact h k

theorem set_keeps {n : Nat} (s : NmState n) (i k : Fin (n + 1)) (hk : k ≠ i) (x : Fin n → ℝ)
    (v : Option ℝ) : (s.set i x v).values k = s.values k ∧ (s.set i x v).simplex k = s.simplex k := by
  rw [NmState.set]
  simp only [Function.update_apply, if_neg hk, and_self]

theorem shrink_sound {n : Nat} {f : (Fin n → ℝ) → Option ℝ} (best : Fin (n + 1))
    (idxs : List (Fin (n + 1))) (hb : best ∉ idxs) {s : NmState n} (h : s.Sound f) :
    (nmShrink f best idxs s).Sound f ∧ (nmShrink f best idxs s).values best = s.values best ∧
      (nmShrink f best idxs s).simplex best = s.simplex best := by
  induction idxs generalizing s with
  | nil => exact ⟨h, rfl, rfl⟩
  | cons i idxs ih =>
    rw [List.mem_cons, not_or] at hb
    obtain ⟨h1, h2, h3⟩ := ih hb.2 (set_sound h i
      (fun j => s.simplex best j + 1 / 2 * (s.simplex i j - s.simplex best j)))
    obtain ⟨k1, k2⟩ := set_keeps s i best hb.1
      (fun j => s.simplex best j + 1 / 2 * (s.simplex i j - s.simplex best j))
      (f (fun j => s.simplex best j + 1 / 2 * (s.simplex i j - s.simplex best j)))
    refine ⟨h1, h2.trans k1, h3.trans k2⟩

/-- A pass keeps the stored values sound and keeps the best vertex. -/
theorem nmMove_spec {n : Nat} (hn : 1 ≤ n) {f : (Fin n → ℝ) → Option ℝ} {s : NmState n}
    (h : s.Sound f) (v : Fin (n + 1) → ℝ) :
    (nmMove f s (nmOrder v) ((nmOrder v).getD 0 0) ((nmOrder v).getD n 0)
      ((nmOrder v).getD (n - 1) 0)).Sound f ∧
    (nmMove f s (nmOrder v) ((nmOrder v).getD 0 0) ((nmOrder v).getD n 0)
      ((nmOrder v).getD (n - 1) 0)).values ((nmOrder v).getD 0 0) =
      s.values ((nmOrder v).getD 0 0) := by
  have hne := nmOrder_best_ne_worst hn v
  rw [nmMove]
  simp only []
  split
  · exact ⟨set_sound h _ _, (set_keeps s _ _ hne _ _).1⟩
  · split
    · split
      · exact ⟨set_sound h _ _, (set_keeps s _ _ hne _ _).1⟩
      · exact ⟨set_sound h _ _, (set_keeps s _ _ hne _ _).1⟩
    · split
      · exact ⟨set_sound h _ _, (set_keeps s _ _ hne _ _).1⟩
      · obtain ⟨h1, h2, _⟩ := shrink_sound _ _ (nmOrder_best_not_mem v) h
        exact ⟨h1, h2⟩

/-- What the loop guarantees. -/
theorem nmLoop_spec {n : Nat} (hn : 1 ≤ n) (f : (Fin n → ℝ) → Option ℝ) (o : NmOptions) :
    ∀ (fuel it : Nat) (s t : NmState n) (k : Nat) (c : Bool),
      nmLoop f o fuel it s = .ok (t, k, c) → s.Sound f →
      t.Sound f ∧ it ≤ k ∧ k ≤ it + fuel ∧ (c = false → k = it + fuel) ∧
      (∀ y, s.AtMost y → t.AtMost y) ∧
      (0 < fuel → ∃ w, nmNumbers s.values = some w) ∧
      (c = true → ∃ w, nmNumbers t.values = some w ∧
        |w ((nmOrder w).getD n 0) - w ((nmOrder w).getD 0 0)| < o.ftol ∧
        nmSpread t.simplex (nmOrder w) ((nmOrder w).getD 0 0) < o.xtol) := by
  intro fuel
  induction fuel with
  | zero =>
    intro it s t k c h hs
    rw [nmLoop] at h
    injection h with h
    injection h with h1 h2
    injection h2 with h2 h3
    subst h1 h2 h3
    exact ⟨hs, le_rfl, le_rfl, fun _ => rfl, fun _ h => h, fun h => absurd h (by omega),
      fun h => by cases h⟩
  | succ fuel ih =>
    intro it s t k c h hs
    rw [nmLoop] at h
    rcases hv : nmNumbers s.values with _ | v
    · rw [hv] at h; cases h
    · rw [hv] at h
      simp only [] at h
      by_cases hc : |v ((nmOrder v).getD n 0) - v ((nmOrder v).getD 0 0)| < o.ftol ∧
          nmSpread s.simplex (nmOrder v) ((nmOrder v).getD 0 0) < o.xtol
      · rw [if_pos hc] at h
        injection h with h
        injection h with h1 h2
        injection h2 with h2 h3
        subst h1 h2 h3
        exact ⟨hs, by omega, by omega, fun h => by simp at h, fun _ h => h, fun _ => ⟨v, rfl⟩,
          fun _ => ⟨v, hv, hc⟩⟩
      · rw [if_neg hc] at h
        obtain ⟨m1, m2⟩ := nmMove_spec hn hs v
        obtain ⟨h1, h2, h3, h4, h5, _, h7⟩ := ih (it + 1) _ t k c h m1
        refine ⟨h1, by omega, by omega, fun hcf => by have := h4 hcf; omega, fun y hy => ?_,
          fun _ => ⟨v, rfl⟩, h7⟩
        apply h5
        obtain ⟨i, x, hx, hxy⟩ := hy
        refine ⟨(nmOrder v).getD 0 0, v ((nmOrder v).getD 0 0), ?_, ?_⟩
        · rw [m2, nmNumbers_some hv]
        · have h8 := nmNumbers_some hv i
          rw [hx] at h8
          injection h8 with h8
          have := (nmOrder_best v i).1
          linarith

theorem nmArgmin_spec {n : Nat} (v : Fin (n + 1) → ℝ) (i : Fin (n + 1)) :
    v (nmArgmin v) ≤ v i := by
  have key : ∀ (l : List (Fin (n + 1))) (b : Fin (n + 1)),
      v (l.foldl (fun b i => if v i < v b then i else b) b) ≤ v b ∧
      ∀ i ∈ l, v (l.foldl (fun b i => if v i < v b then i else b) b) ≤ v i := by
    intro l
    induction l with
    | nil => intro b; exact ⟨le_rfl, by simp⟩
    | cons a l ih =>
      intro b
      rw [List.foldl_cons]
      obtain ⟨h1, h2⟩ := ih (if v a < v b then a else b)
      by_cases hab : v a < v b
      · rw [if_pos hab] at h1 h2 ⊢
        refine ⟨by linarith, fun i hi => ?_⟩
        rcases List.mem_cons.1 hi with rfl | hi
        · exact h1
        · exact h2 i hi
      · rw [if_neg hab] at h1 h2 ⊢
        refine ⟨h1, fun i hi => ?_⟩
        rcases List.mem_cons.1 hi with rfl | hi
        · linarith
        · exact h2 i hi
  exact (key _ _).2 i (List.mem_finRange i)

theorem nelderMead_ok {n : Nat} {f : (Fin n → ℝ) → Option ℝ} {x0 : Fin n → ℝ} {o : NmOptions}
    {r : NmResult n} (h : nelderMead f x0 o = .ok r) :
    1 ≤ n ∧ ∃ s v, nmLoop f o o.maxIter 0 (nmInit f o x0) = .ok (s, r.iterations, r.converged) ∧
      nmNumbers s.values = some v ∧ r.x = s.simplex (nmArgmin v) ∧ r.f = v (nmArgmin v) := by
  rw [nelderMead] at h
  by_cases hn : n < 1
  · rw [if_pos hn] at h; cases h
  · rw [if_neg hn] at h
    obtain ⟨q, hq, h⟩ := bind_eq_ok.1 h
    obtain ⟨s, k, c⟩ := q
    refine ⟨by omega, s, ?_⟩
    simp only [] at h
    rcases hv : nmNumbers s.values with _ | v
    · rw [hv] at h; cases h
    · rw [hv] at h
      injection h with h
      subst h
      exact ⟨v, hq, rfl, rfl, rfl⟩

theorem nmInit_sound {n : Nat} (f : (Fin n → ℝ) → Option ℝ) (o : NmOptions) (x0 : Fin n → ℝ) :
    (nmInit f o x0).Sound f := fun _ => rfl

/-- **C51**: the reported value is the objective at the reported point, and is a number. -/
theorem C51_value {n : Nat} (f : (Fin n → ℝ) → Option ℝ) (x0 : Fin n → ℝ) (o : NmOptions)
    (r : NmResult n) (h : nelderMead f x0 o = .ok r) : f r.x = some r.f := by
  obtain ⟨hn, s, v, hl, hv, hx, hf⟩ := nelderMead_ok h
  obtain ⟨hs, _⟩ := nmLoop_spec hn f o _ _ _ _ _ _ hl (nmInit_sound f o x0)
  rw [hx, hf, ← hs, nmNumbers_some hv]

/-- **C51**: the result is at most the objective at the initial guess and at every vertex of the
initial simplex. -/
theorem C51_not_worse {n : Nat} (f : (Fin n → ℝ) → Option ℝ) (x0 : Fin n → ℝ) (o : NmOptions)
    (r : NmResult n) (h : nelderMead f x0 o = .ok r) :
    (∀ y, f x0 = some y → r.f ≤ y) ∧
    ∀ i y, f (nmVertices o x0 i) = some y → r.f ≤ y := by
  obtain ⟨hn, s, v, hl, hv, hx, hf⟩ := nelderMead_ok h
  obtain ⟨_, _, _, _, hle, _⟩ := nmLoop_spec hn f o _ _ _ _ _ _ hl (nmInit_sound f o x0)
  have key : ∀ i y, f (nmVertices o x0 i) = some y → r.f ≤ y := by
    intro i y hy
    obtain ⟨k, x, hk, hxy⟩ := hle y ⟨i, y, hy, le_rfl⟩
    have := nmNumbers_some hv k
    rw [hk] at this
    injection this with this
    have := nmArgmin_spec v k
    rw [hf]; linarith
  exact ⟨fun y hy => key 0 y hy, key⟩

/-- **C51**: at most `max_iter` iterations are used, and exactly that many without
convergence. -/
theorem C51_iterations {n : Nat} (f : (Fin n → ℝ) → Option ℝ) (x0 : Fin n → ℝ) (o : NmOptions)
    (r : NmResult n) (h : nelderMead f x0 o = .ok r) :
    r.iterations ≤ o.maxIter ∧ (r.converged = false → r.iterations = o.maxIter) := by
  obtain ⟨hn, s, v, hl, hv, hx, hf⟩ := nelderMead_ok h
  obtain ⟨_, _, h3, h4, _⟩ := nmLoop_spec hn f o _ _ _ _ _ _ hl (nmInit_sound f o x0)
  exact ⟨by omega, fun hc => by have := h4 hc; omega⟩

/-- **C51**: a NaN at the initial guess never produces a result. -/
theorem C51_nan_start {n : Nat} (f : (Fin n → ℝ) → Option ℝ) (x0 : Fin n → ℝ) (o : NmOptions)
    (hx : f x0 = none) : nelderMead f x0 o = .panic := by
  have hnone : nmNumbers (nmInit f o x0).values = none := by
    rw [nmNumbers, if_neg]
    intro h
    exact h 0 hx
  rw [nelderMead]
  by_cases hn : n < 1
  · rw [if_pos hn]
  · rw [if_neg hn]
    rcases hm : o.maxIter with _ | k
    · rw [nmLoop, ok_bind]
      simp only []
      rw [hnone]
    · rw [nmLoop, hnone]; rfl

theorem foldl_max_ge {α : Type} (g : α → ℝ) (l : List α) (b : ℝ) :
    b ≤ l.foldl (fun m i => max m (g i)) b ∧ ∀ i ∈ l, g i ≤ l.foldl (fun m i => max m (g i)) b := by
  induction l generalizing b with
  | nil => exact ⟨le_rfl, by simp⟩
  | cons a l ih =>
    rw [List.foldl_cons]
    obtain ⟨h1, h2⟩ := ih (max b (g a))
    refine ⟨(le_max_left _ _).trans h1, fun i hi => ?_⟩
    rcases List.mem_cons.1 hi with rfl | hi
    · exact (le_max_right _ _).trans h1
    · exact h2 i hi

theorem foldl_min_le {α : Type} (g : α → ℝ) (l : List α) (b : ℝ) :
    l.foldl (fun m i => min m (g i)) b ≤ b ∧ ∀ i ∈ l, l.foldl (fun m i => min m (g i)) b ≤ g i := by
  induction l generalizing b with
  | nil => exact ⟨le_rfl, by simp⟩
  | cons a l ih =>
    rw [List.foldl_cons]
    obtain ⟨h1, h2⟩ := ih (min b (g a))
    refine ⟨h1.trans (min_le_left _ _), fun i hi => ?_⟩
    rcases List.mem_cons.1 hi with rfl | hi
    · exact h1.trans (min_le_right _ _)
    · exact h2 i hi

/-- **C51**: a reported convergence means that `n + 1` evaluated vertices, the returned point
among them, differ by less than `ftol` in value and by less than `xtol` in every coordinate. -/
theorem C51_converged {n : Nat} (f : (Fin n → ℝ) → Option ℝ) (x0 : Fin n → ℝ) (o : NmOptions)
    (r : NmResult n) (h : nelderMead f x0 o = .ok r) (hc : r.converged = true) :
    ∃ (simplex : Fin (n + 1) → Fin n → ℝ) (w : Fin (n + 1) → ℝ),
      (∃ b, simplex b = r.x) ∧ (∀ i, f (simplex i) = some (w i)) ∧
      (∀ i, r.f ≤ w i ∧ w i < r.f + o.ftol) ∧
      ∀ i k j, |simplex i j - simplex k j| < o.xtol := by
  obtain ⟨hn, s, v, hl, hv, hx, hf⟩ := nelderMead_ok h
  obtain ⟨hs, _, _, _, _, _, hconv⟩ := nmLoop_spec hn f o _ _ _ _ _ _ hl (nmInit_sound f o x0)
  obtain ⟨w, hw, h1, h2⟩ := hconv hc
  rw [hv] at hw
  injection hw with hw
  subst hw
  refine ⟨s.simplex, v, ⟨_, hx.symm⟩, fun i => ?_, fun i => ?_, fun i k j => ?_⟩
  · rw [← hs, nmNumbers_some hv]
  · rw [hf]
    refine ⟨nmArgmin_spec v i, ?_⟩
    have a1 := (nmOrder_best v i).2
    have a2 := (nmOrder_best v (nmArgmin v)).1
    have a3 := nmArgmin_spec v ((nmOrder v).getD 0 0)
    have a4 := (abs_lt.1 h1).2
    linarith
  · have hj := (foldl_max_ge (fun j => nmExtent s.simplex (nmOrder v) ((nmOrder v).getD 0 0) j)
      (List.finRange n) 0).2 j (List.mem_finRange j)
    have hj' : nmExtent s.simplex (nmOrder v) ((nmOrder v).getD 0 0) j < o.xtol :=
      lt_of_le_of_lt hj h2
    rw [nmExtent] at hj'
    have bi := (foldl_max_ge (fun i => s.simplex i j) (nmOrder v)
      (s.simplex ((nmOrder v).getD 0 0) j)).2
    have li := (foldl_min_le (fun i => s.simplex i j) (nmOrder v)
      (s.simplex ((nmOrder v).getD 0 0) j)).2
    have b1 := bi i (nmOrder_mem v i)
    have b2 := bi k (nmOrder_mem v k)
    have l1 := li i (nmOrder_mem v i)
    have l2 := li k (nmOrder_mem v k)
    rw [abs_lt]
    constructor <;> linarith

theorem nmNumbers_total {n : Nat} {f : (Fin n → ℝ) → Option ℝ} (hf : ∀ x, f x ≠ none)
    {s : NmState n} (hs : s.Sound f) : ∃ v, nmNumbers s.values = some v := by
  rw [nmNumbers, if_pos (fun i => by rw [hs i]; exact hf _)]
  exact ⟨_, rfl⟩

/-- **C51**: with an objective that never is NaN and at least one variable the optimiser returns,
for every start, option set and iteration cap. -/
theorem C51_total {n : Nat} (hn : 1 ≤ n) (f : (Fin n → ℝ) → Option ℝ) (hf : ∀ x, f x ≠ none)
    (x0 : Fin n → ℝ) (o : NmOptions) : ∃ r, nelderMead f x0 o = .ok r := by
  have key : ∀ (fuel it : Nat) (s : NmState n), s.Sound f →
      ∃ r, nmLoop f o fuel it s = .ok r := by
    intro fuel
    induction fuel with
    | zero => intro it s _; exact ⟨_, rfl⟩
    | succ fuel ih =>
      intro it s hs
      obtain ⟨v, hv⟩ := nmNumbers_total hf hs
      rw [nmLoop, hv]
      simp only []
      by_cases hc : |v ((nmOrder v).getD n 0) - v ((nmOrder v).getD 0 0)| < o.ftol ∧
          nmSpread s.simplex (nmOrder v) ((nmOrder v).getD 0 0) < o.xtol
      · rw [if_pos hc]; exact ⟨_, rfl⟩
      · rw [if_neg hc]; exact ih _ _ (nmMove_spec hn hs v).1
  obtain ⟨⟨s, k, c⟩, hr⟩ := key o.maxIter 0 _ (nmInit_sound f o x0)
  obtain ⟨hs, _⟩ := nmLoop_spec hn f o _ _ _ _ _ _ hr (nmInit_sound f o x0)
  obtain ⟨v, hv⟩ := nmNumbers_total hf hs
  rw [nelderMead, if_neg (by omega), hr, ok_bind]
  simp only []
  rw [hv]
  exact ⟨_, rfl⟩

/-- **C51**: each pass replaces at most the worst vertex by a point on the line through it and the
centroid of the others, or else halves the distance of every vertex to the best: reflection,
expansion and contraction use the factors 1, 2 and 1/2. -/
theorem C51_moves {n : Nat} (f : (Fin n → ℝ) → Option ℝ) (s : NmState n)
    (order : List (Fin (n + 1))) (best worst second : Fin (n + 1)) :
    (∃ a : ℝ, (a = -1 ∨ a = -2 ∨ a = 1 / 2) ∧
      nmMove f s order best worst second = s.set worst
        (fun j => nmCentroid s.simplex order j + a * (s.simplex worst j - nmCentroid s.simplex order j))
        (f fun j => nmCentroid s.simplex order j +
          a * (s.simplex worst j - nmCentroid s.simplex order j))) ∨
    nmMove f s order best worst second = nmShrink f best (order.drop 1) s := by
  have e1 : (fun j => nmCentroid s.simplex order j +
      (nmCentroid s.simplex order j - s.simplex worst j)) = fun j => nmCentroid s.simplex order j +
        (-1) * (s.simplex worst j - nmCentroid s.simplex order j) := by funext j; ring
  have e2 : (fun j => nmCentroid s.simplex order j +
      2 * (nmCentroid s.simplex order j + (nmCentroid s.simplex order j - s.simplex worst j) -
        nmCentroid s.simplex order j)) = fun j => nmCentroid s.simplex order j +
        (-2) * (s.simplex worst j - nmCentroid s.simplex order j) := by funext j; ring
  rw [nmMove]
  simp only []
  split
  · left; exact ⟨-1, Or.inl rfl, by rw [e1]⟩
  · split
    · split
      · left; exact ⟨-2, Or.inr (Or.inl rfl), by rw [e2]⟩
      · left; exact ⟨-1, Or.inl rfl, by rw [e1]⟩
    · split
      · left; exact ⟨1 / 2, Or.inr (Or.inr rfl), rfl⟩
      · right; rfl

theorem foldl_add_sum {α : Type} (g : α → ℝ) (l : List α) (b : ℝ) :
    l.foldl (fun c i => c + g i) b = b + (l.map g).sum := by
  induction l generalizing b with
  | nil => simp
  | cons a l ih => rw [List.foldl_cons, ih, List.map_cons, List.sum_cons]; ring

theorem nmOrder_take {n : Nat} (v : Fin (n + 1) → ℝ) :
    nmOrder v = (nmOrder v).take n ++ [(nmOrder v).getD n 0] := by
  have hl := nmOrder_length v
  conv_lhs => rw [← List.take_append_drop n (nmOrder v)]
  congr 1
  rw [List.getD_eq_getElem _ _ (by omega), List.drop_eq_getElem_cons (by omega)]
  rw [List.drop_eq_nil_of_le (by omega)]

/-- **C51**: the centroid is the mean of all vertices but the worst. -/
theorem C51_centroid {n : Nat} (v : Fin (n + 1) → ℝ) (s : Fin (n + 1) → Fin n → ℝ) (j : Fin n) :
    nmCentroid s (nmOrder v) j
      = (∑ i ∈ Finset.univ.erase ((nmOrder v).getD n 0), s i j) / n := by
  rw [nmCentroid, foldl_add_sum, zero_add]
  congr 1
  have h1 : ((nmOrder v).map fun i => s i j).sum = ∑ i, s i j := by
    rw [((nmOrder_perm v).map _).sum_eq, Fin.sum_univ_def]
  rw [nmOrder_take v, List.map_append, List.sum_append] at h1
  have h2 := Finset.add_sum_erase Finset.univ (fun i => s i j) (Finset.mem_univ ((nmOrder v).getD n 0))
  rw [← h2] at h1
  simp only [List.map_cons, List.map_nil, List.sum_cons, List.sum_nil, add_zero] at h1
  linarith

/-- **C51**: a pass that shrinks moves every vertex but the best halfway to it. -/
theorem C51_shrink {n : Nat} (f : (Fin n → ℝ) → Option ℝ) (s : NmState n) (v : Fin (n + 1) → ℝ) :
    let b := (nmOrder v).getD 0 0
    (nmShrink f b ((nmOrder v).drop 1) s).simplex b = s.simplex b
      ∧ (nmShrink f b ((nmOrder v).drop 1) s).values b = s.values b
      ∧ ∀ i, i ≠ b → (nmShrink f b ((nmOrder v).drop 1) s).simplex i = (fun j => (s.simplex i j + s.simplex b j) / 2)
        ∧ (nmShrink f b ((nmOrder v).drop 1) s).values i = f fun j => (s.simplex i j + s.simplex b j) / 2 := by
  intro b
  have key : ∀ (l : List (Fin (n + 1))) (s : NmState n), b ∉ l → l.Nodup →
      (nmShrink f b l s).simplex b = s.simplex b ∧ (nmShrink f b l s).values b = s.values b
      ∧ (∀ i, i ∉ l → (nmShrink f b l s).simplex i = s.simplex i ∧ (nmShrink f b l s).values i = s.values i)
      ∧ ∀ i ∈ l, (nmShrink f b l s).simplex i = (fun j => (s.simplex i j + s.simplex b j) / 2)
        ∧ (nmShrink f b l s).values i = f fun j => (s.simplex i j + s.simplex b j) / 2 := by
    intro l
    induction l with
    | nil => intro s _ _; exact ⟨rfl, rfl, fun i _ => ⟨rfl, rfl⟩, by simp⟩
    | cons a l ih =>
      intro s hb hn
      rw [List.mem_cons, not_or] at hb
      rw [List.nodup_cons] at hn
      set x : Fin n → ℝ := fun j => s.simplex b j + 1 / 2 * (s.simplex a j - s.simplex b j) with hx
      have hx' : x = fun j => (s.simplex a j + s.simplex b j) / 2 := by funext j; rw [hx]; ring
      obtain ⟨i1, i2, i3, i4⟩ := ih (s.set a x (f x)) hb.2 hn.2
      have e : nmShrink f b (a :: l) s = nmShrink f b l (s.set a x (f x)) := rfl
      have kb := set_keeps s a b hb.1 x (f x)
      rw [e]
      refine ⟨i1.trans kb.2, i2.trans kb.1, fun i hi => ?_, fun i hi => ?_⟩
      · rw [List.mem_cons, not_or] at hi
        have := set_keeps s a i hi.1 x (f x)
        exact ⟨(i3 i hi.2).1.trans this.2, (i3 i hi.2).2.trans this.1⟩
      · by_cases ha : i = a
        · subst ha
          refine ⟨(i3 i hn.1).1.trans ?_, (i3 i hn.1).2.trans ?_⟩
          · rw [NmState.set]; simp [hx']
          · rw [NmState.set]; simp [hx']
        · rcases List.mem_cons.1 hi with hi | hi
          · exact absurd hi ha
          · have := set_keeps s a i ha x (f x)
            have := i4 i hi
            rw [(set_keeps s a i ha x (f x)).2, kb.2] at this
            exact this
  have hl := nmOrder_length v
  obtain ⟨k1, k2, -, k4⟩ := key ((nmOrder v).drop 1) s (nmOrder_best_not_mem v)
    ((nmOrder_nodup v).sublist (List.drop_sublist 1 _))
  refine ⟨k1, k2, fun i hi => k4 i ?_⟩
  have hm := nmOrder_mem v i
  rcases ho : nmOrder v with _ | ⟨a, l⟩
  · rw [ho] at hl; simp at hl
  · rw [ho] at hm
    rcases List.mem_cons.1 hm with hi' | hi'
    · exact absurd (by rw [hi']; simp [b, ho]) hi
    · simpa using hi'

/-- **C51**: a pass that does not shrink replaces the worst vertex by one with a strictly smaller value,
when the values are numbers. -/
theorem C51_progress {n : Nat} (f : (Fin n → ℝ) → Option ℝ) (s : NmState n) (v : Fin (n + 1) → ℝ)
    (hv : ∀ i, s.values i = some (v i)) :
    let b := (nmOrder v).getD 0 0
    let w := (nmOrder v).getD n 0
    nmMove f s (nmOrder v) b w ((nmOrder v).getD (n - 1) 0) = nmShrink f b ((nmOrder v).drop 1) s
      ∨ ∃ x y, nmMove f s (nmOrder v) b w ((nmOrder v).getD (n - 1) 0) = s.set w x (some y) ∧ f x = some y
        ∧ y < v w := by
  intro b w
  have le : ∀ i, v i ≤ v w := fun i => (nmOrder_best v i).2
  have acc : ∀ x k, ltNan (f x) (s.values k) → ∃ y, f x = some y ∧ y < v w := by
    intro x k h
    rw [hv k] at h
    cases hf : f x with
    | none => rw [hf] at h; exact h.elim
    | some y => rw [hf] at h; exact ⟨y, rfl, lt_of_lt_of_le h (le k)⟩
  have fin : ∀ x k, ltNan (f x) (s.values k) →
      ∃ x' y, s.set w x (f x) = s.set w x' (some y) ∧ f x' = some y ∧ y < v w := by
    intro x k h
    obtain ⟨y, e, l⟩ := acc x k h
    exact ⟨x, y, by rw [e], e, l⟩
  rw [nmMove]
  simp only []
  split
  · rename_i h; exact .inr (fin _ _ h.1)
  · split
    · rename_i h
      split
      · rename_i h'
        obtain ⟨y, e, l⟩ := acc _ _ h
        rw [e] at h'
        right
        generalize hfx : f _ = fx at h'
        cases fx with
        | none => exact h'.elim
        | some z => exact ⟨_, z, rfl, hfx, lt_trans h' l⟩
      · exact .inr (fin _ _ h)
    · split
      · rename_i h; exact .inr (fin _ _ h)
      · exact .inl rfl

/-- **C51**: which move a pass makes, when the values are numbers.  With `y` the value at the reflected
point: `best ≤ y < second worst` accepts the reflection; `y < best` keeps the better of the reflection
and the expansion; otherwise the inside contraction replaces the worst vertex if it is strictly better,
and if not the simplex shrinks. -/
theorem C51_rules {n : Nat} (f : (Fin n → ℝ) → Option ℝ) (s : NmState n) (v : Fin (n + 1) → ℝ)
    (hv : ∀ i, s.values i = some (v i)) {y : ℝ} :
    let b := (nmOrder v).getD 0 0
    let w := (nmOrder v).getD n 0
    let t := (nmOrder v).getD (n - 1) 0
    let next := nmMove f s (nmOrder v) b w t
    let x := linePoint s.simplex w
    f (x (-1)) = some y →
    (v b ≤ y → y < v t → next = s.set w (x (-1)) (some y))
      ∧ (y < v b → ∀ z, f (x (-2)) = some z →
        (z < y → next = s.set w (x (-2)) (some z)) ∧ (y ≤ z → next = s.set w (x (-1)) (some y)))
      ∧ (v t ≤ y → ∀ z, f (x (1 / 2)) = some z →
        (z < v w → next = s.set w (x (1 / 2)) (some z))
        ∧ (v w ≤ z → next = nmShrink f b ((nmOrder v).drop 1) s)) := by
  intro b w t next x hy
  have hc : ∀ j, nmCentroid s.simplex (nmOrder v) j
      = (∑ i ∈ Finset.univ.erase w, s.simplex i j) / n := fun j => C51_centroid v s.simplex j
  have e1 : (fun j => nmCentroid s.simplex (nmOrder v) j +
      (nmCentroid s.simplex (nmOrder v) j - s.simplex w j)) = x (-1) := by
    funext j; rw [hc]; change _ = linePoint _ _ _ _; rw [linePoint]; ring
  have e2 : (fun j => nmCentroid s.simplex (nmOrder v) j +
      2 * (nmCentroid s.simplex (nmOrder v) j + (nmCentroid s.simplex (nmOrder v) j - s.simplex w j) -
        nmCentroid s.simplex (nmOrder v) j)) = x (-2) := by
    funext j; rw [hc]; change _ = linePoint _ _ _ _; rw [linePoint]; ring
  have e3 : (fun j => nmCentroid s.simplex (nmOrder v) j +
      1 / 2 * (s.simplex w j - nmCentroid s.simplex (nmOrder v) j)) = x (1 / 2) := by
    funext j; rw [hc]; change _ = linePoint _ _ _ _; rw [linePoint]
  have en : next = nmMove f s (nmOrder v) b w t := rfl
  have hle : v b ≤ v t := (nmOrder_best v t).1
  rw [nmMove] at en
  simp only [] at en
  rw [e1, e2, e3, hy, hv b, hv w, hv t] at en
  rw [en]
  have l : ∀ a c : ℝ, ltNan (some a) (some c) ↔ a < c := fun a c => Iff.rfl
  have g : ∀ a c : ℝ, geNan (some a) (some c) ↔ c ≤ a := fun a c => Iff.rfl
  refine ⟨fun h1 h2 => ?_, fun h1 z hz => ?_, fun h1 z hz => ?_⟩
  · rw [if_pos ⟨(l _ _).2 h2, (g _ _).2 h1⟩]
  · rw [hz, if_neg (fun h => absurd h1 (not_lt.2 ((g _ _).1 h.2))), if_pos ((l _ _).2 h1)]
    exact ⟨fun h => if_pos ((l _ _).2 h), fun h => if_neg (fun k => not_lt.2 h ((l _ _).1 k))⟩
  · rw [hz, if_neg (fun h => absurd ((l _ _).1 h.1) (not_lt.2 h1)),
      if_neg (fun k => not_lt.2 (hle.trans h1) ((l _ _).1 k))]
    exact ⟨fun h => if_pos ((l _ _).2 h), fun h => if_neg (fun k => not_lt.2 h ((l _ _).1 k))⟩

/-- From the vertices 1 and 2 on the line the pass for `(x - 3)²` reflects 1 to 3 and keeps it: the
expansion to 4 is worse. -/
example : nmMove (n := 1) (fun x => some ((x 0 - 3) ^ 2)) ⟨![fun _ => 1, fun _ => 2], ![some 4, some 1]⟩
    [1, 0] 1 0 1 = (NmState.mk ![fun _ => 1, fun _ => 2] ![some 4, some 1]).set 0 (fun _ => 3) (some 0) := by
  have ho : nmOrder ![(4 : ℝ), 1] = [1, 0] := by
    have hp := nmOrder_perm ![(4 : ℝ), 1]
    have hs := nmOrder_sorted ![(4 : ℝ), 1]
    generalize nmOrder ![(4 : ℝ), 1] = l at hp hs
    have hl := hp.length_eq
    have hn := hp.nodup_iff.2 (List.nodup_finRange 2)
    rcases l with _ | ⟨a, _ | ⟨b, _ | ⟨c, l⟩⟩⟩
    · simp at hl
    · simp at hl
    · fin_cases a <;> fin_cases b <;> simp_all
    · simp at hl
  have h := (C51_rules (n := 1) (fun x => some ((x 0 - 3) ^ 2))
    ⟨![fun _ => 1, fun _ => 2], ![some 4, some 1]⟩ ![4, 1] (by intro i; fin_cases i <;> rfl) (y := 0))
  rw [ho] at h
  have e : Finset.univ.erase (0 : Fin 2) = {1} := by decide
  have p : ∀ a : ℝ, linePoint (n := 1) ![fun _ => 1, fun _ => 2] 0 a = fun _ => 2 - a := by
    intro a; funext j; simp [linePoint, e]; ring
  have h' := (h (by simp [p]; norm_num)).2.1
  simp [p] at h'
  rw [h'.2 (by norm_num)]
  norm_num

/-! ## The volume of the simplex -/

theorem simplexVolume_replace {n : Nat} (s : Fin (n + 1) → Fin n → ℝ) (w : Fin (n + 1)) (c : Fin (n + 1) → ℝ)
    (x : Fin n → ℝ) (h1 : ∑ i, c i = 1) (hx : ∀ j, x j = ∑ i, c i * s i j) :
    simplexVolume (Function.update s w x) = c w * simplexVolume s := by
  have := Matrix.det_updateRow_sum (Matrix.of fun i => (Fin.cons 1 (s i) : Fin (n + 1) → ℝ)) w c
  rw [smul_eq_mul] at this
  rw [simplexVolume, simplexVolume, ← this]
  congr 1
  ext i j
  rw [Matrix.updateRow_apply, Matrix.of_apply]
  by_cases hi : i = w
  · subst hi
    rw [if_pos rfl, Function.update_self, Finset.sum_apply]
    refine Fin.cases ?_ (fun j => ?_) j
    · simpa using h1.symm
    · simpa using hx j
  · rw [if_neg hi, Function.update_of_ne hi, Matrix.of_apply]

theorem simplexVolume_halved {n : Nat} (s s' : Fin (n + 1) → Fin n → ℝ) (b : Fin (n + 1))
    (hb : s' b = s b) (h : ∀ i, i ≠ b → s' i = fun j => (s i j + s b j) / 2) :
    simplexVolume s' = (1 / 2) ^ n * simplexVolume s := by
  set c : Fin (n + 1) → ℝ := fun i => if i = b then 1 else 1 / 2 with hc
  have h1 := Matrix.det_mul_column c (Matrix.of fun i => (Fin.cons 1 (s i) : Fin (n + 1) → ℝ))
  have hp : ∏ i, c i = (1 / 2) ^ n := by
    rw [← Finset.mul_prod_erase Finset.univ c (Finset.mem_univ b),
      Finset.prod_congr rfl (g := fun _ => (1 / 2 : ℝ)) fun i hi => by
        rw [hc]; simp [Finset.ne_of_mem_erase hi]]
    simp [hc]
  rw [hp] at h1
  rw [simplexVolume, simplexVolume, ← h1]
  refine Matrix.det_eq_of_forall_row_eq_smul_add_const (fun i => if i = b then 0 else 1 / 2) b (if_pos rfl) ?_
  intro i j
  by_cases hi : i = b
  · subst hi
    simp [hc, hb]
  · refine Fin.cases ?_ (fun j => ?_) j
    · simp [hc, hi]; norm_num
    · simp [hc, hi, h i hi]; ring

/-- **C51**: each pass multiplies the volume of the simplex by -1, -2 or 1/2, or by `(1/2)^n` when it
shrinks; so in exact arithmetic the simplex never collapses. -/
theorem C51_volume {n : Nat} (hn : 1 ≤ n) (f : (Fin n → ℝ) → Option ℝ) (s : NmState n) (v : Fin (n + 1) → ℝ) :
    ∃ a : ℝ, (a = -1 ∨ a = -2 ∨ a = 1 / 2 ∨ a = (1 / 2) ^ n) ∧
      simplexVolume (nmMove f s (nmOrder v) ((nmOrder v).getD 0 0) ((nmOrder v).getD n 0)
        ((nmOrder v).getD (n - 1) 0)).simplex = a * simplexVolume s.simplex := by
  have hn' : (n : ℝ) ≠ 0 := by exact_mod_cast (by omega : n ≠ 0)
  rcases C51_moves f s (nmOrder v) ((nmOrder v).getD 0 0) ((nmOrder v).getD n 0) ((nmOrder v).getD (n - 1) 0)
    with ⟨a, ha, e⟩ | e
  · refine ⟨a, by tauto, ?_⟩
    rw [e, NmState.set]
    set w := (nmOrder v).getD n 0 with hw
    have hr := simplexVolume_replace s.simplex w (fun i => if i = w then a else (1 - a) / n)
      (fun j => nmCentroid s.simplex (nmOrder v) j + a * (s.simplex w j - nmCentroid s.simplex (nmOrder v) j)) ?_ ?_
    · rw [if_pos rfl] at hr; exact hr
    · rw [← Finset.add_sum_erase _ _ (Finset.mem_univ w), if_pos rfl,
        Finset.sum_congr rfl (g := fun _ => (1 - a) / (n : ℝ)) fun i hi => if_neg (Finset.ne_of_mem_erase hi)]
      simp
      field_simp
      ring
    · intro j
      have hc : ∑ i ∈ Finset.univ.erase w, (if i = w then a else (1 - a) / (n : ℝ)) * s.simplex i j
          = (1 - a) / n * ∑ i ∈ Finset.univ.erase w, s.simplex i j := by
        rw [Finset.mul_sum]
        exact Finset.sum_congr rfl fun i hi => by rw [if_neg (Finset.ne_of_mem_erase hi)]
      rw [← Finset.add_sum_erase _ _ (Finset.mem_univ w), if_pos rfl, hc, C51_centroid, ← hw]
      ring
  · refine ⟨(1 / 2) ^ n, by tauto, ?_⟩
    obtain ⟨c1, -, c3⟩ := C51_shrink f s v
    rw [e]
    exact simplexVolume_halved _ _ _ c1 fun i hi => (c3 i hi).1

/-- **C51**: the first simplex is the guess and its shifts along the axes, by `step_frac` times the size of
the coordinate, or, where that is below 1e-12, by the larger of `step_frac` and 1e-4; its volume is the
product of the shifts, so it is not degenerate for a positive `step_frac`. -/
theorem C51_initial {n : Nat} (o : NmOptions) (x0 : Fin n → ℝ) :
    nmVertices o x0 0 = x0
      ∧ (∀ i j, nmVertices o x0 (Fin.succ i) j = x0 j + if j = i then
          (if 1 / 10 ^ 12 < |x0 i| then o.stepFrac * |x0 i| else max o.stepFrac (1 / 10 ^ 4)) else 0)
      ∧ simplexVolume (nmVertices o x0) = ∏ i, nmDelta o x0 i
      ∧ (0 < o.stepFrac → 0 < simplexVolume (nmVertices o x0)) := by
  have hv : simplexVolume (nmVertices o x0) = ∏ i, nmDelta o x0 i := by
    rw [simplexVolume, Matrix.det_eq_of_forall_row_eq_smul_add_const
      (B := Matrix.of (Fin.cases (Fin.cons 1 x0) fun i => (Fin.cons 0 (Pi.single i (nmDelta o x0 i)) : Fin (n + 1) → ℝ)))
      (Fin.cons 0 fun _ => 1) 0 (by simp) ?_]
    · rw [Matrix.det_succ_column_zero, Fin.sum_univ_succ]
      have e : (Matrix.of (Fin.cases (Fin.cons 1 x0) fun i => (Fin.cons 0 (Pi.single i (nmDelta o x0 i)) :
          Fin (n + 1) → ℝ))).submatrix (Fin.succAbove 0) Fin.succ = Matrix.diagonal (nmDelta o x0) := by
        ext i j
        simp [Matrix.diagonal_apply, Pi.single_apply, eq_comm]
      rw [e, Matrix.det_diagonal]
      simp
    · intro i j
      refine Fin.cases ?_ (fun i => ?_) i
      · simp [nmVertices]
      · refine Fin.cases ?_ (fun j => ?_) j
        · simp [nmVertices]
        · by_cases hj : j = i
          · subst hj; simp [nmVertices]; ring
          · simp [nmVertices, hj]
  refine ⟨rfl, fun i j => ?_, hv, fun hs => ?_⟩
  · change Function.update x0 i (x0 i + nmDelta o x0 i) j = _
    by_cases hj : j = i
    · subst hj; simp [nmDelta]
    · simp [hj]
  · rw [hv]
    refine Finset.prod_pos fun i _ => ?_
    rw [nmDelta]
    split
    · rename_i h; exact mul_pos hs (lt_trans (by positivity) h)
    · exact lt_max_of_lt_left hs

/-- **C51**: with a positive `step_frac` the simplex is never degenerate, whatever the objective and the
number of passes. -/
theorem C51_nondegenerate {n : Nat} (hn : 1 ≤ n) (f : (Fin n → ℝ) → Option ℝ) (x0 : Fin n → ℝ) (o : NmOptions)
    (hs : 0 < o.stepFrac) {k : Nat} {t : NmState n × Nat × Bool} (h : nmLoop f o k 0 (nmInit f o x0) = .ok t) :
    simplexVolume t.1.simplex ≠ 0 := by
  have key : ∀ (fuel it : Nat) (s : NmState n), simplexVolume s.simplex ≠ 0 →
      nmLoop f o fuel it s = .ok t → simplexVolume t.1.simplex ≠ 0 := by
    intro fuel
    induction fuel with
    | zero => intro it s h0 h; rw [nmLoop] at h; rw [← Outcome.ok.inj h]; exact h0
    | succ fuel ih =>
      intro it s h0 h
      rw [nmLoop] at h
      cases hv : nmNumbers s.values with
      | none => rw [hv] at h; cases h
      | some v =>
        rw [hv] at h
        simp only [] at h
        split at h
        · rw [← Outcome.ok.inj h]; exact h0
        · refine ih _ _ ?_ h
          obtain ⟨a, ha, e⟩ := C51_volume hn f s v
          rw [e]
          refine mul_ne_zero ?_ h0
          rcases ha with rfl | rfl | rfl | rfl <;> norm_num
  exact key k 0 _ ((C51_initial o x0).2.2.2 hs).ne' h

example : simplexVolume (nmVertices ⟨10, 1, 1, 1 / 20⟩ ![2, 3]) = 3 / 200 := by
  rw [(C51_initial _ _).2.2.1, Fin.prod_univ_two]
  norm_num [nmDelta]

/-- A concrete objective on the line, everywhere a number: the hypotheses are satisfiable and the
result beats the start. -/
example : ∃ r : NmResult 1, nelderMead (fun x => some ((x 0 - 3) ^ 2)) (fun _ => 1)
    ⟨500, 1 / 10 ^ 8, 1 / 10 ^ 8, 5 / 100⟩ = .ok r ∧ r.f ≤ 4 ∧ (r.x 0 - 3) ^ 2 = r.f := by
  obtain ⟨r, hr⟩ := C51_total (n := 1) le_rfl (fun x => some ((x 0 - 3) ^ 2)) (fun x => by simp)
    (fun _ => 1) ⟨500, 1 / 10 ^ 8, 1 / 10 ^ 8, 5 / 100⟩
  refine ⟨r, hr, ?_, ?_⟩
  · exact (C51_not_worse _ _ _ _ hr).1 4 (by norm_num)
  · have := C51_value _ _ _ _ hr
    simpa using this

/-- Convergence is reported for a constant objective with generous tolerances. -/
example : ∃ r : NmResult 1, nelderMead (fun _ => some 0) (fun _ => 1)
    ⟨1, 1, 1, 5 / 100⟩ = .ok r ∧ r.converged = true := by
  obtain ⟨r, hr⟩ := C51_total (n := 1) le_rfl (fun _ => some 0) (fun x => by simp)
    (fun _ => 1) ⟨1, 1, 1, 5 / 100⟩
  refine ⟨r, hr, ?_⟩
  obtain ⟨_, s, v, hl, _⟩ := nelderMead_ok hr
  rw [nmLoop] at hl
  have hnum : nmNumbers (nmInit (n := 1) (fun _ => some 0) ⟨1, 1, 1, 5 / 100⟩ fun _ => 1).values =
      some fun _ => 0 := nmNumbers_of fun i => rfl
  rw [hnum] at hl
  simp only [] at hl
  rw [if_pos] at hl
  · injection hl with hl
    injection hl with _ hl
    injection hl with _ hl
    exact hl.symm
  · refine ⟨by norm_num, ?_⟩
    have hord : nmOrder (fun _ : Fin (1 + 1) => (0 : ℝ)) = [0, 1] := by
      rw [nmOrder]
      exact List.mergeSort_of_pairwise (by simp [List.finRange])
    rw [hord]
    have e0 : nmVertices (n := 1) ⟨1, 1, 1, 5 / 100⟩ (fun _ => 1) 0 0 = 1 := rfl
    have e1 : nmVertices (n := 1) ⟨1, 1, 1, 5 / 100⟩ (fun _ => 1) 1 0 = 1 + 5 / 100 := by
      rw [show (1 : Fin (1 + 1)) = Fin.succ 0 from rfl, nmVertices, Fin.cases_succ,
        Function.update_self]
      norm_num [nmDelta]
    simp only [nmSpread, nmExtent, nmInit, List.finRange_succ, List.finRange_zero]
    simp [e0, e1]
    norm_num

end Verif
