import Verif.Spec.Forwards
import Mathlib.Tactic.FieldSimp
import Mathlib.Tactic.Ring
import Mathlib.Tactic.Linarith
import Mathlib.Algebra.Order.Field.Basic
import Mathlib.Data.Real.Basic
import Mathlib.Data.List.Sort

/-! # Lemmas on the forward-point lookup -/

namespace Verif

open Outcome

theorem datedQuotes_ok (val lag : Int) (c : Cal) (qs : List FwdQuote) (l : List (Int × ℝ)) :
    datedQuotes val lag c qs = .ok l ↔
      List.Forall₂ (fun q p => settlementDateWithLag q.tenor val c lag = .ok p.1 ∧ p.2 = q.value)
        qs l := by
  induction qs generalizing l with
  | nil => simp [datedQuotes, eq_comm]
  | cons q qs ih =>
    simp only [datedQuotes, bind_eq_ok, ok.injEq]
    constructor
    · rintro ⟨d, hd, rest, hr, rfl⟩
      exact .cons ⟨hd, rfl⟩ ((ih rest).1 hr)
    · intro h
      cases h with
      | cons h1 h2 =>
        rename_i p rest
        refine ⟨p.1, h1.1, rest, (ih rest).2 h2, ?_⟩
        rw [← h1.2]

theorem dated_iff (h : FwdHelper) (c : Cal) (l : List (Int × ℝ)) :
    datedQuotes h.valuation h.spotLag c h.quotes = .ok l ↔ Dated h c l := datedQuotes_ok _ _ _ _ _

/-- A concrete implementation of the two standard-library calls, showing that the
contract can be met. -/
noncomputable def SliceOps.std : SliceOps where
  sort l := l.mergeSort fun a b => decide (a.1 ≤ b.1)
  search l t :=
    match l.findIdx? fun q => decide (q.1 = t) with
    | some i => .found i
    | none => .missing (l.findIdx fun q => decide (t < q.1))
  sort_perm l := List.mergeSort_perm _ _
  sort_sorted l := by
    have := List.pairwise_mergeSort (le := fun a b : Int × ℝ => decide (a.1 ≤ b.1))
      (by intro a b c h1 h2; simp only [decide_eq_true_eq] at *; omega)
      (by intro a b; simp only [Bool.or_eq_true, decide_eq_true_eq]; omega) l
    simpa using this
  search_found l t i _ h := by
    split at h
    · rename_i j hj
      cases h
      rw [List.findIdx?_eq_some_iff_getElem] at hj
      obtain ⟨h1, h2, -⟩ := hj
      simp only [decide_eq_true_eq] at h2
      exact ⟨l[i].2, by rw [List.getElem?_eq_getElem h1, ← h2]⟩
    · cases h
  search_missing l t i hs h := by
    split at h
    · cases h
    · rename_i hn
      cases h
      have hne : ∀ q ∈ l, q.1 ≠ t := by
        simpa [List.findIdx?_eq_none_iff] using hn
      refine ⟨List.findIdx_le_length, ?_, ?_⟩
      · intro q hq
        obtain ⟨k, hk, rfl⟩ := List.mem_take_iff_getElem.1 hq
        have hk' : k < l.findIdx fun q => decide (t < q.1) := by omega
        have := List.not_of_lt_findIdx hk'
        simp only [decide_eq_false_iff_not, not_lt] at this
        have := hne l[k] (List.getElem_mem _)
        omega
      · intro q hq
        obtain ⟨k, hk, rfl⟩ := List.mem_drop_iff_getElem.1 hq
        have hlen : l.findIdx (fun q => decide (t < q.1)) < l.length := by omega
        have h0 := List.findIdx_getElem (w := hlen)
        simp only [decide_eq_true_eq] at h0
        rcases Nat.eq_zero_or_pos k with rfl | hp
        · simpa using h0
        · have := List.pairwise_iff_getElem.1 hs (l.findIdx fun q => decide (t < q.1))
            ((l.findIdx fun q => decide (t < q.1)) + k) hlen (by omega) (by omega)
          omega

/-- What the search part returns on a sorted list. -/
theorem interpolateAt_cases (ops : SliceOps) {l : List (Int × ℝ)} (t : Int)
    (hs : l.Pairwise fun a b => a.1 ≤ b.1) :
    (∃ v, (t, v) ∈ l ∧ interpolateAt ops l t = .ok (some v)) ∨
    (((∀ q ∈ l, q.1 < t) ∨ ∀ q ∈ l, t < q.1) ∧ interpolateAt ops l t = .ok none) ∨
    (∃ a b, Brackets l a b t ∧ interpolateAt ops l t = .ok (some (lineThrough a b t))) := by
  unfold interpolateAt
  rcases hsearch : ops.search l t with i | i
  · obtain ⟨v, hv⟩ := ops.search_found l t i hs hsearch
    left
    refine ⟨v, List.mem_of_getElem? hv, ?_⟩
    simp only [hv]
  · obtain ⟨h1, h2, h3⟩ := ops.search_missing l t i hs hsearch
    right
    simp only
    split
    · rename_i hi
      left
      refine ⟨?_, rfl⟩
      rcases hi with rfl | rfl
      · right; simpa using h3
      · left; simpa using h2
    · rename_i hi
      right
      have hi1 : i - 1 < l.length := by omega
      have hi2 : i < l.length := by omega
      rw [List.getElem?_eq_getElem hi1, List.getElem?_eq_getElem hi2]
      have ha : l[i - 1].1 < t := h2 _ (List.mem_take_iff_getElem.2 ⟨i - 1, by omega, rfl⟩)
      have hb : t < l[i].1 := h3 _ (List.mem_drop_iff_getElem.2 ⟨0, by omega, by simp⟩)
      refine ⟨l[i - 1], l[i], ⟨List.getElem_mem _, List.getElem_mem _, ha, hb, ?_⟩, ?_⟩
      · intro q hq
        obtain ⟨k, hk, rfl⟩ := List.mem_iff_getElem.1 hq
        rcases (show k < i - 1 ∨ k = i - 1 ∨ k = i ∨ i < k by omega) with h | h | h | h
        · exact .inl (List.pairwise_iff_getElem.1 hs _ _ hk hi1 h)
        · subst h; exact .inl le_rfl
        · subst h; exact .inr le_rfl
        · exact .inr (List.pairwise_iff_getElem.1 hs _ _ hi2 hk h)
      · simp only
        rw [if_neg (by omega)]
        have hne : (((l[i].1 - l[i - 1].1 : Int)) : ℝ) ≠ 0 := by
          have : l[i].1 - l[i - 1].1 ≠ 0 := by omega
          exact_mod_cast this
        congr 2
        unfold lineThrough
        field_simp
        push_cast
        ring

end Verif
