import Verif.Spec.Dated
import Verif.Props.SimLaw
import Verif.Lemmas.Chain

/-!
# The integration dates in closed form, and regular grids
-/

namespace Verif

open Outcome Classical

theorem gridLoop_mem (last : Int) (step : Nat) (hs : 0 < step) :
    ∀ (fuel : Nat) (cur : Int) (g : List Int), (last - cur).toNat ≤ fuel →
      gridLoop last step fuel cur = .ok g →
      ∀ x, x ∈ g ↔ cur < x ∧ x ≤ last ∧ (x = last ∨ (step : Int) ∣ x - cur) := by
  intro fuel
  induction fuel with
  | zero =>
    intro cur g hf h x
    rw [gridLoop] at h
    injection h with h
    subst h
    simp only [List.not_mem_nil, false_iff]
    omega
  | succ fuel ih =>
    intro cur g hf h x
    rw [gridLoop] at h
    by_cases hc : cur < last
    · rw [if_pos hc] at h
      by_cases hv : Valid (cur + step)
      · rw [if_pos hv] at h
        obtain ⟨rest, hr, h⟩ := bind_eq_ok.1 h
        injection h with h
        subst h
        by_cases hl : cur + step > last
        · rw [if_pos hl] at hr ⊢
          rw [List.mem_cons, ih last rest (by omega) hr]
          constructor
          · rintro (rfl | h)
            · exact ⟨hc, le_rfl, .inl rfl⟩
            · omega
          · rintro ⟨h1, h2, h3 | ⟨k, h3⟩⟩
            · exact .inl h3
            · exfalso
              have hk : 0 < k := by
                by_contra hk
                have : (step : Int) * k ≤ 0 := mul_nonpos_of_nonneg_of_nonpos (by omega) (by omega)
                omega
              have : (step : Int) * 1 ≤ step * k := mul_le_mul_of_nonneg_left (by omega) (by omega)
              omega
        · rw [if_neg hl] at hr ⊢
          rw [List.mem_cons, ih (cur + step) rest (by omega) hr]
          have hd : (step : Int) ∣ x - (cur + step) ↔ (step : Int) ∣ x - cur := by
            rw [show x - (cur + step) = x - cur - step by ring]
            exact dvd_sub_self_right
          rw [hd]
          constructor
          · rintro (rfl | ⟨h1, h2, h3⟩)
            · exact ⟨by omega, by omega, .inr (by simp)⟩
            · exact ⟨by omega, h2, h3⟩
          · rintro ⟨h1, h2, h3⟩
            by_cases hx : x = cur + step
            · exact .inl hx
            · refine .inr ⟨?_, h2, h3⟩
              rcases h3 with h3 | ⟨k, h3⟩
              · omega
              · have hk : 0 < k := by
                  by_contra hk
                  have : (step : Int) * k ≤ 0 := mul_nonpos_of_nonneg_of_nonpos (by omega) (by omega)
                  omega
                have : (step : Int) * 1 ≤ step * k := mul_le_mul_of_nonneg_left (by omega) (by omega)
                omega
      · rw [if_neg hv] at h; cases h
    · rw [if_neg hc] at h
      injection h with h
      subst h
      simp only [List.not_mem_nil, false_iff]
      omega

theorem simGrid_exact (val : Int) (obs : List Int) (last : Int) (step : Nat) (hs : 0 < step)
    (hv : ∀ d ∈ obs, val < d) (hl : last ∈ obs ∧ ∀ d ∈ obs, d ≤ last) (g : List Int)
    (h : simGrid val obs last step = .ok g) :
    ∃ later, g = val :: later ∧ IsGrid val obs step later := by
  obtain ⟨later, rfl, hg⟩ := simGrid_good val obs last step hs hv hl g h
  refine ⟨later, rfl, hg.increasing, fun x => ?_⟩
  obtain ⟨uniform, hu, h⟩ := bind_eq_ok.1 h
  injection h with h
  have hm := gridLoop_mem last step hs _ _ _ le_rfl hu x
  have hmem : x ∈ val :: later ↔ x = val ∨ x ∈ uniform ∨ x ∈ obs := by
    rw [← h, mem_dedupDates, List.mem_mergeSort, List.mem_append, List.mem_cons, or_assoc]
  have hgt : x ∈ later → val < x := (List.pairwise_cons.1 hg.increasing).1 x
  rw [List.mem_cons, hm] at hmem
  have hlv := hv last hl.1
  constructor
  · intro hx
    rcases hmem.1 (.inr hx) with h | ⟨h1, h2, h3 | h3⟩ | h
    · have := hgt hx; omega
    · exact .inl (h3 ▸ hl.1)
    · exact .inr ⟨h1, h3, last, hl.1, h2⟩
    · exact .inl h
  · intro hx
    have : val < x ∧ (x = val ∨ (val < x ∧ x ≤ last ∧ (x = last ∨ (step : Int) ∣ x - val)) ∨ x ∈ obs) := by
      rcases hx with hx | ⟨h1, h2, d, hd, h3⟩
      · exact ⟨hv x hx, .inr (.inr hx)⟩
      · exact ⟨h1, .inr (.inl ⟨h1, h3.trans (hl.2 d hd), .inr h2⟩)⟩
    rcases hmem.2 this.2 with h | h
    · omega
    · exact h

/-- A successful run, with its integration dates in closed form. -/
theorem captured_exact {S M : Type} {ks : KeySearch} {sim : SimModel S M} {m : M} {val : Int}
    {dates : List Int} {n step : Nat} {dc : Int → Int → Outcome ℝ} {f : Int → ℝ}
    (hf : ∀ d, val ≤ d → yfOrZero dc val d = .ok (f d)) (hinc : ∀ a b, val ≤ a → a < b → f a < f b)
    {r : DatedPaths S} (h : simulateAtDates ks sim m val dates n step dc = .ok r) :
    0 < n ∧ 0 < step ∧ (∀ d ∈ dates, val < d) ∧ r.obs = (dates.mergeSort fun a b => decide (a ≤ b))
    ∧ ∃ later, IsGrid val dates step later ∧ r.paths = expectedPaths sim f val later r.obs n m := by
  obtain ⟨hn, hs, hne, hv, last, grid, times, hlast, hg, ht, idx, hi, rfl⟩ := simulate_ok h
  have hsort := mergeSort_dates dates
  have hperm : (dates.mergeSort fun a b => decide (a ≤ b)).Perm dates := List.mergeSort_perm _ _
  have hmax := getLast_max _ _ hsort hlast
  obtain ⟨later, rfl, hgood⟩ := simGrid_exact val _ last step hs
    (fun d hd => hv d (hperm.mem_iff.1 hd)) hmax grid hg
  have hge : ∀ d ∈ val :: later, val ≤ d := by
    intro d hd
    rcases List.mem_cons.1 hd with rfl | hd
    · exact le_rfl
    · exact ((List.pairwise_cons.1 hgood.increasing).1 d hd).le
  have hts := gridTimes_ok (fun d hd => hf d (hge d hd)) ht
  have hcov : ∀ d ∈ dates.mergeSort fun a b => decide (a ≤ b), d ∈ later :=
    fun d hd => (hgood.mem d).2 (.inl hd)
  have hidx := obsIndices_eq ks (val :: later) hgood.increasing _
    (fun d hd => List.mem_cons_of_mem _ (hcov d hd))
  rw [hidx] at hi
  injection hi with hi
  subst hts hi
  refine ⟨hn, hs, hv, rfl, later, ⟨hgood.increasing, fun g => ?_⟩, runPaths_eq sim f val later _
    hgood.increasing (fun a ha b _ hab => hinc a b (hge a ha) hab) hsort hcov n m⟩
  rw [hgood.mem g, hperm.mem_iff]
  simp only [hperm.mem_iff]

/-- The states of all paths at a requested date. -/
theorem statesAt_exact {S M : Type} {ks : KeySearch} {sim : SimModel S M} {m : M} {val : Int}
    {dates : List Int} {n step : Nat} {dc : Int → Int → Outcome ℝ} {f : Int → ℝ}
    (hf : ∀ d, val ≤ d → yfOrZero dc val d = .ok (f d)) (hinc : ∀ a b, val ≤ a → a < b → f a < f b)
    {r : DatedPaths S} (h : simulateAtDates ks sim m val dates n step dc = .ok r) {d : Int} (hd : d ∈ dates) :
    ∃ later, IsGrid val dates step later
      ∧ r.statesAt ks d = .ok (some (expectedPaths sim f val later [d] n m).flatten) := by
  obtain ⟨-, -, -, hobs, later, hgood, hpaths⟩ := captured_exact hf hinc h
  have hperm : r.obs.Perm dates := hobs ▸ List.mergeSort_perm _ _
  have hsort : r.obs.Pairwise (· ≤ ·) := hobs ▸ mergeSort_dates dates
  refine ⟨later, hgood, ?_⟩
  rw [DatedPaths.statesAt]
  rcases hk : ks.search r.obs d with i | i
  · have hget := ks.found r.obs d i hsort hk
    have hcol : ∀ (k : Nat) (m : M), column i (expectedPaths sim f val later r.obs k m) =
        .ok (expectedPaths sim f val later [d] k m).flatten := by
      intro k
      induction k with
      | zero => intro m; rfl
      | succ k ih =>
        intro m
        rw [expectedPaths, column, List.getElem?_map, hget]
        simp only [Option.map_some]
        rw [ih]; rfl
    simp only []
    rw [hpaths, hcol]; rfl
  · exfalso
    obtain ⟨_, h1, h2⟩ := ks.missing r.obs d i hsort hk
    have hm := hperm.mem_iff.2 hd
    rw [← List.take_append_drop i r.obs, List.mem_append] at hm
    rcases hm with hm | hm
    · have := h1 d hm; omega
    · have := h2 d hm; omega

/-- Two increasing lists with the same members are equal. -/
theorem increasing_ext {a b : List Int} (ha : a.Pairwise (· < ·)) (hb : b.Pairwise (· < ·))
    (h : ∀ x, x ∈ a ↔ x ∈ b) : a = b :=
  ((List.perm_ext_iff_of_nodup (ha.imp fun h => by omega) (hb.imp fun h => by omega)).2 h).eq_of_pairwise
    (fun _ _ _ _ h1 h2 => by omega) ha hb

/-- The integration dates up to an observation date depend only on the requests up to that date. -/
theorem IsGrid.prefix {val : Int} {A B : List Int} {step : ℕ} {la lb : List Int} (ha : IsGrid val A step la)
    (hb : IsGrid val B step lb) {d : Int} (hd : d ∈ A) (h : ∀ x ≤ d, x ∈ A ↔ x ∈ B) :
    la.filter (fun g => decide (g ≤ d)) = lb.filter fun g => decide (g ≤ d) := by
  refine increasing_ext ((List.pairwise_cons.1 ha.increasing).2.filter _)
    ((List.pairwise_cons.1 hb.increasing).2.filter _) fun x => ?_
  rw [List.mem_filter, List.mem_filter, ha.mem, hb.mem, decide_eq_true_iff]
  constructor
  · rintro ⟨h1 | ⟨h1, h2, -⟩, h3⟩
    · exact ⟨.inl ((h x h3).1 h1), h3⟩
    · exact ⟨.inr ⟨h1, h2, d, (h d le_rfl).1 hd, h3⟩, h3⟩
  · rintro ⟨h1 | ⟨h1, h2, -⟩, h3⟩
    · exact ⟨.inl ((h x h3).2 h1), h3⟩
    · exact ⟨.inr ⟨h1, h2, d, hd, h3⟩, h3⟩

/-- Every `step`-th day. -/
def regularDates (val : Int) (step N : ℕ) : List Int := (List.range N).map fun k : ℕ => val + ((k : Int) + 1) * step

theorem regular_increasing (val : Int) {step : ℕ} (hs : 0 < step) (N : ℕ) :
    (regularDates val step N).Pairwise (· < ·) := by
  rw [regularDates, List.pairwise_map]
  refine List.pairwise_lt_range.imp fun {a b} hab => ?_
  have : ((a : Int) + 1) * step < ((b : Int) + 1) * step :=
    mul_lt_mul_of_pos_right (by omega) (by omega)
  omega

theorem mem_regular {val : Int} {step N : ℕ} (hs : 0 < step) (x : Int) :
    x ∈ regularDates val step N ↔ val < x ∧ (step : Int) ∣ x - val ∧ x ≤ val + N * step := by
  rw [regularDates, List.mem_map]
  constructor
  · rintro ⟨k, hk, rfl⟩
    rw [List.mem_range] at hk
    have h1 : (0 : Int) < ((k : Int) + 1) * step := mul_pos (by omega) (by omega)
    have h2 : ((k : Int) + 1) * step ≤ N * step := mul_le_mul_of_nonneg_right (by omega) (by omega)
    exact ⟨by omega, ⟨(k : Int) + 1, by ring⟩, by omega⟩
  · rintro ⟨h1, ⟨q, h2⟩, h3⟩
    have hq : 0 < q := by
      by_contra hq
      have : (step : Int) * q ≤ 0 := mul_nonpos_of_nonneg_of_nonpos (by omega) (by omega)
      omega
    have hN : q ≤ N := by
      by_contra hN
      have : (step : Int) * (N + 1) ≤ step * q := mul_le_mul_of_nonneg_left (by omega) (by omega)
      have e : (step : Int) * (N + 1) = N * step + step := by ring
      omega
    refine ⟨(q - 1).toNat, List.mem_range.2 (by omega), ?_⟩
    rw [Int.toNat_of_nonneg (by omega)]
    have : (q - 1 + 1) * (step : Int) = step * q := by ring
    omega

/-- Observation dates on the regular grid do not add integration dates. -/
theorem IsGrid.regular {val : Int} {dates : List Int} {step N : ℕ} (hs : 0 < step) {later : List Int}
    (h : IsGrid val dates step later) (hv : ∀ d ∈ dates, val < d ∧ (step : Int) ∣ d - val)
    (hl : val + N * step ∈ dates) (hm : ∀ d ∈ dates, d ≤ val + N * step) :
    later = regularDates val step N := by
  refine increasing_ext (List.pairwise_cons.1 h.increasing).2 (regular_increasing val hs N) fun x => ?_
  rw [h.mem, mem_regular hs]
  constructor
  · rintro (h1 | ⟨h1, h2, d, h3, h4⟩)
    · exact ⟨(hv x h1).1, (hv x h1).2, hm x h1⟩
    · exact ⟨h1, h2, h4.trans (hm d h3)⟩
  · rintro ⟨h1, h2, h3⟩
    exact .inr ⟨h1, h2, _, hl, h3⟩

theorem filter_regular {val : Int} {step N k : ℕ} (hs : 0 < step) (hk : k ≤ N) :
    (regularDates val step N).filter (fun g => decide (g ≤ val + k * step)) = regularDates val step k := by
  refine increasing_ext ((regular_increasing val hs N).filter _) (regular_increasing val hs k) fun x => ?_
  rw [List.mem_filter, mem_regular hs, mem_regular hs, decide_eq_true_iff]
  have : (k : Int) * step ≤ N * step := mul_le_mul_of_nonneg_right (by omega) (by omega)
  constructor
  · rintro ⟨⟨h1, h2, -⟩, h3⟩; exact ⟨h1, h2, h3⟩
  · rintro ⟨h1, h2, h3⟩; exact ⟨⟨h1, h2, by omega⟩, h3⟩

theorem walk_regular_from {S E : Type} (s0 : S) (g : E → S → ℝ → ℝ → S) (x : ℕ → E) (f : Int → ℝ) (val : Int)
    (step : ℕ) (dt : ℝ) (N : ℕ) : ∀ (n a m : ℕ) (s : S), a + n ≤ N →
      (∀ k ≤ N, f (val + k * step) = k * dt) →
      (walk (drawSim s0 g x) f (val + a * step)
        ((List.range n).map fun k : ℕ => val + ((a : Int) + k + 1) * step) (s, m)).1
      = chain (fun k s z => g z s ((a + k + 1 / 2) * dt) dt) n s fun j => x (m + j)
  | 0, a, m, s, _, _ => rfl
  | n + 1, a, m, s, h, hf => by
    rw [List.range_succ_eq_map, List.map_cons, List.map_map, walk, chain_front]
    have e1 : val + ((a : Int) + (0 : ℕ) + 1) * step = val + ((a + 1 : ℕ) : Int) * step := by push_cast; ring
    have e2 : (fun k : ℕ => val + ((a : Int) + k + 1) * step) ∘ Nat.succ
        = fun k : ℕ => val + (((a + 1 : ℕ) : Int) + k + 1) * step := by
      funext k; simp only [Function.comp_apply]; push_cast; ring
    rw [e1, e2, hf a (by omega), hf (a + 1) (by omega)]
    simp only [drawSim]
    have := walk_regular_from s0 g x f val step dt N n (a + 1) (m + 1)
      (g (x m) s ((a * dt + ((a + 1 : ℕ) : ℝ) * dt) / 2) (((a + 1 : ℕ) : ℝ) * dt - a * dt)) (by omega) hf
    simp only [drawSim] at this
    rw [this]
    have e3 : (a * dt + ((a + 1 : ℕ) : ℝ) * dt) / 2 = (a + ((0 : ℕ) : ℝ) + 1 / 2) * dt := by push_cast; ring
    have e4 : ((a + 1 : ℕ) : ℝ) * dt - a * dt = dt := by push_cast; ring
    rw [e3, e4, add_zero]
    congr 1
    · funext k s z
      congr 2
      push_cast
      ring
    · funext j
      congr 1
      ring

theorem walk_regular {S E : Type} (s0 : S) (g : E → S → ℝ → ℝ → S) (x : ℕ → E) {f : Int → ℝ} {val : Int}
    {step N : ℕ} {dt : ℝ} (hf : ∀ k ≤ N, f (val + k * step) = k * dt) {n : ℕ} (hn : n ≤ N) (m : ℕ) :
    (walk (drawSim s0 g x) f val (regularDates val step n) (s0, m)).1
      = regularRun g dt n s0 fun j => x (m + j) := by
  have := walk_regular_from s0 g x f val step dt N n 0 m s0 (by omega) hf
  simp only [Nat.cast_zero, zero_mul, add_zero, zero_add] at this
  rw [regularRun, regularDates]
  exact this

theorem regular_length (val : Int) (step N : ℕ) : (regularDates val step N).length = N := by
  simp [regularDates]

theorem flatten_singletons {S : Type} (F : ℕ → S) (n : ℕ) :
    ((List.range n).map fun j => [F j]).flatten = (List.range n).map F := by
  induction n with
  | zero => rfl
  | succ n ih => rw [List.range_succ, List.map_append, List.map_append, List.flatten_append, ih]; rfl

end Verif
