import Verif.Model.TdSabrCal
import Verif.Props.SabrEffective
import Verif.Spec.TdSabrCal
import Mathlib.Data.List.GetD
import Mathlib.Data.List.TakeWhile

/-! # Lemmas for the time-dependent SABR calibrator -/

namespace Verif

open Outcome

/-! ## Bracketing and bisection -/

theorem tdBump_spec (f : ℝ → Outcome ℝ) : ∀ (n : ℕ) (hi v h' v' : ℝ), 0 < hi → f hi = .ok v →
    tdBump f n hi v = .ok (h', v') → f h' = .ok v' ∧ hi ≤ h' ∧ h' ≤ 2 ^ n * hi
  | 0, hi, v, h', v', _, hf, h => by
    rw [tdBump] at h
    cases h
    exact ⟨hf, le_rfl, by simp⟩
  | n + 1, hi, v, h', v', h0, hf, h => by
    rw [tdBump] at h
    by_cases hv : v < 0
    · rw [if_pos hv] at h
      obtain ⟨w, hw, h⟩ := bind_eq_ok.1 h
      obtain ⟨h1, h2, h3⟩ := tdBump_spec f n (hi * 2) w h' v' (by linarith) hw h
      exact ⟨h1, by linarith, by rw [pow_succ]; linarith⟩
    · rw [if_neg hv] at h
      cases h
      refine ⟨hf, le_rfl, ?_⟩
      have : (1 : ℝ) ≤ 2 ^ (n + 1) := one_le_pow₀ (by norm_num)
      nlinarith

theorem tdBisectLoop_spec (f : ℝ → Outcome ℝ) {tol : ℝ} (ht : 0 ≤ tol) : ∀ (n : ℕ) (lo hi r vl vh : ℝ),
    lo ≤ hi → f lo = .ok vl → vl ≤ 0 → f hi = .ok vh → 0 ≤ vh → tdBisectLoop f tol n lo hi = .ok r →
    ∃ a b va vb, lo ≤ a ∧ a ≤ r ∧ r ≤ b ∧ b ≤ hi ∧ f a = .ok va ∧ f b = .ok vb ∧ va ≤ tol ∧ -tol ≤ vb ∧
      b - a ≤ max tol ((hi - lo) / 2 ^ n)
  | 0, lo, hi, r, vl, vh, hlh, h1, h2, h3, h4, h => by
    rw [tdBisectLoop] at h
    cases h
    exact ⟨lo, hi, vl, vh, le_rfl, by linarith, by linarith, le_rfl, h1, h3, by linarith, by linarith,
      by simp⟩
  | n + 1, lo, hi, r, vl, vh, hlh, h1, h2, h3, h4, h => by
    rw [tdBisectLoop] at h
    obtain ⟨v, hv, h⟩ := bind_eq_ok.1 h
    by_cases hc : |v| < tol ∨ hi - lo < tol
    · rw [if_pos hc] at h
      cases h
      rcases hc with hc | hc
      · have := abs_lt.1 hc
        exact ⟨_, _, v, v, by linarith, le_rfl, le_rfl, by linarith, hv, hv, this.2.le, this.1.le,
          by rw [sub_self]; exact le_max_of_le_left ht⟩
      · exact ⟨lo, hi, vl, vh, le_rfl, by linarith, by linarith, le_rfl, h1, h3, by linarith, by linarith,
          le_max_of_le_left hc.le⟩
    · rw [if_neg hc] at h
      by_cases hv0 : v < 0
      · rw [if_pos hv0] at h
        obtain ⟨a, b, va, vb, k1, k2, k3, k4, k5, k6, k7, k8, k9⟩ :=
          tdBisectLoop_spec f ht n _ hi r v vh (by linarith) hv hv0.le h3 h4 h
        refine ⟨a, b, va, vb, by linarith, k2, k3, k4, k5, k6, k7, k8, ?_⟩
        rwa [show (hi - 0.5 * (lo + hi)) / 2 ^ n = (hi - lo) / 2 ^ (n + 1) by rw [pow_succ]; ring] at k9
      · rw [if_neg hv0] at h
        obtain ⟨a, b, va, vb, k1, k2, k3, k4, k5, k6, k7, k8, k9⟩ :=
          tdBisectLoop_spec f ht n lo _ r vl v (by linarith) h1 h2 hv (not_lt.1 hv0) h
        refine ⟨a, b, va, vb, k1, k2, k3, by linarith, k5, k6, k7, k8, ?_⟩
        rwa [show (0.5 * (lo + hi) - lo) / 2 ^ n = (hi - lo) / 2 ^ (n + 1) by rw [pow_succ]; ring] at k9

/-- What a solved segment satisfies. -/
theorem tdSolve_spec {f : ℝ → Outcome ℝ} {hi0 r : ℝ} (h0 : 1 / 10 ^ 6 ≤ hi0) (h : tdSolve f hi0 = .ok r) :
    1 / 10 ^ 6 ≤ r ∧ r ≤ 2 ^ 20 * hi0 ∧
    ((r = 1 / 10 ^ 6 ∧ ∃ v, f r = .ok v ∧ 0 < v) ∨
      ∃ a b va vb, 1 / 10 ^ 6 ≤ a ∧ a ≤ r ∧ r ≤ b ∧ b ≤ 2 ^ 20 * hi0 ∧ f a = .ok va ∧ f b = .ok vb ∧
        va ≤ 1 / 10 ^ 10 ∧ -(1 / 10 ^ 10) ≤ vb ∧ b - a ≤ max (1 / 10 ^ 10) (hi0 / 2 ^ 60)) := by
  have hp : 0 < hi0 := lt_of_lt_of_le (by norm_num) h0
  unfold tdSolve at h
  obtain ⟨v, hv, h⟩ := bind_eq_ok.1 h
  obtain ⟨⟨hi, vh⟩, hb, h⟩ := bind_eq_ok.1 h
  obtain ⟨b1, b2, b3⟩ := tdBump_spec f 20 hi0 v hi vh hp hv hb
  by_cases hvh : 0 ≤ vh
  · rw [if_pos hvh] at h
    unfold tdBisect at h
    obtain ⟨vl, hl, h⟩ := bind_eq_ok.1 h
    obtain ⟨vh', hh, h⟩ := bind_eq_ok.1 h
    rw [b1] at hh
    cases hh
    by_cases hc : 0 < vl
    · rw [if_pos hc] at h
      cases h
      exact ⟨le_rfl, by linarith, .inl ⟨rfl, vl, hl, hc⟩⟩
    · rw [if_neg hc, if_neg (not_lt.2 hvh)] at h
      obtain ⟨a, b, va, vb, k1, k2, k3, k4, k5, k6, k7, k8, k9⟩ :=
        tdBisectLoop_spec f (by norm_num) 80 _ hi r vl vh (by linarith) hl (not_lt.1 hc) b1 hvh h
      refine ⟨by linarith, by linarith, .inr ⟨a, b, va, vb, k1, k2, k3, by linarith, k5, k6, k7, k8,
        k9.trans (max_le_max le_rfl ?_)⟩⟩
      rw [div_le_div_iff₀ (by positivity) (by positivity)]
      have : (0 : ℝ) < 1 / 10 ^ 6 := by norm_num
      nlinarith
  · rw [if_neg hvh] at h
    exact absurd h (by simp)

theorem tdBisectLoop_ok (f : ℝ → Outcome ℝ) (tol : ℝ) : ∀ (n : ℕ) (lo hi : ℝ), lo ≤ hi →
    (∀ x, lo ≤ x → x ≤ hi → ∃ v, f x = .ok v) → ∃ r, tdBisectLoop f tol n lo hi = .ok r
  | 0, lo, hi, _, _ => ⟨_, rfl⟩
  | n + 1, lo, hi, hlh, hf => by
    obtain ⟨v, hv⟩ := hf (0.5 * (lo + hi)) (by linarith) (by linarith)
    rw [tdBisectLoop, hv, ok_bind]
    split_ifs
    · exact ⟨_, rfl⟩
    · exact tdBisectLoop_ok f tol n _ _ (by linarith) fun x h1 h2 => hf x (by linarith) h2
    · exact tdBisectLoop_ok f tol n _ _ (by linarith) fun x h1 h2 => hf x h1 (by linarith)

theorem tdSolve_ok {f : ℝ → Outcome ℝ} {hi0 v : ℝ} (h0 : 1 / 10 ^ 6 ≤ hi0)
    (hf : ∀ x, 1 / 10 ^ 6 ≤ x → x ≤ hi0 → ∃ v, f x = .ok v) (hv : f hi0 = .ok v) (hv0 : 0 ≤ v) :
    ∃ r, tdSolve f hi0 = .ok r := by
  unfold tdSolve
  rw [hv, ok_bind, tdBump, if_neg (not_lt.2 hv0), ok_bind, if_pos hv0]
  unfold tdBisect
  obtain ⟨vl, hl⟩ := hf _ le_rfl h0
  rw [hl, ok_bind, hv, ok_bind]
  split_ifs
  · exact ⟨_, rfl⟩
  · exact ⟨_, rfl⟩
  · exact tdBisectLoop_ok f _ _ _ _ h0 hf

/-! ## The schedules of the stages -/

/-- A solved segment whose first bracket already has a sign change. -/
theorem tdSolve_bracket {f : ℝ → Outcome ℝ} {hi0 v vl : ℝ} (h0 : 1 / 10 ^ 6 ≤ hi0)
    (hf : ∀ x, 1 / 10 ^ 6 ≤ x → x ≤ hi0 → ∃ v, f x = .ok v) (hv : f hi0 = .ok v) (hv0 : 0 ≤ v)
    (hl : f (1 / 10 ^ 6) = .ok vl) (hl0 : vl ≤ 0) :
    ∃ r a b va vb, tdSolve f hi0 = .ok r ∧ 1 / 10 ^ 6 ≤ a ∧ a ≤ r ∧ r ≤ b ∧ b ≤ hi0 ∧ f a = .ok va ∧
      f b = .ok vb ∧ va ≤ 1 / 10 ^ 10 ∧ -(1 / 10 ^ 10) ≤ vb ∧ b - a ≤ max (1 / 10 ^ 10) (hi0 / 2 ^ 80) := by
  obtain ⟨r, hr⟩ := tdBisectLoop_ok f (1 / 10 ^ 10) 80 _ _ h0 hf
  obtain ⟨a, b, va, vb, k1, k2, k3, k4, k5, k6, k7, k8, k9⟩ :=
    tdBisectLoop_spec f (by norm_num) 80 _ hi0 r vl v h0 hl hl0 hv hv0 hr
  refine ⟨r, a, b, va, vb, ?_, k1, k2, k3, k4, k5, k6, k7, k8, k9.trans (max_le_max le_rfl ?_)⟩
  · unfold tdSolve
    rw [hv, ok_bind, tdBump, if_neg (not_lt.2 hv0), ok_bind, if_pos hv0]
    unfold tdBisect
    rw [hl, ok_bind, hv, ok_bind, if_neg (not_lt.2 hl0), if_neg (not_lt.2 hv0)]
    exact hr
  · have : (0 : ℝ) < 1 / 10 ^ 6 := by norm_num
    exact div_le_div_of_nonneg_right (by linarith) (by positivity)

theorem new_ok_iff {ks vs : List ℝ} {p : PieceConst} : PieceConst.new ks vs = .ok p ↔
    2 ≤ ks.length ∧ vs.length + 1 = ks.length ∧ |ks.headD 0| < 1 / 10 ^ 15 ∧ ks.IsChain (· < ·) ∧
      p = ⟨ks, vs⟩ := by
  unfold PieceConst.new
  split_ifs <;> simp_all [eq_comm]

theorem growNu_spec : ∀ (ps : List (ℝ × Sabr)) (ks nus out : List ℝ), growNu ks nus ps = .ok out →
    ∃ new : List ℝ, out = nus ++ new ∧ new.length = ps.length ∧
      ∀ (i : ℕ) (p : ℝ × Sabr) (nu : ℝ), ps[i]? = some p → new[i]? = some nu →
        tdSolve (nuGap (ks ++ (ps.map Prod.fst).take (i + 1)) (nus ++ new.take i) p.1 p.2)
          (max (p.2.nu * 2) 0.1) = .ok nu
  | [], ks, nus, out, h => by
    rw [growNu] at h
    cases h
    exact ⟨[], by simp, rfl, by simp⟩
  | (T, m) :: rest, ks, nus, out, h => by
    rw [growNu] at h
    obtain ⟨nu, hnu, h⟩ := bind_eq_ok.1 h
    obtain ⟨new, e, hl, hs⟩ := growNu_spec rest _ _ out h
    refine ⟨nu :: new, by rw [e]; simp, by simp [hl], ?_⟩
    intro i p x hp hx
    cases i with
    | zero =>
      simp only [List.getElem?_cons_zero, Option.some.injEq] at hp hx
      subst hp; subst hx
      simpa using hnu
    | succ i =>
      simp only [List.getElem?_cons_succ] at hp hx
      simpa using hs i p x hp hx

theorem growAlpha_spec (nus : List ℝ) : ∀ (ps : List (ℝ × Sabr)) (ks als out : List ℝ),
    growAlpha nus ks als ps = .ok out →
    ∃ new : List ℝ, out = als ++ new ∧ new.length = ps.length ∧
      ∀ (i : ℕ) (p : ℝ × Sabr) (a : ℝ), ps[i]? = some p → new[i]? = some a →
        tdSolve (alphaGap (ks ++ (ps.map Prod.fst).take (i + 1)) (nus.take (als.length + i + 1))
          (als ++ new.take i) p.1 p.2) (max (p.2.alpha * 4) 0.5) = .ok a
  | [], ks, als, out, h => by
    rw [growAlpha] at h
    cases h
    exact ⟨[], by simp, rfl, by simp⟩
  | (T, m) :: rest, ks, als, out, h => by
    rw [growAlpha] at h
    obtain ⟨a, ha, h⟩ := bind_eq_ok.1 h
    obtain ⟨new, e, hl, hs⟩ := growAlpha_spec nus rest _ _ out h
    refine ⟨a :: new, by rw [e]; simp, by simp [hl], ?_⟩
    intro i p x hp hx
    cases i with
    | zero =>
      simp only [List.getElem?_cons_zero, Option.some.injEq] at hp hx
      subst hp; subst hx
      simpa using ha
    | succ i =>
      simp only [List.getElem?_cons_succ] at hp hx
      have := hs i p x hp hx
      simp only [List.length_append, List.length_cons, List.length_nil, List.append_assoc,
        List.cons_append, List.nil_append] at this
      simp only [List.map_cons, List.take_succ_cons]
      rwa [show als.length + (0 + 1) + i + 1 = als.length + (i + 1) + 1 by ring] at this


/-! ## Alignment up to the last knot -/

theorem aligned_last {ks gs os : List ℝ} {T : ℝ} (hc : ks.IsChain (· < ·)) (hT : ks.getLast? = some T)
    (hg : gs.length + 1 = ks.length) (ho : os.length + 1 = ks.length) :
    alignedSegments ⟨ks, gs⟩ ⟨ks, os⟩ T = .ok (mkSegs ks gs os) := by
  have hmem : T ∈ ks := List.mem_of_getLast? hT
  have hle : ∀ k ∈ ks, k ≤ T := by
    intro k hk
    obtain ⟨l, rfl⟩ : ∃ l, ks = l ++ [T] := by
      obtain ⟨l, a, rfl⟩ : ∃ l a, ks = l ++ [a] :=
        ⟨ks.dropLast, ks.getLast (List.ne_nil_of_mem hmem), (List.dropLast_append_getLast _).symm⟩
      rw [List.getLast?_append] at hT
      simp at hT
      exact ⟨l, by rw [hT]⟩
    have := List.isChain_iff_pairwise.1 hc
    rw [List.pairwise_append] at this
    rcases List.mem_append.1 hk with h | h
    · exact (this.2.2 k h T (by simp)).le
    · simp at h; exact h.le
  have ht : (ks.takeWhile fun t => decide (t ≤ T + 1 / 10 ^ 12)) = ks := by
    refine List.takeWhile_eq_self_iff.2 fun k hk => ?_
    have := hle k hk
    have h0 : (0 : ℝ) < 1 / 10 ^ 12 := by norm_num
    simp only [decide_eq_true_eq]
    linarith
  unfold alignedSegments
  rw [if_pos rfl, if_pos ⟨T, hmem, by norm_num⟩]
  simp only
  rw [ht, if_pos ⟨by omega, by omega, by omega⟩, List.take_length, List.take_of_length_le (by omega),
    List.take_of_length_le (by omega)]

theorem mkSegs_snoc : ∀ (ks gs os : List ℝ) (a b g o : ℝ), gs.length = ks.length → os.length = ks.length →
    mkSegs (ks ++ [a, b]) (gs ++ [g]) (os ++ [o]) = mkSegs (ks ++ [a]) gs os ++ [⟨b - a, g, o⟩]
  | [], gs, os, a, b, g, o, hg, ho => by
    rw [List.length_eq_zero_iff.1 hg, List.length_eq_zero_iff.1 ho]
    simp [mkSegs]
  | k :: ks, g' :: gs, o' :: os, a, b, g, o, hg, ho => by
    cases ks with
    | nil =>
      have e1 : gs = [] := by simpa using hg
      have e2 : os = [] := by simpa using ho
      subst e1; subst e2
      simp [mkSegs]
    | cons k' ks =>
      have := mkSegs_snoc (k' :: ks) gs os a b g o (by simpa using hg) (by simpa using ho)
      simp only [List.cons_append] at this ⊢
      rw [mkSegs_cons, this, mkSegs_cons]
      simp
  | k :: ks, [], os, a, b, g, o, hg, ho => by simp at hg
  | k :: ks, g' :: gs, [], a, b, g, o, hg, ho => by simp at ho

theorem mkSegs_delta : ∀ (ks gs os : List ℝ), ks.IsChain (· < ·) → ∀ s ∈ mkSegs ks gs os, 0 < s.delta
  | [], gs, os, _ => by simp [mkSegs]
  | [a], gs, os, _ => by simp [mkSegs]
  | a :: b :: ks, [], os, _ => by simp [mkSegs]
  | a :: b :: ks, g :: gs, [], _ => by simp [mkSegs]
  | a :: b :: ks, g :: gs, o :: os, h => by
    rw [mkSegs_cons]
    intro s hs
    rw [List.isChain_cons_cons] at h
    rcases List.mem_cons.1 hs with rfl | hs
    · exact sub_pos.2 h.1
    · exact mkSegs_delta (b :: ks) gs os h.2 s hs

theorem corrIntegral_mkSegs : ∀ (ks gs os rs : List ℝ), gs.length + 1 = ks.length → os.length + 1 = ks.length →
    rs.length + 1 = ks.length → (∀ o ∈ os, 1 / 10 ^ 15 < |o|) →
    corrIntegral (mkSegs ks gs os) rs = .ok (∑ k ∈ Finset.range rs.length,
      rs.getD k 0 * ((ks.getD (k + 1) 0 - ks.getD k 0) * gs.getD k 0 / os.getD k 0))
  | [], gs, os, rs, hg, _, _, _ => by simp at hg
  | [a], gs, os, rs, hg, ho, hr, _ => by
    have e1 : gs = [] := by simpa using hg
    have e2 : os = [] := by simpa using ho
    have e3 : rs = [] := by simpa using hr
    subst e1; subst e2; subst e3
    simp [mkSegs, corrIntegral]
  | a :: b :: ks, g :: gs, o :: os, r :: rs, hg, ho, hr, hne => by
    rw [mkSegs_cons, corrIntegral, if_pos (hne o (by simp)),
      corrIntegral_mkSegs (b :: ks) gs os rs (by simpa using hg) (by simpa using ho) (by simpa using hr)
        (fun x hx => hne x (List.mem_cons_of_mem _ hx)), ok_bind]
    refine congrArg Outcome.ok ?_
    rw [List.length_cons, Finset.sum_range_succ']
    simp only [List.getD_cons_succ, List.getD_cons_zero]
    rw [add_comm]
    congr 1
    ring
  | a :: b :: ks, [], os, rs, hg, _, _, _ => by simp at hg
  | a :: b :: ks, g :: gs, [], rs, _, ho, _, _ => by simp at ho
  | a :: b :: ks, g :: gs, o :: os, [], _, _, hr, _ => by simp at hr

/-! ## Stage 4 -/

/-- `∫ ν/ω` over segment `k`. -/
noncomputable def skewWeight (ks nus als : List ℝ) (k : ℕ) : ℝ :=
  (ks.getD (k + 1) 0 - ks.getD k 0) * nus.getD k 0 / als.getD k 0

/-- `clamp(-0.999, 0.999)`. -/
noncomputable def clamp999 (r : ℝ) : ℝ := max (-0.999) (min r 0.999)

theorem growRho_spec (nus als : List ℝ) : ∀ (ps : List (ℝ × Sabr)) (ks : List ℝ) (prev : ℝ) (rhos : List ℝ)
    (tail : ℝ) (out : List ℝ), ks.length = rhos.length + 1 → prev = ks.getD rhos.length 0 →
    growRho nus als ks prev rhos tail ps = .ok out →
    ∃ raws : List ℝ, raws.length = ps.length ∧ out = rhos ++ raws.map clamp999 ∧
      ∀ (i : ℕ) (p : ℝ × Sabr), ps[i]? = some p → ∃ g w,
        PieceConst.new ((ks ++ ps.map Prod.fst).take (rhos.length + i + 2)) (nus.take (rhos.length + i + 1)) =
          .ok ⟨(ks ++ ps.map Prod.fst).take (rhos.length + i + 2), nus.take (rhos.length + i + 1)⟩ ∧
        PieceConst.new ((ks ++ ps.map Prod.fst).take (rhos.length + i + 2)) (als.take (rhos.length + i + 1)) =
          .ok ⟨(ks ++ ps.map Prod.fst).take (rhos.length + i + 2), als.take (rhos.length + i + 1)⟩ ∧
        effectiveVolVol ⟨(ks ++ ps.map Prod.fst).take (rhos.length + i + 2), nus.take (rhos.length + i + 1)⟩
          ⟨(ks ++ ps.map Prod.fst).take (rhos.length + i + 2), als.take (rhos.length + i + 1)⟩ p.1 = .ok g ∧
        effectiveTermStructure ⟨(ks ++ ps.map Prod.fst).take (rhos.length + i + 2), nus.take (rhos.length + i + 1)⟩
          ⟨(ks ++ ps.map Prod.fst).take (rhos.length + i + 2), als.take (rhos.length + i + 1)⟩ p.1 = .ok w ∧
        1 / 10 ^ 15 < |skewWeight (ks ++ ps.map Prod.fst) nus als (rhos.length + i)| ∧
        tail + ∑ k ∈ Finset.range (i + 1), raws.getD k 0 *
          skewWeight (ks ++ ps.map Prod.fst) nus als (rhos.length + k) = p.2.rho * g * p.1 / w
  | [], ks, prev, rhos, tail, out, _, _, h => by
    rw [growRho] at h
    cases h
    exact ⟨[], rfl, by simp, by simp⟩
  | (T, m) :: rest, ks, prev, rhos, tail, out, hk, hprev, h => by
    rw [growRho] at h
    obtain ⟨pn, hn, h⟩ := bind_eq_ok.1 h
    obtain ⟨pa, ha, h⟩ := bind_eq_ok.1 h
    have hn' := (new_ok_iff.1 hn).2.2.2.2
    have ha' := (new_ok_iff.1 ha).2.2.2.2
    rw [hn'] at hn h
    rw [ha'] at ha h
    clear hn' ha'
    obtain ⟨g, hg, h⟩ := bind_eq_ok.1 h
    obtain ⟨w, hw, h⟩ := bind_eq_ok.1 h
    obtain ⟨nu, hnu, h⟩ := bind_eq_ok.1 h
    obtain ⟨al, hal, h⟩ := bind_eq_ok.1 h
    simp only at h
    by_cases hs : 1 / 10 ^ 15 < |(T - prev) * nu / al|
    · rw [if_pos hs] at h
      set s := (T - prev) * nu / al with hsd
      set rho := (m.rho * g * T / w - tail) / s with hrd
      have hs0 : s ≠ 0 := by
        intro h0
        rw [h0] at hs
        norm_num at hs
      have hnu' : nus.getD rhos.length 0 = nu := by
        rw [List.getD_eq_getElem?_getD]
        cases hx : nus[rhos.length]? with
        | none => rw [hx] at hnu; simp [unwrap] at hnu
        | some y => rw [hx] at hnu; simp [unwrap] at hnu; simp [hnu]
      have hal' : als.getD rhos.length 0 = al := by
        rw [List.getD_eq_getElem?_getD]
        cases hx : als[rhos.length]? with
        | none => rw [hx] at hal; simp [unwrap] at hal
        | some y => rw [hx] at hal; simp [unwrap] at hal; simp [hal]
      have hK : ks ++ [T] ++ rest.map Prod.fst = ks ++ ((T, m) :: rest).map Prod.fst := by simp
      have hS : skewWeight (ks ++ ((T, m) :: rest).map Prod.fst) nus als rhos.length = s := by
        unfold skewWeight
        rw [hnu', hal', hsd]
        congr 3
        · rw [List.getD_append_right _ _ _ _ (by omega), hk]; simp
        · rw [List.getD_append _ _ _ _ (by omega), ← hprev]
      obtain ⟨raws, r1, r2, r3⟩ := growRho_spec nus als rest (ks ++ [T]) T _ _ out (by simp [hk])
        (by rw [List.length_append, List.getD_append_right _ _ _ _ (by simp [hk])]; simp [hk]) h
      refine ⟨rho :: raws, by simp [r1], ?_, ?_⟩
      · rw [r2]
        simp [clamp999]
      · intro i p hp
        cases i with
        | zero =>
          simp only [List.getElem?_cons_zero, Option.some.injEq] at hp
          subst hp
          have ht : (ks ++ ((T, m) :: rest).map Prod.fst).take (rhos.length + 0 + 2) = ks ++ [T] := by
            rw [← hK, List.append_assoc, ← List.append_assoc, List.take_append_of_le_length (by simp [hk])]
            rw [List.take_of_length_le (by simp [hk])]
          rw [ht, add_zero]
          refine ⟨g, w, hn, ha, hg, hw, by rw [hS]; exact hs, ?_⟩
          rw [Finset.sum_range_one, add_zero, hS, List.getD_cons_zero, hrd]
          field_simp
          ring
        | succ i =>
          simp only [List.getElem?_cons_succ] at hp
          obtain ⟨g', w', q1, q2, q3, q4, q5, q6⟩ := r3 i p hp
          rw [hK] at q1 q2 q3 q4 q5 q6
          simp only [List.length_append, List.length_cons, List.length_nil, zero_add] at q1 q2 q3 q4 q5 q6
          rw [show rhos.length + 1 + i + 2 = rhos.length + (i + 1) + 2 by ring,
            show rhos.length + 1 + i + 1 = rhos.length + (i + 1) + 1 by ring] at q1 q2 q3 q4
          refine ⟨g', w', q1, q2, q3, q4, by rwa [show rhos.length + 1 + i = rhos.length + (i + 1) by ring] at q5, ?_⟩
          rw [Finset.sum_range_succ', ← q6]
          simp only [List.getD_cons_succ, List.getD_cons_zero, add_zero, hS]
          rw [add_assoc, add_comm (∑ _ ∈ _, _)]
          congr 2
          apply Finset.sum_congr rfl
          intro k _
          rw [show rhos.length + (k + 1) = rhos.length + 1 + k by ring]
    · rw [if_neg hs] at h
      exact absurd h (by simp)


/-! ## Exact effective parameters -/

theorem exists_step : ∀ (ks vs : List ℝ), ks.IsChain (· < ·) → ∃ f, StepOn f ks vs
  | [], vs, _ => ⟨fun _ => 0, by simp [StepOn]⟩
  | [a], vs, _ => ⟨fun _ => 0, by cases vs <;> simp [StepOn]⟩
  | a :: b :: ks, [], _ => ⟨fun _ => 0, by simp [StepOn]⟩
  | a :: b :: ks, v :: vs, h => by
    obtain ⟨f, hf⟩ := exists_step (b :: ks) vs (List.isChain_cons_cons.1 h).2
    refine ⟨fun t => if t < b then v else f t, fun t _ ht => if_pos ht, ?_⟩
    have : ∀ (l w : List ℝ) (c : ℝ), b ≤ c → (c :: l).IsChain (· < ·) → StepOn f (c :: l) w →
        StepOn (fun t => if t < b then v else f t) (c :: l) w := by
      intro l
      induction l with
      | nil => intro w c _ _ _; cases w <;> trivial
      | cons d l ih =>
        intro w c hc hch hs
        cases w with
        | nil => trivial
        | cons x w =>
          rw [List.isChain_cons_cons] at hch
          refine ⟨fun t h1 h2 => ?_, ih w d (by linarith [hch.1]) hch.2 hs.2⟩
          simp only
          rw [if_neg (by linarith)]
          exact hs.1 t h1 h2
    exact this ks vs b le_rfl (List.isChain_cons_cons.1 h).2 hf

/-- A schedule whose last knot is `T`. -/
structure EndsAt (ks : List ℝ) (T : ℝ) : Prop where
  two : 2 ≤ ks.length
  head : ks.head? = some 0
  chain : ks.IsChain (· < ·)
  last : ks.getLast? = some T

theorem EndsAt.le {ks : List ℝ} {T : ℝ} (h : EndsAt ks T) : ∀ k ∈ ks, k ≤ T := by
  intro k hk
  have hne : ks ≠ [] := List.ne_nil_of_mem hk
  obtain ⟨l, rfl⟩ : ∃ l, ks = l ++ [T] := by
    have := h.last
    refine ⟨ks.dropLast, ?_⟩
    rw [List.getLast?_eq_some_getLast hne] at this
    simp only [Option.some.injEq] at this
    rw [← this, List.dropLast_append_getLast]
  have hc := List.isChain_iff_pairwise.1 h.chain
  rw [List.pairwise_append] at hc
  rcases List.mem_append.1 hk with h | h
  · exact (hc.2.2 k h T (by simp)).le
  · simp at h; exact h.le

theorem EndsAt.expiry {ks : List ℝ} {T : ℝ} (h : EndsAt ks T) : IsExpiry ks T := by
  refine ⟨?_, List.mem_of_getLast? h.last, fun k hk hlt => absurd (h.le k hk) (not_le.2 hlt)⟩
  match ks, h with
  | a :: b :: ks, h =>
    have h0 : a = 0 := by simpa using h.head
    have h1 := (List.isChain_cons_cons.1 h.chain).1
    have h2 := h.le b (by simp)
    linarith
  | [a], h => simpa using h.two
  | [], h => simpa using h.two

theorem EndsAt.schedule {ks vs : List ℝ} {T : ℝ} (h : EndsAt ks T) (hl : vs.length + 1 = ks.length) :
    ∃ f, IsSchedule ks vs f := by
  obtain ⟨f, hf⟩ := exists_step ks vs h.chain
  exact ⟨f, h.head, h.chain, hl, hf⟩

theorem EndsAt.new {ks vs : List ℝ} {T : ℝ} (h : EndsAt ks T) (hl : vs.length + 1 = ks.length) :
    PieceConst.new ks vs = .ok ⟨ks, vs⟩ := by
  rw [new_ok_iff]
  refine ⟨h.two, hl, ?_, h.chain, rfl⟩
  have := h.head
  match ks, this with
  | a :: ks, e =>
    simp only [List.head?_cons, Option.some.injEq] at e
    rw [e]
    norm_num

/-- The segments of two schedules up to their last knot. -/
theorem EndsAt.segs {γ ω : ℝ → ℝ} {ks gs os : List ℝ} {T : ℝ} (h : EndsAt ks T) (hg : IsSchedule ks gs γ)
    (ho : IsSchedule ks os ω) :
    alignedSegments ⟨ks, gs⟩ ⟨ks, os⟩ T = .ok (mkSegs ks gs os) ∧
      iX 0 (mkSegs ks gs os) = moment1 γ ω T ∧ lhsX 0 0 (mkSegs ks gs os) = moment2 γ ω T := by
  have e := aligned_last h.chain h.last hg.2.2.1 ho.2.2.1
  obtain ⟨segs, e1, e2, e3, e4, -, -⟩ := aligned_ok hg ho hg h.expiry
  rw [e] at e1
  cases e1
  have hp : ∀ s ∈ mkSegs ks gs os, 0 < s.delta := fun s hs => (e3 s hs).1
  have m1 := moment1_eq e2 hp
  have m2 := moment2_eq e2 hp
  rw [e4] at m1 m2
  exact ⟨e, m1, m2⟩

theorem iX_pos : ∀ (segs : List Seg) (g : ℝ), segs ≠ [] → (∀ s ∈ segs, 0 < s.delta) →
    (∀ s ∈ segs, s.omega ≠ 0) → 0 < iX g segs
  | [], _, h, _, _ => absurd rfl h
  | s :: rest, g, _, hd, ho => by
    have h1 := iX_nonneg rest (g + s.gamma * s.gamma * s.delta) fun x hx => hd x (List.mem_cons_of_mem s hx)
    have h2 := expInt_pos (c := s.gamma * s.gamma) (hd s (by simp))
    have h3 := mul_self_pos.2 (ho s (by simp))
    rw [iX]
    positivity

theorem mkSegs_omega : ∀ (ks gs os : List ℝ), ∀ s ∈ mkSegs ks gs os, s.omega ∈ os
  | [], gs, os => by simp [mkSegs]
  | [a], gs, os => by simp [mkSegs]
  | a :: b :: ks, [], os => by simp [mkSegs]
  | a :: b :: ks, g :: gs, [] => by simp [mkSegs]
  | a :: b :: ks, g :: gs, o :: os => by
    rw [mkSegs_cons]
    intro s hs
    rcases List.mem_cons.1 hs with rfl | hs
    · simp
    · exact List.mem_cons_of_mem _ (mkSegs_omega (b :: ks) gs os s hs)

theorem EndsAt.moment1_pos {γ ω : ℝ → ℝ} {ks gs os : List ℝ} {T : ℝ} (h : EndsAt ks T)
    (hg : IsSchedule ks gs γ) (ho : IsSchedule ks os ω) (hne : ∀ o ∈ os, o ≠ 0) : 0 < moment1 γ ω T := by
  rw [← (h.segs hg ho).2.1]
  refine iX_pos _ _ ?_ (mkSegs_delta _ _ _ h.chain) fun s hs => hne _ (mkSegs_omega _ _ _ s hs)
  have h2 := h.two
  have l1 := hg.2.2.1
  have l2 := ho.2.2.1
  match ks, gs, os, h2, l1, l2 with
  | a :: b :: ks, g :: gs, o :: os, _, _, _ => rw [mkSegs_cons]; simp

/-- What a returned effective vol-vol says about the exact one. -/
theorem EndsAt.exact {ks gs os : List ℝ} {T g : ℝ} (h : EndsAt ks T) (hlg : gs.length + 1 = ks.length)
    (hlo : os.length + 1 = ks.length) (hne : ∀ o ∈ os, o ≠ 0)
    (hv : effectiveVolVol ⟨ks, gs⟩ ⟨ks, os⟩ T = .ok g) :
    0 ≤ g ∧ ∃ x, EffVar ks gs os T x ∧ 0 ≤ x ∧ |g ^ 2 * T - x| ≤ 1 / 10 ^ 10 + T / 2 ^ 39 := by
  obtain ⟨γ, hg⟩ := h.schedule hlg
  obtain ⟨ω, ho⟩ := h.schedule hlo
  obtain ⟨segs, e1, b1, b2, c1, c2, hj⟩ := C60_moments hg ho h.expiry
  have hm := h.moment1_pos hg ho hne
  obtain ⟨x, hx0, hx⟩ := exists_matches hm hj
  unfold effectiveVolVol at hv
  rw [e1, ok_bind] at hv
  obtain ⟨g0, acc⟩ := volVolOf_accuracy h.expiry.1 hm b2 b1 c2 c1 hx0 hx hv
  exact ⟨g0, x, ⟨γ, ω, hg, ho, matches_iff.2 ⟨hx0, hx⟩⟩, hx0, acc⟩

theorem EndsAt.of_new {ks vs : List ℝ} {T : ℝ} {p : PieceConst} (h0 : ks.head? = some 0)
    (hl : ks.getLast? = some T) (h : PieceConst.new ks vs = .ok p) : EndsAt ks T ∧ vs.length + 1 = ks.length := by
  obtain ⟨h1, h2, -, h3, -⟩ := new_ok_iff.1 h
  exact ⟨⟨h1, h0, h3, hl⟩, h2⟩

/-- The knots up to pillar `i`. -/
theorem knots_upto {ps : List (ℝ × Sabr)} {i : ℕ} {p : ℝ × Sabr} (hp : ps[i]? = some p) :
    (0 :: (ps.map Prod.fst).take (i + 1)).head? = some 0 ∧
      (0 :: (ps.map Prod.fst).take (i + 1)).getLast? = some p.1 := by
  refine ⟨rfl, ?_⟩
  have hi : i < ps.length := (List.getElem?_eq_some_iff.1 hp).1
  rw [List.getLast?_cons, List.getLast?_take, if_neg (by omega)]
  simp [hp]

/-! ## The stages together -/

theorem tdStages_parts {ps : List (ℝ × Sabr)} {beta f0 : ℝ} {p : TdSabr} (h : tdStages ps beta f0 = .ok p) :
    growNu [0] [] ps = .ok p.nu.values ∧ growAlpha p.nu.values [0] [] ps = .ok p.alpha.values ∧
    growRho p.nu.values p.alpha.values [0] 0 [] 0 ps = .ok p.rho.values ∧
    p.nu.knots = 0 :: ps.map Prod.fst ∧ p.alpha.knots = 0 :: ps.map Prod.fst ∧
    p.rho.knots = 0 :: ps.map Prod.fst ∧ p.beta = beta ∧ p.forward0 = f0 ∧
    (0 :: ps.map Prod.fst).IsChain (· < ·) ∧ ps ≠ [] ∧ 0 ≤ beta ∧ beta ≤ 1 ∧ 0 < f0 ∧
    (∀ a ∈ p.alpha.values, 0 < a) ∧ (∀ n ∈ p.nu.values, 0 ≤ n) ∧ ∀ r ∈ p.rho.values, -1 < r ∧ r < 1 := by
  unfold tdStages at h
  obtain ⟨nus, h1, h⟩ := bind_eq_ok.1 h
  obtain ⟨nS, h2, h⟩ := bind_eq_ok.1 h
  obtain ⟨als, h3, h⟩ := bind_eq_ok.1 h
  obtain ⟨aS, h4, h⟩ := bind_eq_ok.1 h
  obtain ⟨rhos, h5, h⟩ := bind_eq_ok.1 h
  obtain ⟨rS, h6, h⟩ := bind_eq_ok.1 h
  obtain ⟨c1, c2, -, c4, c5⟩ := new_ok_iff.1 h2
  obtain ⟨-, -, -, -, d5⟩ := new_ok_iff.1 h4
  obtain ⟨-, -, -, -, e5⟩ := new_ok_iff.1 h6
  unfold TdSabr.new at h
  split_ifs at h with q1 q2 q3 q4 q5 q6 q7
  cases h
  subst c5 d5 e5
  refine ⟨h1, h3, h5, rfl, rfl, rfl, rfl, rfl, c4, ?_, q3.1, q3.2, q4, q5, q6, q7⟩
  rintro rfl
  simp at c1

end Verif
