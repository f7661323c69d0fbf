import Verif.Lemmas.SabrApprox

/-! # The aligned segments describe the schedule functions -/

namespace Verif

open MeasureTheory Set intervalIntegral

theorem mkSegs_cons (a b g o : ℝ) (r gs os : List ℝ) :
    mkSegs (a :: b :: r) (g :: gs) (o :: os) = ⟨b - a, g, o⟩ :: mkSegs (b :: r) gs os := rfl

theorem mkSegs_single (a : ℝ) : mkSegs [a] [] [] = [] := rfl

/-- The prefix of the knots up to `T`. -/
noncomputable def upTo (T : ℝ) (ks : List ℝ) : List ℝ :=
  ks.takeWhile fun t => decide (t ≤ T + 1 / 10 ^ 12)

theorem aligned_aux {γ ω ρ : ℝ → ℝ} {T : ℝ} : ∀ (ks : List ℝ) (a : ℝ) (gs os rs : List ℝ),
    (a :: ks).IsChain (· < ·) → T ∈ a :: ks → (∀ k ∈ a :: ks, T < k → T + 1 / 10 ^ 12 < k) →
    StepOn γ (a :: ks) gs → StepOn ω (a :: ks) os → StepOn ρ (a :: ks) rs →
    gs.length = ks.length → os.length = ks.length → rs.length = ks.length →
    ∃ n r, upTo T (a :: ks) = a :: r ∧ r.length = n ∧ n ≤ ks.length ∧
      (mkSegs (a :: r) (gs.take n) (os.take n)).length = n ∧
      Steps γ ω a (mkSegs (a :: r) (gs.take n) (os.take n)) ∧
      (∀ s ∈ mkSegs (a :: r) (gs.take n) (os.take n), 0 < s.delta ∧ s.gamma ∈ gs ∧ s.omega ∈ os) ∧
      span (mkSegs (a :: r) (gs.take n) (os.take n)) = T - a ∧
      ((∀ o ∈ os, 1 / 10 ^ 15 < |o|) →
        IntervalIntegrable (fun t => ρ t * γ t / ω t) volume a T ∧
        corrIntegral (mkSegs (a :: r) (gs.take n) (os.take n)) (rs.take n) =
          .ok (∫ t in a..T, ρ t * γ t / ω t))
  | ks, a, gs, os, rs, hch, hT, hsep, hg, ho, hr, lg, lo, lr => by
    have haT : a ≤ T := by
      rcases List.mem_cons.1 hT with h | h
      · exact h.ge
      · have hch' := List.isChain_iff_pairwise.1 hch
        exact (List.rel_of_pairwise_cons hch' h).le
    have hhead : upTo T (a :: ks) = a :: upTo T ks := by
      unfold upTo
      rw [List.takeWhile_cons_of_pos]
      simp only [decide_eq_true_eq]
      have : (0 : ℝ) ≤ 1 / 10 ^ 12 := by norm_num
      linarith
    by_cases hTa : T = a
    · subst hTa
      have hnil : upTo T ks = [] := by
        cases ks with
        | nil => rfl
        | cons b ks' =>
          unfold upTo
          rw [List.takeWhile_cons_of_neg]
          simp only [decide_eq_true_eq, not_le]
          have hlt : T < b := by
            have hch' := List.isChain_iff_pairwise.1 hch
            exact List.rel_of_pairwise_cons hch' (by simp)
          exact hsep b (by simp) hlt
      refine ⟨0, [], by rw [hhead, hnil], rfl, by simp, ?_⟩
      simp [mkSegs, Steps, span, corrIntegral]
    · have hTk : T ∈ ks := by
        rcases List.mem_cons.1 hT with h | h
        · exact absurd h hTa
        · exact h
      match ks, gs, os, rs, hch, hT, hsep, hg, ho, hr, lg, lo, lr, hTk, hhead with
      | [], _, _, _, _, _, _, _, _, _, _, _, _, hTk, _ => simp at hTk
      | b :: ks', g :: gs', o :: os', r0 :: rs', hch, hT, hsep, hg, ho, hr, lg, lo, lr, hTk, hhead =>
        have hch2 : (b :: ks').IsChain (· < ·) := hch.tail
        have hab : a < b := by
          have hch' := List.isChain_iff_pairwise.1 hch
          exact List.rel_of_pairwise_cons hch' (by simp)
        have hbT : b ≤ T := by
          rcases List.mem_cons.1 hTk with h | h
          · exact h.ge
          · have hch' := List.isChain_iff_pairwise.1 hch2
            exact (List.rel_of_pairwise_cons hch' h).le
        obtain ⟨n, r, e1, e2, e3, e4, e5, e6, e7, e8⟩ := aligned_aux ks' b gs' os' rs' hch2 hTk
          (fun k hk => hsep k (List.mem_cons_of_mem a hk)) hg.2 ho.2 hr.2
          (by simpa using lg) (by simpa using lo) (by simpa using lr)
        refine ⟨n + 1, b :: r, by rw [hhead, e1], by simp [e2], by simpa using e3, ?_⟩
        simp only [List.take_succ_cons, mkSegs_cons]
        refine ⟨by simp [e4], ⟨?_, ?_⟩, ?_, ?_, ?_⟩
        · intro t h1 h2
          simp only [add_sub_cancel] at h2
          exact ⟨hg.1 t h1 h2, ho.1 t h1 h2⟩
        · simpa only [add_sub_cancel] using e5
        · intro s hs
          rcases List.mem_cons.1 hs with h | h
          · subst h
            exact ⟨by simpa using hab, by simp, by simp⟩
          · obtain ⟨q1, q2, q3⟩ := e6 s h
            exact ⟨q1, List.mem_cons_of_mem _ q2, List.mem_cons_of_mem _ q3⟩
        · simp only [span, e7]; ring
        · intro hne
          obtain ⟨j, c⟩ := e8 fun x hx => hne x (List.mem_cons_of_mem _ hx)
          have hv : ∀ t, a < t → t < b → ρ t * γ t / ω t = r0 * g / o := by
            intro t h1 h2
            rw [hg.1 t h1 h2, ho.1 t h1 h2, hr.1 t h1 h2]
          obtain ⟨k1, k2⟩ := head_integral hv hab.le le_rfl
          refine ⟨k2.trans j, ?_⟩
          rw [corrIntegral, if_pos (hne o (by simp)), c, ← integral_add_adjacent_intervals k2 j, k1]
          rfl

theorem moment1_eq {γ ω : ℝ → ℝ} {segs : List Seg} (hs : Steps γ ω 0 segs) (hp : ∀ s ∈ segs, 0 < s.delta) :
    iX 0 segs = moment1 γ ω (span segs) := by
  have h := (loops_eq segs 0 0 0 hs hp).2.2.1
  rw [zero_add] at h
  rw [h]
  unfold moment1 firstF varOf vFrom
  simp

theorem moment2_eq {γ ω : ℝ → ℝ} {segs : List Seg} (hs : Steps γ ω 0 segs) (hp : ∀ s ∈ segs, 0 < s.delta) :
    lhsX 0 0 segs = moment2 γ ω (span segs) := by
  have h := (loops_eq segs 0 0 0 hs hp).2.2.2
  rw [zero_add] at h
  rw [h]
  unfold moment2 secondF firstF innerF
  congr 1
  funext t
  have e : ∀ s, ω s ^ 2 * Real.exp (6 * varOf γ s + (varOf γ t - varOf γ s)) =
      Real.exp (varOf γ t) * (ω s ^ 2 * Real.exp (5 * (0 + vFrom γ 0 s))) := by
    intro s
    rw [show 6 * varOf γ s + (varOf γ t - varOf γ s) = varOf γ t + 5 * varOf γ s by ring, Real.exp_add,
      zero_add]
    unfold varOf vFrom
    ring
  simp only [e]
  rw [intervalIntegral.integral_const_mul]
  unfold varOf vFrom
  rw [zero_add, zero_add]
  ring

theorem segVar_eq {γ ω : ℝ → ℝ} : ∀ (segs : List Seg) (a : ℝ), Steps γ ω a segs →
    (∀ s ∈ segs, 0 < s.delta) → segVar segs = vFrom γ a (a + span segs)
  | [], a, _, _ => by simp [segVar, span, vFrom]
  | s :: rest, a, hs, hp => by
    have hsp := span_nonneg fun x hx => hp x (List.mem_cons_of_mem s hx)
    rw [vFrom_tail hs hp (by simp only [span]; linarith) le_rfl]
    simp only [segVar, span]
    rw [segVar_eq rest (a + s.delta) hs.2 fun x hx => hp x (List.mem_cons_of_mem s hx), add_assoc]

/-- Everything the property theorems need about the aligned segments. -/
theorem aligned_ok {γ ω ρ : ℝ → ℝ} {ks gs os rs : List ℝ} {T : ℝ} (hg : IsSchedule ks gs γ)
    (ho : IsSchedule ks os ω) (hr : IsSchedule ks rs ρ) (hT : IsExpiry ks T) :
    ∃ segs, alignedSegments ⟨ks, gs⟩ ⟨ks, os⟩ T = .ok segs ∧ Steps γ ω 0 segs ∧
      (∀ s ∈ segs, 0 < s.delta ∧ s.gamma ∈ gs ∧ s.omega ∈ os) ∧ span segs = T ∧
      segs.length ≤ rs.length ∧
      ((∀ o ∈ os, 1 / 10 ^ 15 < |o|) →
        corrIntegral segs (rs.take segs.length) = .ok (∫ t in 0..T, ρ t * γ t / ω t)) := by
  obtain ⟨h0, hch, hl, hst⟩ := hg
  obtain ⟨-, -, hlo, hso⟩ := ho
  obtain ⟨-, -, hlr, hsr⟩ := hr
  obtain ⟨hTp, hTm, hsep⟩ := hT
  match ks, h0, hch, hl, hst, hlo, hso, hlr, hsr, hTm, hsep with
  | a :: ks', h0, hch, hl, hst, hlo, hso, hlr, hsr, hTm, hsep =>
    simp only [List.head?_cons, Option.some.injEq] at h0
    subst h0
    obtain ⟨n, r, e1, e2, e3, e4, e5, e6, e7, e8⟩ := aligned_aux ks' 0 gs os rs hch hTm hsep hst hso hsr
      (by simpa using hl) (by simpa using hlo) (by simpa using hlr)
    refine ⟨mkSegs (0 :: r) (gs.take n) (os.take n), ?_, e5, e6, by rw [e7, sub_zero], ?_, ?_⟩
    · unfold alignedSegments
      simp only
      rw [if_pos trivial, if_pos ⟨T, hTm, by norm_num⟩]
      have e1' : (0 :: ks').takeWhile (fun t => decide (t ≤ T + 1 / 10 ^ 12)) = 0 :: r := e1
      rw [e1']
      have htake : (0 :: ks').take (0 :: r).length = 0 :: r := by
        have hp : (0 :: r) <+: (0 :: ks') := by rw [← e1']; exact List.takeWhile_prefix _
        exact (List.prefix_iff_eq_take.1 hp).symm
      have hcount : (0 :: r).length - 1 = n := by simp [e2]
      rw [if_pos, htake, hcount]
      rw [hcount]
      simp only [List.length_cons] at hl hlo ⊢
      omega
    · rw [e4]; simp only [List.length_cons] at hlr; omega
    · intro hne
      rw [e4]; exact (e8 hne).2

end Verif
