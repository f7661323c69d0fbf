import Verif.Spec.FmmMc
import Verif.Lemmas.FmmStep
import Verif.Lemmas.FmmMartingale
import Verif.Lemmas.ModelMc
import Verif.Lemmas.Poles

/-!
# The rates of the forward market model as functions of the draws
-/

namespace Verif

open Outcome Classical MeasureTheory ProbabilityTheory Filter

/-- The volatility that a step applies. -/
noncomputable def volAt (f : Fmm) (t r : ℝ) (j : ℕ) : ℝ :=
  match f.adaptedVol j t r with
  | .ok v => v
  | _ => 0

/-- A successful step; a failing one leaves the state. -/
noncomputable def FmmSimulator.next (s : FmmSimulator) (p : FmmPath) (dt : ℝ) (z : List ℝ) : FmmPath :=
  match s.step p dt z with
  | .ok p' => p'
  | _ => p

/-- The steps of a path as a chain. -/
noncomputable def fmmChainStep (s : FmmSimulator) (dt : ℝ) (_ : ℕ) (p : FmmPath)
    (z : Fin s.model.tenor.m → ℝ) : FmmPath := s.next p dt (List.ofFn z)

variable {s : FmmSimulator}

theorem next_ok (hv : s.model.Valid) {p : FmmPath} (hp : p.Fits s.model.tenor.m) {dt : ℝ} (hdt : 0 < dt)
    (z : List ℝ) : s.step p dt z = .ok (s.next p dt z) ∧ (s.next p dt z).Fits s.model.tenor.m
      ∧ (s.next p dt z).t = p.t + dt
      ∧ ∀ j, 1 ≤ j → j ≤ s.model.tenor.m → (s.next p dt z).R j = p.R j
          + fmmDrift (matAt s.model.correlation) s.model.tenor.len p.R
            (fun i => volAt s.model (p.t + 1 / 2 * dt) (p.R i) i
              * ahead s.model.tenor i (p.t + 1 / 2 * dt)) j * dt
          + volAt s.model (p.t + 1 / 2 * dt) (p.R j) j * ahead s.model.tenor j (p.t + 1 / 2 * dt)
            * s.dw dt z (j - 1) := by
  obtain ⟨p', v, h1, h2, h3, h4, -⟩ := step_ok hv hp hdt z
  have hn : s.next p dt z = p' := by rw [FmmSimulator.next, h1]
  have hvol : ∀ i, 1 ≤ i → i ≤ s.model.tenor.m →
      volAt s.model (p.t + 1 / 2 * dt) (p.R i) i = v i := fun i i1 i2 => by
    rw [volAt, (h4 i i1 i2).1]
  rw [hn]
  refine ⟨h1, h2, h3, fun j j1 j2 => ?_⟩
  rw [(h4 j j1 j2).2.1, hvol j j1 j2]
  congr 3
  unfold fmmDrift
  beta_reduce
  rw [hvol j j1 j2]
  congr 1
  refine Finset.sum_congr rfl fun i hi => ?_
  rw [Finset.mem_Icc] at hi
  rw [hvol i hi.1 (by omega)]

theorem fmmChain_fits (hv : s.model.Valid) {dt : ℝ} (hdt : 0 < dt) {p : FmmPath}
    (hp : p.Fits s.model.tenor.m) (z : ℕ → Fin s.model.tenor.m → ℝ) (n : ℕ) :
    (chain (fmmChainStep s dt) n p z).Fits s.model.tenor.m
      ∧ (chain (fmmChainStep s dt) n p z).t = p.t + n * dt := by
  induction n with
  | zero => exact ⟨hp, by simp [chain]⟩
  | succ n ih =>
    obtain ⟨-, h1, h2, -⟩ := next_ok hv ih.1 hdt (List.ofFn (z n))
    refine ⟨h1, h2.trans ?_⟩
    rw [ih.2]
    push_cast
    ring

theorem fmmRun_chain (hv : s.model.Valid) {dt : ℝ} (hdt : 0 < dt) {p : FmmPath}
    (hp : p.Fits s.model.tenor.m) (z : ℕ → Fin s.model.tenor.m → ℝ) (n : ℕ) :
    s.run dt p ((List.range n).map fun i => List.ofFn (z i))
      = .ok (chain (fmmChainStep s dt) n p z) := by
  have key : ∀ (l : List (List ℝ)) (q : FmmPath) (w : List ℝ), s.run dt q (l ++ [w])
      = (s.run dt q l >>= fun q' => s.step q' dt w) := by
    intro l
    induction l with
    | nil =>
      intro q w
      rw [List.nil_append, FmmSimulator.run, FmmSimulator.run, ok_bind]
      cases s.step q dt w <;> rfl
    | cons a l ih =>
      intro q w
      rw [List.cons_append, FmmSimulator.run, FmmSimulator.run]
      cases h : s.step q dt a with
      | ok q' => rw [ok_bind, ok_bind, ih]
      | fail e => rfl
      | panic => rfl
  induction n with
  | zero => rfl
  | succ n ih =>
    rw [List.range_succ, List.map_append, List.map_singleton, key, ih, ok_bind]
    exact (next_ok hv (fmmChain_fits hv hdt hp z n).1 hdt _).1

theorem measurable_volAt (f : Fmm) (t : ℝ) (j : ℕ) : Measurable fun r => volAt f t r j := by
  unfold volAt Fmm.adaptedVol
  cases h : f.sigmaAt j t with
  | fail e => exact measurable_const
  | panic => exact measurable_const
  | ok σ =>
    simp only [ok_bind]
    unfold Fmm.displacementLevel
    cases hb : f.betas with
    | none => simp only [ok_bind]; exact measurable_const
    | some b =>
      simp only
      cases at1 b j with
      | fail e => exact measurable_const
      | panic => exact measurable_const
      | ok b1 =>
        simp only [ok_bind]
        cases at1 f.tenor.rates j with
        | fail e => exact measurable_const
        | panic => exact measurable_const
        | ok r0 =>
          simp only [ok_bind]
          exact ((measurable_id.const_mul b1).add_const _).const_mul σ

/-- The increments are linear in the draws. -/
theorem dw_fin (hv : s.model.Valid) (dt : ℝ) (z : Fin s.model.tenor.m → ℝ) {j : ℕ} (j1 : 1 ≤ j)
    (j2 : j ≤ s.model.tenor.m) : s.dw dt (List.ofFn z) (j - 1)
      = √dt * ∑ k : Fin s.model.tenor.m, (if (k : ℕ) < j then s.chol (j - 1) k else 0) * z k := by
  rw [dw_eq hv.correlation (List.length_ofFn) (by omega)]
  congr 1
  have e : ∀ k : Fin s.model.tenor.m, (if (k : ℕ) < j then s.chol (j - 1) k else 0) * z k
      = (fun k : ℕ => (if k < j then s.chol (j - 1) k else 0) * (List.ofFn z).getD k 0) k := by
    intro k
    simp
  rw [Finset.sum_congr rfl fun k _ => e k, Finset.sum_fin_eq_sum_range]
  rw [show j - 1 + 1 = j by omega]
  rw [← Finset.sum_subset (Finset.range_subset_range.2 j2)]
  · refine Finset.sum_congr rfl fun k hk => ?_
    rw [Finset.mem_range] at hk
    rw [dif_pos (by omega)]
    simp only [if_pos hk]
  · intro k hk hk'
    rw [Finset.mem_range] at hk hk'
    rw [dif_pos hk]
    simp only [if_neg hk', zero_mul]

theorem measurable_fmmChain (hv : s.model.Valid) {dt : ℝ} (hdt : 0 < dt) {p : FmmPath}
    (hp : p.Fits s.model.tenor.m) (n : ℕ) : ∀ j, 1 ≤ j → j ≤ s.model.tenor.m →
      Measurable fun z => (chain (fmmChainStep s dt) n p z).R j := by
  induction n with
  | zero => intro j _ _; simp only [chain]; exact measurable_const
  | succ n ih =>
    intro j j1 j2
    simp only [chain]
    change Measurable fun z => (s.next (chain (fmmChainStep s dt) n p z) dt (List.ofFn (z n))).R j
    have hvol : ∀ i, 1 ≤ i → i ≤ s.model.tenor.m → Measurable fun z =>
        volAt s.model (p.t + n * dt + 1 / 2 * dt) ((chain (fmmChainStep s dt) n p z).R i) i :=
      fun i i1 i2 => (measurable_volAt _ _ _).comp (ih i i1 i2)
    simp_rw [fun z => (next_ok hv (fmmChain_fits hv hdt hp z n).1 hdt (List.ofFn (z n))).2.2.2 j j1 j2,
      fun z => (fmmChain_fits hv hdt hp z n).2, fun z : ℕ → Fin s.model.tenor.m → ℝ =>
      dw_fin hv dt (z n) j1 j2]
    refine ((ih j j1 j2).add (Measurable.mul_const ?_ _)).add (((hvol j j1 j2).mul_const _).mul
      (Measurable.const_mul ?_ _))
    · unfold fmmDrift
      refine ((hvol j j1 j2).mul_const _).mul (Finset.measurable_fun_sum _ fun i hi => ?_)
      rw [Finset.mem_Icc] at hi
      have i2 : i ≤ s.model.tenor.m := by omega
      exact ((((hvol i hi.1 i2).mul_const _).mul_const _).div
        (((ih i hi.1 i2).const_mul _).const_add _)).const_mul _
    · have hz : ∀ k, Measurable fun z : ℕ → Fin s.model.tenor.m → ℝ => z n k := fun k => by fun_prop
      exact Finset.measurable_fun_sum _ fun k _ => (hz k).const_mul _

theorem fmm_pathsLoop (hv : s.model.Valid) {dt : ℝ} (hdt : 0 < dt) {p : FmmPath}
    (h0 : s.initialPath = .ok p) (hp : p.Fits s.model.tenor.m) (z : ℕ → Fin s.model.tenor.m → ℝ)
    (N n : ℕ) : ∀ k, s.pathsLoop dt N (fun i => List.ofFn (z i)) n k
      = .ok ((List.range n).map fun i => chain (fmmChainStep s dt) N p fun j => z (k + i * N + j)) := by
  induction n with
  | zero => intro k; rfl
  | succ n ih =>
    intro k
    rw [FmmSimulator.pathsLoop, h0, ok_bind, fmmRun_chain hv hdt hp (fun i => z (k + i)) N, ok_bind,
      ih, ok_bind, List.range_succ_eq_map, List.map_cons, List.map_map]
    refine congrArg Outcome.ok ?_
    simp only [zero_mul, add_zero]
    congr 1
    refine List.map_congr_left fun i _ => ?_
    simp only [Function.comp_apply, Nat.succ_eq_add_one, add_mul, one_mul]
    congr 1
    funext j
    congr 1
    ring

end Verif
