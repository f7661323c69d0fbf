import Verif.Spec.Calibrate
import Verif.Props.Optimize
import Verif.Props.HhwChf
import Verif.Props.Hlmm
import Verif.Props.Cos
import Verif.Props.Sabr

/-!
# Lemmas on calibration
-/

namespace Verif

open Classical Outcome

theorem softplus_pos (x : ℝ) : 0 < softplus x := by
  rw [softplus]
  split_ifs with h
  · linarith
  · exact Real.log_pos (by linarith [Real.exp_pos x])

theorem invSoftplus_spec {y : ℝ} (hy : 0 < y) : ∃ x, invSoftplus y = .ok x ∧ softplus x = y := by
  rw [invSoftplus, if_pos hy]
  refine ⟨_, rfl, ?_⟩
  split_ifs with h
  · rw [softplus, if_pos h]
  · have h1 : 0 < Real.exp y - 1 := by linarith [Real.add_one_lt_exp hy.ne']
    have h2 : ¬ 35 < Real.log (Real.exp y - 1) := by
      rw [not_lt]
      refine le_trans (Real.log_le_log h1 (by linarith : Real.exp y - 1 ≤ Real.exp y)) ?_
      rw [Real.log_exp]; linarith
    rw [softplus, if_neg h2, Real.exp_log h1, add_sub_cancel, Real.log_exp]

theorem tanh_rhoStart (r : ℝ) :
    Real.tanh (rhoStart r) = clipTo (-(999 / 1000)) (999 / 1000) r := by
  rw [rhoStart, Real.tanh_artanh]
  · rfl
  · constructor
    · exact lt_of_lt_of_le (by norm_num) (le_max_left _ _)
    · exact lt_of_le_of_lt (max_le (by norm_num) (min_le_right _ _)) (by norm_num : (999 / 1000 : ℝ) < 1)

theorem ssrLoop_eq {vol : ℝ → Outcome (Option ℝ)} {g : ℝ → Option ℝ} (targets : List SmileTarget)
    (h : ∀ t ∈ targets, vol t.strike = .ok (g t.strike)) (acc : ℝ) :
    ssrLoop vol acc targets = .ok (if none ∈ targets.map (fun t => g t.strike) then 10 ^ 6
      else acc + (List.zipWith (fun v t => (v.getD 0 - t.vol) ^ 2)
        (targets.map fun t => g t.strike) targets).sum) := by
  induction targets generalizing acc with
  | nil => rw [ssrLoop]; simp
  | cons t ts ih =>
    rw [ssrLoop, h t List.mem_cons_self, ok_bind]
    cases hg : g t.strike with
    | none =>
      simp only [List.map_cons, hg, List.mem_cons, true_or, if_true]
      norm_num
    | some v =>
      simp only
      rw [ih (fun t ht => h t (List.mem_cons_of_mem _ ht))]
      simp only [List.map_cons, hg, List.mem_cons, reduceCtorEq, false_or, List.zipWith_cons_cons,
        List.sum_cons, Option.getD_some, add_assoc]

theorem ssrLoop_fitError {vol : ℝ → Outcome (Option ℝ)} {g : ℝ → Option ℝ}
    (targets : List SmileTarget) (h : ∀ t ∈ targets, vol t.strike = .ok (g t.strike)) :
    ssrLoop vol 0 targets = .ok (fitError (targets.map fun t => g t.strike) targets) := by
  rw [ssrLoop_eq targets h, fitError, zero_add]

theorem mapO_ok {α : Type} {f : ℝ → Outcome α} {g : ℝ → α} (ks : List ℝ)
    (h : ∀ k ∈ ks, f k = .ok (g k)) :
    collectAll f ks = .ok (ks.map g) := by
  induction ks with
  | nil => rfl
  | cons k ks ih =>
    rw [collectAll, h k List.mem_cons_self, ok_bind,
      ih (fun k hk => h k (List.mem_cons_of_mem _ hk)), ok_bind, List.map_cons]

theorem runFit_spec {P : Type} {n : ℕ} (hn : 1 ≤ n) {obj : (Fin n → ℝ) → Outcome ℝ}
    {e : (Fin n → ℝ) → ℝ} (h : ∀ x, obj x = .ok (e x)) (x0 : Fin n → ℝ) (o : NmOptions)
    (reify : (Fin n → ℝ) → P) (targets : List SmileTarget) :
    ∃ fit, runFit obj x0 o reify targets = .ok fit ∧ fit.params = reify fit.optimiser.x
      ∧ fit.optimiser.f = e fit.optimiser.x ∧ fit.optimiser.f ≤ e x0
      ∧ fit.rmse = √(fit.optimiser.f / targets.length)
      ∧ fit.optimiser.iterations ≤ o.maxIter := by
  have hf : (fun x => toNan (obj x)) = fun x => some (e x) := by funext x; rw [h x]; rfl
  obtain ⟨r, hr⟩ := C51_total hn (fun x => some (e x)) (fun x => by simp) x0 o
  refine ⟨⟨reify r.x, √(r.f / targets.length), r⟩, ?_, rfl, ?_, ?_, rfl, ?_⟩
  · rw [runFit, hf, hr, ok_bind]
  · have := C51_value _ _ _ _ hr
    simpa using this.symm
  · exact (C51_not_worse _ _ _ _ hr).1 _ rfl
  · exact (C51_iterations _ _ _ _ hr).1

theorem cosVol_total (chf : ForwardChf) (fwd T D : ℝ) :
    ∃ g : ℝ → Option ℝ, ∀ k, 0 < k → cosVol chf fwd T D k = .ok (g k) := by
  refine ⟨fun k => match cosVol chf fwd T D k with
    | .ok v => v
    | _ => none, fun k hk => ?_⟩
  have : ∃ v, cosVol chf fwd T D k = .ok v := by
    rw [cosVol, CosPricer.call, CosPricer.priceEuropean, if_pos hk, ok_bind]
    exact ⟨_, rfl⟩
  obtain ⟨v, hv⟩ := this
  beta_reduce
  rw [hv]

/-- The objective and the volatilities of a COS model are the same numbers. -/
theorem cos_objective (chf : ForwardChf) (fwd T D : ℝ) (targets : List SmileTarget)
    (hK : ∀ t ∈ targets, 0 < t.strike) :
    ∃ vs, cosVols chf fwd T D (targets.map (·.strike)) = .ok vs
      ∧ vs.length = targets.length
      ∧ ssrLoop (cosVol chf fwd T D) 0 targets = .ok (fitError vs targets) := by
  obtain ⟨g, hg⟩ := cosVol_total chf fwd T D
  refine ⟨targets.map fun t => g t.strike, ?_, by simp, ?_⟩
  · rw [cosVols, mapO_ok (g := g), List.map_map]
    · rfl
    · intro k hk
      obtain ⟨t, ht, rfl⟩ := List.mem_map.1 hk
      exact hg _ (hK t ht)
  · exact ssrLoop_fitError targets fun t ht => hg _ (hK t ht)

theorem hhwNew_ok {p : HhwParams} (hk : 0 < p.heston.kappa) (T : ℝ) :
    ∃ q, HhwChf.new p T = .ok q ∧ q.params = p ∧ q.expiry = T :=
  ⟨_, withSimpsonSteps_eq p hk T (m := 64) (by norm_num), rfl, rfl⟩

theorem fitError_nonneg (vs : List (Option ℝ)) (targets : List SmileTarget) :
    0 ≤ fitError vs targets := by
  rw [fitError]
  split_ifs
  · norm_num
  · apply List.sum_nonneg
    intro x hx
    rw [List.mem_iff_getElem] at hx
    obtain ⟨i, hi, rfl⟩ := hx
    rw [List.getElem_zipWith]
    positivity

end Verif
