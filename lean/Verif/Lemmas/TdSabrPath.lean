import Verif.Model.TdSabr
import Verif.Spec.SabrEffective
import Verif.Spec.Simulation
import Verif.Lemmas.TdSabr
import Verif.Lemmas.SabrEffective

/-!
# The time-dependent SABR simulator follows the discretised model
-/

namespace Verif

open Outcome

/-- The value read inside the range of a schedule. -/
noncomputable def pcRead (p : PieceConst) (t : ℝ) : ℝ :=
  if t ≤ p.knots.headD 0 then p.values.headD 0
  else PieceConst.scan t (p.values.getLastD 0) p.knots.tail p.values

theorem at_pcRead (p : PieceConst) {t : ℝ} (h0 : 0 ≤ t) (h1 : t ≤ p.finalTime + 1 / 10 ^ 15) :
    p.at t = .ok (pcRead p t) := by
  rw [PieceConst.at, if_pos ⟨h0, h1⟩, pcRead]
  split <;> rfl

theorem at_panic (p : PieceConst) {t : ℝ} (h : ¬ (0 ≤ t ∧ t ≤ p.finalTime + 1 / 10 ^ 15)) :
    p.at t = .panic := by
  rw [PieceConst.at, if_neg h]

theorem scan_mem (t d : ℝ) : ∀ ks vs : List ℝ, PieceConst.scan t d ks vs = d
    ∨ PieceConst.scan t d ks vs ∈ vs
  | [], _ => Or.inl (by unfold PieceConst.scan; rfl)
  | _ :: _, [] => Or.inl (by unfold PieceConst.scan; rfl)
  | k :: ks, v :: vs => by
    rw [PieceConst.scan]
    split
    · exact Or.inr (by simp)
    · rcases scan_mem t d ks vs with h | h
      · exact Or.inl h
      · exact Or.inr (List.mem_cons_of_mem _ h)

/-- A value read is one of the values. -/
theorem pcRead_mem (p : PieceConst) (hv : p.values ≠ []) (t : ℝ) : pcRead p t ∈ p.values := by
  obtain ⟨v, vs, e⟩ := List.exists_cons_of_ne_nil hv
  have hlast : p.values.getLastD 0 ∈ p.values := by
    rw [List.getLastD_eq_getLast?, List.getLast?_eq_some_getLast hv]
    exact List.getLast_mem hv
  rw [pcRead]
  split
  · rw [e]; simp
  · rcases scan_mem t (p.values.getLastD 0) p.knots.tail p.values with h | h
    · rw [h]; exact hlast
    · exact h

/-- A step function takes the same value at two points without a knot in between. -/
theorem stepOn_between {f : ℝ → ℝ} {t t' : ℝ} (htt : t ≤ t') : ∀ (ks vs : List ℝ),
    StepOn f ks vs → vs.length + 1 = ks.length → ks.IsChain (· < ·) → ks.headD 0 < t → t' < ks.getLastD 0 →
    (∀ k ∈ ks, ¬ (t ≤ k ∧ k ≤ t')) → f t = f t'
  | [], _, _, _, _, h1, h2, _ => by simp at h1 h2; linarith
  | [a], _, _, _, _, h1, h2, _ => by simp at h1 h2; linarith
  | a :: b :: ks, [], _, hl, _, _, _, _ => by simp at hl
  | a :: b :: ks, v :: vs, h, hl, hc, h1, h2, hk => by
    obtain ⟨hseg, hrest⟩ := h
    by_cases hb : t < b
    · have hb' : t' < b := by
        by_contra hcon
        exact hk b (by simp) ⟨hb.le, not_lt.1 hcon⟩
      simp only [List.headD_cons] at h1
      rw [hseg t h1 hb, hseg t' (by linarith) hb']
    · refine stepOn_between htt (b :: ks) vs hrest (by simp at hl ⊢; omega)
        (List.isChain_cons_cons.1 hc).2 ?_ ?_ fun k hk' => hk k (by simp at hk' ⊢; tauto)
      · simp only [List.headD_cons]
        rcases lt_or_eq_of_le (not_lt.1 hb) with h | h
        · exact h
        · exact absurd ⟨h.ge, by linarith⟩ (hk b (by simp))
      · simpa using h2

/-- Away from the knots the scan returns the value of the step function. -/
theorem scan_stepOn {f : ℝ → ℝ} {t d : ℝ} : ∀ (a : ℝ) (ks vs : List ℝ),
    StepOn f (a :: ks) vs → vs.length = ks.length → a < t → t < (a :: ks).getLastD 0 →
    (∀ k ∈ ks, ¬ (k ≤ t ∧ t ≤ k + 1 / 10 ^ 15)) → PieceConst.scan t d ks vs = f t
  | a, [], _, _, _, h1, h2, _ => by simp at h2; linarith
  | a, b :: ks, [], _, hl, _, _, _ => by simp at hl
  | a, b :: ks, v :: vs, h, hl, h1, h2, hk => by
    obtain ⟨hseg, hrest⟩ := h
    have hb := hk b (by simp)
    rw [PieceConst.scan]
    by_cases hle : t < b
    · rw [if_pos (by have : (0 : ℝ) < 1 / 10 ^ 15 := by norm_num
                     linarith), hseg t h1 hle]
    · have hlt : b + 1 / 10 ^ 15 < t := by
        by_contra hc
        exact hb ⟨not_lt.1 hle, not_lt.1 hc⟩
      rw [if_neg (by linarith)]
      refine scan_stepOn b ks vs hrest (by simpa using hl) ?_ (by simpa using h2) fun k hk' =>
        hk k (by simp [hk'])
      have : (0 : ℝ) < 1 / 10 ^ 15 := by norm_num
      linarith

theorem pcRead_schedule {f : ℝ → ℝ} {p : PieceConst} (h : IsSchedule p.knots p.values f) {t : ℝ}
    (h0 : 0 < t) (h1 : t < p.finalTime) (hk : ∀ k ∈ p.knots, ¬ (k ≤ t ∧ t ≤ k + 1 / 10 ^ 15)) :
    pcRead p t = f t := by
  obtain ⟨hh, -, hl, hs⟩ := h
  obtain ⟨ks, vs⟩ := p
  match ks, hh with
  | a :: ks, hh =>
    simp only [List.head?_cons, Option.some.injEq] at hh
    subst hh
    rw [pcRead, if_neg (by simpa using h0)]
    exact scan_stepOn 0 ks vs hs (by simpa using hl) h0 h1 fun k hk' => hk k (by simp [hk'])

theorem isSchedule_values_ne {f : ℝ → ℝ} {p : PieceConst} (h : IsSchedule p.knots p.values f)
    (h2 : 0 < p.finalTime) : p.values ≠ [] := by
  obtain ⟨hh, -, hl, -⟩ := h
  intro hv
  obtain ⟨ks, vs⟩ := p
  simp only at hv hl hh
  subst hv
  match ks, hh, hl with
  | [a], hh, _ =>
    simp only [List.head?_cons, Option.some.injEq] at hh
    subst hh
    simp [PieceConst.finalTime] at h2

/-- Steps that agree on the first `n` indices give the same chain. -/
theorem chain_congr_step {S Z : Type} {step step' : ℕ → S → Z → S} (s : S) (z : ℕ → Z) :
    ∀ n, (∀ k < n, step k = step' k) → chain step n s z = chain step' n s z
  | 0, _ => rfl
  | n + 1, h => by
    rw [chain, chain, chain_congr_step s z n fun k hk => h k (by omega), h n (by omega)]

theorem tdSabr_at {p : TdSabr} {t : ℝ} (h0 : 0 ≤ t) (ha : t ≤ p.alpha.finalTime + 1 / 10 ^ 15)
    (hr : p.rho.finalTime = p.alpha.finalTime) (hn : p.nu.finalTime = p.alpha.finalTime) :
    p.at t = .ok ⟨pcRead p.alpha t, p.beta, pcRead p.rho t, pcRead p.nu t⟩ := by
  rw [TdSabr.at, at_pcRead _ h0 ha, ok_bind, at_pcRead _ h0 (by rw [hr]; exact ha), ok_bind,
    at_pcRead _ h0 (by rw [hn]; exact ha), ok_bind]

/-- One step of the code is one step of the scheme with the volatility scale of the start. -/
theorem tdSabr_step {p : TdSabr} {t dt : ℝ} {q : Sabr} (hq : p.at t = .ok q) (hdt : 0 < dt)
    {a0 : ℝ} (ha0 : 0 ≤ a0) {x : ℝ × ℝ} (hx : SabrGood x) (z : Fin 2 → ℝ) (r v : ℕ → ℝ)
    (d : ℕ → ℝ) (k : ℕ) (hr : r k = q.rho) (hv : v k = q.nu) (hd : d k = dt) :
    p.step ⟨x.1, a0 * x.2⟩ t dt z
      = .ok (⟨(sabrScheme (fun _ => a0) r v d q.beta k x z).1,
          a0 * (sabrScheme (fun _ => a0) r v d q.beta k x z).2⟩,
        √dt * z 0, √dt * (q.rho * z 0 + √(1 - q.rho * q.rho) * z 1)) := by
  rw [TdSabr.step, if_pos hdt, hq, ok_bind]
  dsimp only
  rw [max_eq_left hx.1, max_eq_left (mul_nonneg ha0 hx.2.le)]
  refine congrArg Outcome.ok (congrArg (fun s => (s, _)) ?_)
  simp only [sabrScheme, hr, hv, hd, SabrState.mk.injEq, true_and, mul_assoc]
  congr 3
  rw [sq (q.rho)]
  ring

variable (p : TdSabr)

/-- The scheme that the simulator runs. -/
noncomputable def tdChain (a0 dt : ℝ) : ℕ → ℝ × ℝ → (Fin 2 → ℝ) → ℝ × ℝ :=
  sabrScheme (fun _ => a0) (fun k => pcRead p.rho ((k + 1 / 2) * dt))
    (fun k => pcRead p.nu ((k + 1 / 2) * dt)) (fun _ => dt) p.beta

theorem tdSabr_pathLoop {dt a0 : ℝ} (hdt : 0 < dt) (ha0 : 0 ≤ a0) (hf : 0 ≤ p.forward0)
    (hr : p.rho.finalTime = p.alpha.finalTime) (hn : p.nu.finalTime = p.alpha.finalTime)
    (draws : ℕ → Fin 2 → ℝ) : ∀ (n k m : ℕ) (s : SabrState) (x : ℝ × ℝ),
      x = chain (tdChain p a0 dt) m (p.forward0, 1) (fun j => draws (k - m + j)) → m ≤ k →
      s = ⟨x.1, a0 * x.2⟩ →
      ((m + n - 1 / 2) * dt ≤ p.alpha.finalTime + 1 / 10 ^ 15 →
        p.pathLoop dt draws n k (m * dt) s
          = .ok ⟨(chain (tdChain p a0 dt) (m + n) (p.forward0, 1) (fun j => draws (k - m + j))).1,
            a0 * (chain (tdChain p a0 dt) (m + n) (p.forward0, 1) (fun j => draws (k - m + j))).2⟩)
      ∧ (0 < n → p.alpha.finalTime + 1 / 10 ^ 15 < (m + n - 1 / 2) * dt →
        p.pathLoop dt draws n k (m * dt) s = .panic)
  | 0, k, m, s, x, hx, _, hs => ⟨fun _ => by rw [TdSabr.pathLoop, hs, hx]; rfl, fun h => by omega⟩
  | n + 1, k, m, s, x, hx, hm, hs => by
    have hgood : SabrGood x := by
      rw [hx]
      exact chain_inv _ SabrGood (sabrScheme_good _ _ _ _ _) ⟨hf, one_pos⟩ _ m
    have hmid : (m : ℝ) * dt + 0.5 * dt = (m + 1 / 2) * dt := by norm_num; ring
    have hmid0 : (0 : ℝ) ≤ (m + 1 / 2) * dt := by positivity
    rw [TdSabr.pathLoop, hmid]
    by_cases hin : ((m : ℝ) + 1 / 2) * dt ≤ p.alpha.finalTime + 1 / 10 ^ 15
    · have hst := tdSabr_step (tdSabr_at hmid0 hin hr hn) hdt ha0 hgood (draws k)
        (fun k => pcRead p.rho ((k + 1 / 2) * dt)) (fun k => pcRead p.nu ((k + 1 / 2) * dt))
        (fun _ => dt) m rfl rfl rfl
      rw [hs, hst, ok_bind]
      have hnext := tdSabr_pathLoop hdt ha0 hf hr hn draws n (k + 1) (m + 1)
        ⟨(tdChain p a0 dt m x (draws k)).1, a0 * (tdChain p a0 dt m x (draws k)).2⟩
        (tdChain p a0 dt m x (draws k)) (by
          rw [chain, show k + 1 - (m + 1) = k - m by omega, ← hx, show k - m + m = k by omega])
        (by omega) rfl
      rw [show k + 1 - (m + 1) = k - m by omega, show m + 1 + n = m + (n + 1) by omega] at hnext
      have e : (m : ℝ) * dt + dt = ((m + 1 : ℕ) : ℝ) * dt := by push_cast; ring
      have e2 : ((m + 1 : ℕ) + (n : ℝ) - 1 / 2) * dt = (m + ((n + 1 : ℕ) : ℝ) - 1 / 2) * dt := by
        push_cast; ring
      rw [e2] at hnext
      rw [e]
      refine ⟨fun h => hnext.1 h, fun _ h => ?_⟩
      rcases Nat.eq_zero_or_pos n with hz | hz
      · subst hz
        exfalso
        have : ((m : ℝ) + ((0 + 1 : ℕ) : ℝ) - 1 / 2) * dt = (m + 1 / 2) * dt := by push_cast; ring
        rw [this] at h
        linarith
      · exact hnext.2 hz h
    · have hle : ((m : ℝ) + 1 / 2) * dt ≤ (m + ((n + 1 : ℕ) : ℝ) - 1 / 2) * dt := by
        refine mul_le_mul_of_nonneg_right ?_ hdt.le
        push_cast
        have : (0 : ℝ) ≤ n := Nat.cast_nonneg n
        linarith
      refine ⟨fun h => absurd (hle.trans h) hin, fun _ _ => ?_⟩
      have : p.step s ((m + 1 / 2) * dt) dt (draws k) = .panic := by
        rw [TdSabr.step, if_pos hdt, TdSabr.at, at_panic _ fun h => hin h.2]
        rfl
      rw [this]
      rfl

theorem tdSabr_pathsLoop {dt a0 : ℝ} (hdt : 0 < dt) (ha0 : 0 ≤ a0) (hf : 0 ≤ p.forward0)
    (hr : p.rho.finalTime = p.alpha.finalTime) (hn : p.nu.finalTime = p.alpha.finalTime)
    (draws : ℕ → Fin 2 → ℝ) (nSteps : ℕ)
    (hin : ((nSteps : ℝ) - 1 / 2) * dt ≤ p.alpha.finalTime + 1 / 10 ^ 15) :
    ∀ n k : ℕ, p.pathsLoop dt a0 nSteps draws n k = .ok ((List.range n).map fun i =>
      ⟨(chain (tdChain p a0 dt) nSteps (p.forward0, 1) fun j => draws (k + i * nSteps + j)).1,
       a0 * (chain (tdChain p a0 dt) nSteps (p.forward0, 1) fun j => draws (k + i * nSteps + j)).2⟩)
  | 0, k => rfl
  | n + 1, k => by
    have h := (tdSabr_pathLoop p hdt ha0 hf hr hn draws nSteps k 0 ⟨p.forward0, a0⟩
      (p.forward0, 1) rfl (by omega) (by simp)).1 (by push_cast; rw [zero_add]; exact hin)
    rw [Nat.cast_zero, zero_mul] at h
    rw [TdSabr.pathsLoop, h, ok_bind,
      tdSabr_pathsLoop hdt ha0 hf hr hn draws nSteps hin n (k + nSteps), ok_bind,
      List.range_succ_eq_map]
    simp only [List.map_cons, List.map_map, Nat.sub_zero, zero_mul, add_zero, zero_add]
    congr 2
    refine List.map_congr_left fun i _ => ?_
    simp only [Function.comp]
    have e : (fun j => draws (k + nSteps + i * nSteps + j))
        = fun j => draws (k + (i + 1) * nSteps + j) := by
      funext j
      rw [show k + nSteps + i * nSteps + j = k + (i + 1) * nSteps + j by ring]
    rw [e]

end Verif
