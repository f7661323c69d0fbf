import Verif.Model.TdSabrCal
import Verif.Props.Calibrate

/-! # Lemmas for the market fits of the time-dependent SABR calibrator -/

namespace Verif

open Outcome

theorem tdMarkets_spec {beta : ℝ} {o : NmOptions} : ∀ {ps : List PillarTarget} {ms : List Sabr},
    tdMarkets beta o ps = .ok ms → ms.length = ps.length ∧
      ∀ (i : ℕ) (q : PillarTarget), ps[i]? = some q → ∃ m, ms[i]? = some m ∧ tdMarket beta o q = .ok m
  | [], ms, h => by
    cases h
    exact ⟨rfl, by simp⟩
  | q :: ps, ms, h => by
    rw [tdMarkets] at h
    obtain ⟨m, h1, h⟩ := bind_eq_ok.1 h
    obtain ⟨ms', h2, h⟩ := bind_eq_ok.1 h
    cases h
    obtain ⟨l, hs⟩ := tdMarkets_spec h2
    refine ⟨by simp [l], fun i q' hq => ?_⟩
    cases i with
    | zero =>
      simp only [List.getElem?_cons_zero, Option.some.injEq] at hq
      subst hq
      exact ⟨m, by simp, h1⟩
    | succ i =>
      rw [List.getElem?_cons_succ] at hq ⊢
      exact hs i q' hq

theorem tdStage1_spec : ∀ {ps : List (PillarTarget × Sabr)} {es : List ℝ},
    tdStage1 ps = .ok es → es.length = ps.length ∧
      ∀ (i : ℕ) (q : PillarTarget × Sabr), ps[i]? = some q → ∃ e, es[i]? = some e ∧ tdStage1Rmse q.1 q.2 = .ok e
  | [], es, h => by
    cases h
    exact ⟨rfl, by simp⟩
  | (q, m) :: ps, es, h => by
    rw [tdStage1] at h
    obtain ⟨e, h1, h⟩ := bind_eq_ok.1 h
    obtain ⟨es', h2, h⟩ := bind_eq_ok.1 h
    cases h
    obtain ⟨l, hs⟩ := tdStage1_spec h2
    refine ⟨by simp [l], fun i q' hq => ?_⟩
    cases i with
    | zero =>
      simp only [List.getElem?_cons_zero, Option.some.injEq] at hq
      subst hq
      exact ⟨e, by simp, h1⟩
    | succ i =>
      rw [List.getElem?_cons_succ] at hq ⊢
      exact hs i q' hq

theorem tdDiags_spec (p : TdSabr) : ∀ {ps : List ((PillarTarget × Sabr) × ℝ)} {n : ℕ} {ds : List TdDiag},
    tdDiags p n ps = .ok ds → ds.length = ps.length ∧
      ∀ (i : ℕ) (q : (PillarTarget × Sabr) × ℝ), ps[i]? = some q → ∃ d, ds[i]? = some d ∧
        tdDiag p (n + i) q.1.1 q.1.2 q.2 = .ok d
  | [], n, ds, h => by
    cases h
    exact ⟨rfl, by simp⟩
  | ((q, m), r) :: ps, n, ds, h => by
    rw [tdDiags] at h
    obtain ⟨e, h1, h⟩ := bind_eq_ok.1 h
    obtain ⟨es', h2, h⟩ := bind_eq_ok.1 h
    cases h
    obtain ⟨l, hs⟩ := tdDiags_spec p h2
    refine ⟨by simp [l], fun i q' hq => ?_⟩
    cases i with
    | zero =>
      simp only [List.getElem?_cons_zero, Option.some.injEq] at hq
      subst hq
      exact ⟨e, by simp, h1⟩
    | succ i =>
      rw [List.getElem?_cons_succ] at hq ⊢
      obtain ⟨d, k1, k2⟩ := hs i q' hq
      exact ⟨d, k1, by rw [← k2]; congr 1; omega⟩

theorem tdSumSq_spec (m : Sabr) (f T : ℝ) : ∀ {ss r : ℝ} {ks vs : List ℝ}, ks.length = vs.length →
    tdSumSq m f T ss (ks.zip vs) = .ok r → ∃ ws, sabrImpliedVols m f T ks = .ok ws ∧
      ws.length = vs.length ∧ r = ss + (List.zipWith (fun w v => (w - v) ^ 2) ws vs).sum ∧ ∀ k ∈ ks, 0 < k
  | ss, r, [], vs, hl, h => by
    have : vs = [] := List.length_eq_zero_iff.1 hl.symm
    subst this
    cases h
    exact ⟨[], rfl, rfl, by simp, by simp⟩
  | ss, r, k :: ks, [], hl, h => by simp at hl
  | ss, r, k :: ks, v :: vs, hl, h => by
    rw [List.zip_cons_cons, tdSumSq] at h
    obtain ⟨w, hw, h⟩ := bind_eq_ok.1 h
    obtain ⟨ws, h1, h2, h3, h4⟩ := tdSumSq_spec m f T (by simpa using hl) h
    have hk : 0 < k := by
      by_contra hc
      rw [haganVol, if_neg (fun h => hc h.2.1)] at hw
      exact absurd hw (by simp)
    refine ⟨w :: ws, ?_, by simp [h2], by rw [h3]; simp; ring, by simpa using ⟨hk, h4⟩⟩
    unfold sabrImpliedVols at h1 ⊢
    rw [collectAll, hw, ok_bind, h1, ok_bind]

end Verif
