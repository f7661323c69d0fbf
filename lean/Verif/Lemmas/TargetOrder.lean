import Verif.Lemmas.Calibrate
import Verif.Model.FxFmmCal

/-!
# Calibration targets in another order (C104)
-/

namespace Verif

open Classical Outcome

/-- The sum of squares does not depend on the order of the targets when every volatility can be asked for. -/
theorem ssrLoop_perm {vol : ℝ → Outcome (Option ℝ)} {ts ts' : List SmileTarget} (hp : ts.Perm ts') :
    (∀ t ∈ ts, ∃ v, vol t.strike = .ok v) → ∀ acc, ssrLoop vol acc ts' = ssrLoop vol acc ts := by
  induction hp with
  | nil => exact fun _ _ => rfl
  | cons t _ ih =>
    intro h acc
    obtain ⟨v, hv⟩ := h t (by simp)
    rw [ssrLoop, ssrLoop, hv, ok_bind, ok_bind]
    cases v with
    | none => rfl
    | some v => exact ih (fun t ht => h t (List.mem_cons_of_mem _ ht)) _
  | swap t s ts =>
    intro h acc
    obtain ⟨v, hv⟩ := h t (by simp)
    obtain ⟨w, hw⟩ := h s (by simp)
    rw [ssrLoop, ssrLoop, hv, hw, ok_bind, ok_bind]
    cases v with
    | none =>
      cases w with
      | none => rfl
      | some w => show _ = ssrLoop vol _ (t :: ts); rw [ssrLoop, hv, ok_bind]
    | some v =>
      show ssrLoop vol _ (s :: ts) = _
      rw [ssrLoop, hw, ok_bind]
      cases w with
      | none => rfl
      | some w =>
        show _ = ssrLoop vol _ (t :: ts)
        rw [ssrLoop, hv, ok_bind]
        show ssrLoop vol _ ts = ssrLoop vol _ ts
        congr 1
        ring
  | trans h1 _ ih1 ih2 =>
    intro h acc
    rw [ih2 (fun t ht => h t (h1.mem_iff.2 ht)), ih1 h]

theorem runFit_perm {P : Type} {n : ℕ} {f g : (Fin n → ℝ) → Outcome ℝ} (h : ∀ x, f x = g x)
    {x0 : Fin n → ℝ} {o : NmOptions} {reify : (Fin n → ℝ) → P} {ts ts' : List SmileTarget}
    (hp : ts.Perm ts') : runFit f x0 o reify ts' = runFit g x0 o reify ts := by
  obtain rfl : f = g := funext h
  unfold runFit
  rw [hp.length_eq]

theorem targets_ne_nil {ts ts' : List SmileTarget} (hp : ts.Perm ts') : (ts' ≠ []) = (ts ≠ []) :=
  propext ⟨fun h e => h (e ▸ hp).nil_eq.symm, fun h e => h (e ▸ hp).eq_nil⟩

theorem cos_ssr_perm (chf : ForwardChf) (fwd T D : ℝ) {ts ts' : List SmileTarget} (hp : ts.Perm ts')
    (hK : ∀ t ∈ ts, 0 < t.strike) :
    ssrLoop (cosVol chf fwd T D) 0 ts' = ssrLoop (cosVol chf fwd T D) 0 ts := by
  obtain ⟨g, hg⟩ := cosVol_total chf fwd T D
  exact ssrLoop_perm hp (fun t ht => ⟨_, hg _ (hK t ht)⟩) 0

theorem hhwObjective_perm (i p : HhwParams) (T : ℝ) {ts ts' : List SmileTarget} (hp : ts.Perm ts')
    (hK : ∀ t ∈ ts, 0 < t.strike) : hhwObjective i p T ts' = hhwObjective i p T ts := by
  unfold hhwObjective
  cases HhwChf.new p T with
  | ok q => simp only [ok_bind]; exact cos_ssr_perm _ _ _ _ hp hK
  | fail e => rfl
  | panic => rfl

theorem hlmmObjective_perm (fwd D : ℝ) (p : HlmmParams) (T : ℝ) {ts ts' : List SmileTarget} (hp : ts.Perm ts')
    (hK : ∀ t ∈ ts, 0 < t.strike) : hlmmObjective fwd D p T ts' = hlmmObjective fwd D p T ts := by
  unfold hlmmObjective
  cases HlmmChf.new p T with
  | ok q => simp only [ok_bind]; rw [cos_ssr_perm _ _ _ _ hp hK]
  | fail e => rfl
  | panic => rfl

theorem fmmObjective_perm (fwd D : ℝ) (p : FmmParams) (T : ℝ) {ts ts' : List SmileTarget} (hp : ts.Perm ts')
    (hK : ∀ t ∈ ts, 0 < t.strike) : fmmObjective fwd D p T ts' = fmmObjective fwd D p T ts := by
  unfold fmmObjective
  cases FmmChf.new p T with
  | ok q => simp only [ok_bind]; rw [cos_ssr_perm _ _ _ _ hp hK]
  | fail e => rfl
  | panic => rfl

theorem sabrObjective_perm (beta : ℝ) {f T : ℝ} (hf : 0 < f) (hT : 0 < T) {ts ts' : List SmileTarget}
    (hp : ts.Perm ts') (hK : ∀ t ∈ ts, 0 < t.strike) (x : Fin 3 → ℝ) :
    sabrObjective beta f T ts' x = sabrObjective beta f T ts x := by
  unfold sabrObjective
  cases sabrReify beta x with
  | none => rfl
  | some p =>
    refine ssrLoop_perm hp (fun t ht => ?_) 0
    rw [sabrVol, haganVol, if_pos ⟨hf, hK t ht, hT⟩, ok_bind]
    exact ⟨_, rfl⟩

end Verif
