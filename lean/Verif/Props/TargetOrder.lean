import Verif.Lemmas.TargetOrder
import Verif.Props.Calibrate
import Verif.Props.FxFmmCal

/-!
# C104: the order of calibration targets does not matter
-/

namespace Verif

open Classical Outcome

variable {ts ts' : List SmileTarget}

/-- **C104.** Calibrating SABR to the same targets in another order gives the same fit, error and number of
steps. -/
theorem C104_sabr (hp : ts.Perm ts') (hK : ∀ t ∈ ts, 0 < t.strike) (initial : Sabr) (f T : ℝ) (o : NmOptions) :
    sabrCalibrate initial f ts' T o = sabrCalibrate initial f ts T o := by
  unfold sabrCalibrate
  have e := targets_ne_nil hp
  by_cases h : 0 < f ∧ 0 < T ∧ ts ≠ []
  · rw [if_pos h, if_pos (by rw [e]; exact h)]
    congr 1
    funext x0
    exact runFit_perm (fun x => sabrObjective_perm _ h.1 h.2.1 hp hK x) hp
  · rw [if_neg h, if_neg (by rw [e]; exact h)]

/-- **C104.** So does calibrating FX-HHW, with and without a bound on the volatility of variance. -/
theorem C104_hhw (hp : ts.Perm ts') (hK : ∀ t ∈ ts, 0 < t.strike) (initial : HhwParams) (T floor g : ℝ)
    (o : NmOptions) :
    hhwCalibrate initial ts' T floor o = hhwCalibrate initial ts T floor o ∧
      hhwCalibrateBounded initial ts' T floor g o = hhwCalibrateBounded initial ts T floor g o := by
  unfold hhwCalibrate hhwCalibrateBounded
  have e := targets_ne_nil hp
  refine ⟨if_congr (by rw [e]) ?_ rfl, if_congr (by rw [e]) ?_ rfl⟩ <;> congr 1 <;> funext x0 <;>
    exact runFit_perm (fun x => hhwObjective_perm _ _ _ hp hK) hp

/-- **C104.** So does calibrating FX-HLMM. -/
theorem C104_hlmm (hp : ts.Perm ts') (hK : ∀ t ∈ ts, 0 < t.strike) (initial : HlmmParams) (T floor : ℝ)
    (o : NmOptions) : hlmmCalibrate initial ts' T floor o = hlmmCalibrate initial ts T floor o := by
  unfold hlmmCalibrate
  refine if_congr (by rw [targets_ne_nil hp]) ?_ rfl
  congr 1
  funext D
  congr 1
  funext x0
  exact runFit_perm (fun x => hlmmObjective_perm _ _ _ _ hp hK) hp

/-- **C104.** So does calibrating FX-FMM. -/
theorem C104_fmm (hp : ts.Perm ts') (hK : ∀ t ∈ ts, 0 < t.strike) (initial : FmmParams) (T floor : ℝ)
    (o : NmOptions) : fmmCalibrate initial ts' T floor o = fmmCalibrate initial ts T floor o := by
  unfold fmmCalibrate
  refine if_congr (by rw [targets_ne_nil hp]) ?_ rfl
  congr 1
  funext D
  congr 1
  funext x0
  exact runFit_perm (fun x => fmmObjective_perm _ _ _ _ hp hK) hp

/-- Non-vacuity of `C104_sabr`: two targets in either order, for which the calibration returns. -/
example : ∃ fit, sabrCalibrate ⟨1 / 10, 1, 0, 1 / 2⟩ 1 [⟨9 / 10, 1 / 8⟩, ⟨1, 1 / 10⟩] 1
      ⟨200, 1 / 10 ^ 8, 1 / 10 ^ 8, 1 / 20⟩ = .ok fit ∧
    sabrCalibrate ⟨1 / 10, 1, 0, 1 / 2⟩ 1 [⟨1, 1 / 10⟩, ⟨9 / 10, 1 / 8⟩] 1
      ⟨200, 1 / 10 ^ 8, 1 / 10 ^ 8, 1 / 20⟩ = .ok fit := by
  obtain ⟨fit, vs, ws, h, -⟩ := C64_sabr ⟨1 / 10, 1, 0, 1 / 2⟩ (f := 1) (T := 1)
    one_pos one_pos (targets := [⟨9 / 10, 1 / 8⟩, ⟨1, 1 / 10⟩]) (by simp) (by simp)
    ⟨200, 1 / 10 ^ 8, 1 / 10 ^ 8, 1 / 20⟩
  refine ⟨fit, h, ?_⟩
  rw [← h]
  exact C104_sabr (.swap _ _ _) (by simp) _ _ _ _

/-- Non-vacuity of `C104_hhw`. -/
example (o : NmOptions) : ∃ fit, hhwCalibrate paperHhw [⟨9 / 10, 1 / 8⟩, ⟨1, 1 / 10⟩] 1 (1 / 2) o = .ok fit ∧
    hhwCalibrate paperHhw [⟨1, 1 / 10⟩, ⟨9 / 10, 1 / 8⟩] 1 (1 / 2) o = .ok fit := by
  obtain ⟨fit, vs, ws, h, -⟩ := C64_hhw paperHhw (T := 1) (floor := 1 / 2) one_pos (by norm_num)
    (targets := [⟨9 / 10, 1 / 8⟩, ⟨1, 1 / 10⟩]) (by simp) (by simp) o
  refine ⟨fit, h, ?_⟩
  rw [← h]
  exact (C104_hhw (.swap _ _ _) (by simp) _ _ _ 1 _).1

/-- Non-vacuity of `C104_hlmm`. -/
example (o : NmOptions) : ∃ fit, hlmmCalibrate exHlmm [⟨13 / 10, 1 / 8⟩, ⟨7 / 5, 1 / 10⟩] 2 (1 / 4) o = .ok fit ∧
    hlmmCalibrate exHlmm [⟨7 / 5, 1 / 10⟩, ⟨13 / 10, 1 / 8⟩] 2 (1 / 4) o = .ok fit := by
  obtain ⟨fit, vs, ws, h, -⟩ := C64_hlmm exHlmm (T := 2) (floor := 1 / 4) (by norm_num)
    (by norm_num) exTenor_ordered (by decide) (.inl (by simp [exHlmm, exTenor, LiborTenor.T])) exHlmm_valid
    (targets := [⟨13 / 10, 1 / 8⟩, ⟨7 / 5, 1 / 10⟩]) (by simp) (by simp) o
  refine ⟨fit, h, ?_⟩
  rw [← h]
  exact C104_hlmm (.swap _ _ _) (by simp) _ _ _ _

/-- Non-vacuity of `C104_fmm`. -/
example (o : NmOptions) : ∃ fit, fmmCalibrate exFmm [⟨13 / 10, 1 / 8⟩, ⟨7 / 5, 1 / 10⟩] 2 (1 / 4) o = .ok fit ∧
    fmmCalibrate exFmm [⟨7 / 5, 1 / 10⟩, ⟨13 / 10, 1 / 8⟩] 2 (1 / 4) o = .ok fit := by
  obtain ⟨fit, vs, ws, h, -⟩ := C73_fit exFmm (T := 2) (floor := 1 / 4) (by norm_num)
    (by norm_num) exFmmTenor_ordered exFmm_start exFmm_valid
    (targets := [⟨13 / 10, 1 / 8⟩, ⟨7 / 5, 1 / 10⟩]) (by simp) (by simp) o
  refine ⟨fit, h, ?_⟩
  rw [← h]
  exact C104_fmm (.swap _ _ _) (by simp) _ _ _ _

end Verif
