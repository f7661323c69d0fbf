import Verif.Lemmas.FxFmmSim
import Verif.Props.Cholesky

/-!
# Moments of the FX-FMM simulator
-/

namespace Verif

open Outcome Classical MeasureTheory

/-! ## The factor -/

/-- The symmetric matrix with the lower entries of `m`. -/
def lowerSym (m : ℕ → ℕ → ℝ) (a b : ℕ) : ℝ := m (max a b) (min a b)

theorem foldlM_option_congr {α β : Type} {f g : β → α → Option β} {xs : List α}
    (h : ∀ x ∈ xs, ∀ b, f b x = g b x) : ∀ b, xs.foldlM f b = xs.foldlM g b := by
  induction xs with
  | nil => intro b; rfl
  | cons a as ih =>
    intro b
    rw [List.foldlM_cons, List.foldlM_cons, h a List.mem_cons_self]
    congr 1
    funext c
    exact ih (fun x hx => h x (List.mem_cons_of_mem _ hx)) c

/-- The factorisation reads only the lower entries. -/
theorem cholesky_lower (n : ℕ) (m : ℕ → ℕ → ℝ) : cholesky n m = cholesky n (lowerSym m) := by
  unfold cholesky
  refine foldlM_option_congr (fun i _ l => ?_) _
  unfold cholRow
  refine foldlM_option_congr (fun j hj l => ?_) _
  rw [List.mem_range] at hj
  unfold cholEntry cholSum lowerSym
  rw [max_eq_left (by omega), min_eq_right (by omega)]

theorem lowerSym_symmetric (n : ℕ) (m : ℕ → ℕ → ℝ) : SymmetricN n (lowerSym m) := by
  intro a _ b _
  rw [lowerSym, lowerSym, max_comm, min_comm]

theorem fxFmm_new {p : FmmParams} {s : FxFmmSim} (h : FxFmmSim.new p = .ok s) :
    s.params = p ∧ p.Valid ∧ CholeskyFactor s.size (lowerSym (jointCorr p)) s.chol := by
  unfold FxFmmSim.new at h
  split at h
  · rename_i hv
    split at h
    · rename_i l hl
      injection h with h
      subst h
      rw [cholesky_lower] at hl
      exact ⟨rfl, hv, C52_factor _ _ _ (lowerSym_symmetric _ _) hl⟩
    · cases h
  · cases h

variable {s : FxFmmSim} {c : ℕ → ℕ → ℝ}

theorem measurable_fxDw (s : FxFmmSim) (dt : ℝ) (i : ℕ) :
    Measurable fun z : Fin s.size → ℝ => s.dw dt z i := by
  unfold FxFmmSim.dw
  exact (Finset.measurable_fun_sum _ fun j _ => (measurable_pi_apply j).const_mul _).mul_const _

/-- The increments are linear in the draws. -/
theorem fxDw_linear (hq : CholeskyFactor s.size c s.chol) (dt : ℝ) (z : Fin s.size → ℝ) {i : ℕ}
    (hi : i < s.size) : s.dw dt z i = ∑ j : Fin s.size, (s.chol i j * √dt) * z j := by
  unfold FxFmmSim.dw
  rw [Finset.sum_mul, Finset.sum_filter]
  refine Finset.sum_congr rfl fun j _ => ?_
  split_ifs with h
  · ring
  · rw [hq.lower i hi j j.2 (by rw [not_le] at h; exact h)]; ring

theorem fxDw_product (hq : CholeskyFactor s.size c s.chol) {dt : ℝ} (hdt : 0 ≤ dt) {i k : ℕ}
    (hi : i < s.size) (hk : k < s.size) :
    ∑ j : Fin s.size, (s.chol i j * √dt) * (s.chol k j * √dt) = c i k * dt := by
  have h := hq.product i hi k hk
  rw [← h, ← Fin.sum_univ_eq_sum_range (fun x => s.chol i x * s.chol k x), Finset.sum_mul]
  refine Finset.sum_congr rfl fun j _ => ?_
  have := Real.mul_self_sqrt hdt
  linear_combination s.chol i j * s.chol k j * this

theorem fxDw_mean (hq : CholeskyFactor s.size c s.chol) (dt : ℝ) {i : ℕ} (hi : i < s.size) :
    Integrable (fun z => s.dw dt z i) (stdNormal s.size)
      ∧ ∫ z, s.dw dt z i ∂stdNormal s.size = 0 := by
  have h := std_linear (fun j : Fin s.size => s.chol i j * √dt)
  simp_rw [← fxDw_linear hq dt _ hi] at h
  exact h

theorem fxDw_cov (hq : CholeskyFactor s.size c s.chol) {dt : ℝ} (hdt : 0 ≤ dt) {i k : ℕ}
    (hi : i < s.size) (hk : k < s.size) :
    Integrable (fun z => s.dw dt z i * s.dw dt z k) (stdNormal s.size)
      ∧ ∫ z, s.dw dt z i * s.dw dt z k ∂stdNormal s.size = c i k * dt := by
  have h := std_linear_cov (fun j : Fin s.size => s.chol i j * √dt) fun j => s.chol k j * √dt
  simp_rw [fxDw_product hq hdt hi hk, ← fxDw_linear hq dt _ hi, ← fxDw_linear hq dt _ hk] at h
  exact h

theorem fxDw_exp_all (hq : CholeskyFactor s.size c s.chol) {dt : ℝ} (hdt : 0 ≤ dt) {i k : ℕ}
    (hi : i < s.size) (hk : k < s.size) (x : ℝ) :
    (Integrable (fun z => Real.exp (x * s.dw dt z i)) (stdNormal s.size)
      ∧ ∫ z, Real.exp (x * s.dw dt z i) ∂stdNormal s.size = Real.exp (x ^ 2 * (c i i * dt) / 2))
    ∧ (Integrable (fun z => Real.exp (x * s.dw dt z i) * s.dw dt z k) (stdNormal s.size)
      ∧ ∫ z, Real.exp (x * s.dw dt z i) * s.dw dt z k ∂stdNormal s.size
        = x * (c i k * dt) * Real.exp (x ^ 2 * (c i i * dt) / 2))
    ∧ (Integrable (fun z => Real.exp (x * s.dw dt z i) * s.dw dt z k ^ 2) (stdNormal s.size)
      ∧ ∫ z, Real.exp (x * s.dw dt z i) * s.dw dt z k ^ 2 ∂stdNormal s.size
        = ((x * (c i k * dt)) ^ 2 + c k k * dt) * Real.exp (x ^ 2 * (c i i * dt) / 2)) := by
  have h0 := std_exp (fun j : Fin s.size => x * (s.chol i j * √dt))
  have h1 := std_exp_linear (fun j : Fin s.size => x * (s.chol i j * √dt)) fun j => s.chol k j * √dt
  have h2 := std_exp_linear_sq (fun j : Fin s.size => x * (s.chol i j * √dt))
    fun j => s.chol k j * √dt
  have e : ∀ z : Fin s.size → ℝ, ∑ j : Fin s.size, x * (s.chol i j * √dt) * z j = x * s.dw dt z i :=
    fun z => by
      rw [fxDw_linear hq dt z hi, Finset.mul_sum]
      exact Finset.sum_congr rfl fun j _ => by ring
  have e2 : ∑ j : Fin s.size, (x * (s.chol i j * √dt)) ^ 2 / 2 = x ^ 2 * (c i i * dt) / 2 := by
    rw [← fxDw_product hq hdt hi hi, Finset.mul_sum, Finset.sum_div]
    exact Finset.sum_congr rfl fun j _ => by ring
  have e3 : ∑ j : Fin s.size, x * (s.chol i j * √dt) * (s.chol k j * √dt) = x * (c i k * dt) := by
    rw [← fxDw_product hq hdt hi hk, Finset.mul_sum]
    exact Finset.sum_congr rfl fun j _ => by ring
  have e4 : ∑ j : Fin s.size, (s.chol k j * √dt) ^ 2 = c k k * dt := by
    rw [← fxDw_product hq hdt hk hk]
    exact Finset.sum_congr rfl fun j _ => by ring
  simp_rw [e, e2] at h0
  simp_rw [e3, e, e2, ← fxDw_linear hq dt _ hk] at h1
  simp_rw [e3, e4, e, e2, ← fxDw_linear hq dt _ hk] at h2
  exact ⟨h0, h1, h2⟩

/-! ## One step -/

theorem runningRate_eq {q : FmmTenor} (hq : q.Ordered) (t : ℝ) :
    runningRate q t = min (q.etaN t) q.m := by
  obtain ⟨-, e1, e2, e3, e4⟩ := FmmTenor.eta_spec hq t
  unfold runningRate
  split
  · rename_i h
    obtain ⟨f1, f2, f3⟩ := Nat.find_spec h
    have a1 := (etaN_le_iff hq t f1 f2).2 f3
    have a2 : Nat.find h ≤ q.etaN t := Nat.find_min' h ⟨e1, by omega, e4 (by omega)⟩
    rw [min_eq_left (by omega)]
    omega
  · rename_i h
    rw [min_eq_right]
    by_contra hc
    exact h ⟨q.etaN t, e1, by omega, e4 (by omega)⟩

theorem runningRate_mem {q : FmmTenor} (hq : q.Ordered) (t : ℝ) :
    1 ≤ runningRate q t ∧ runningRate q t ≤ q.m := by
  rw [runningRate_eq hq]
  exact ⟨le_min (FmmTenor.eta_spec hq t).2.1 hq.1, min_le_right _ _⟩

theorem sideStep_rate {l : FmmSide} {q : FmmTenor} (hq : q.Ordered) (hl : l.Valid q) {p p' : FmmPath}
    (hp : p.Fits q.m) {dt : ℝ} (hdt : 0 < dt) (w : ℕ → ℝ)
    (h : (sideSim l q).step p dt (unitDraws q.m dt w) = .ok p') :
    p'.Fits q.m ∧ p'.t = p.t + dt ∧ ∀ j, 1 ≤ j → j ≤ q.m →
      p'.R j = p.R j + sideDrift l q p dt j * dt + sideVolAt l q p dt j * w j := by
  obtain ⟨p1, v, h1, h2, h3, h4, -⟩ := step_ok (s := sideSim l q) (sideFmm_valid hq hl)
    (p := p) hp hdt (unitDraws q.m dt w)
  rw [h1] at h
  injection h with h
  subst h
  refine ⟨h2, h3, fun j j1 j2 => ?_⟩
  have hv : ∀ i, 1 ≤ i → i ≤ q.m → v i = l.sigmas.getD (i - 1) 0 := fun i i1 i2 => by
    have := (h4 i i1 i2).1
    change (sideFmm l q).adaptedVol _ _ _ = _ at this
    rw [sideVol_eq, sideVol_ok hl i1 i2] at this
    injection this with this
    exact this.symm
  rw [(h4 j j1 j2).2.1, unit_dw hl hdt w (by omega), Nat.sub_add_cancel j1, sideDrift, sideVolAt,
    hv j j1 j2]
  congr 2
  unfold fmmDrift
  dsimp only
  rw [hv j j1 j2]
  congr 2
  refine Finset.sum_congr rfl fun i hi => ?_
  rw [Finset.mem_Icc] at hi
  rw [hv i hi.1 (by omega)]
  rfl

/-- One step, each component as a function of the draws. -/
theorem fxNext_ok (hq : s.params.tenor.Ordered) (hv : s.params.Valid)
    {st : FxFmmState} (hst : st.Fits s.params.tenor.m) {dt : ℝ} (hdt : 0 < dt)
    (z : Fin s.size → ℝ) :
    s.step st dt z = .ok (s.next st dt z) ∧ (s.next st dt z).Fits s.params.tenor.m
      ∧ (s.next st dt z).dom.t = st.dom.t + dt
      ∧ (s.next st dt z).variance = max (max st.variance 0
          + s.params.heston.kappa * (s.params.heston.theta - max st.variance 0) * dt
          + s.params.heston.gamma * √(max st.variance 0) * s.dw dt z 1) 0
      ∧ (s.next st dt z).fx = Real.exp (Real.log st.fx + (st.carry s.params.tenor
          - 1 / 2 * max st.variance 0) * dt + √(max st.variance 0) * s.dw dt z 0)
      ∧ (∀ j, 1 ≤ j → j ≤ s.params.tenor.m → (s.next st dt z).dom.R j
          = st.dom.R j + sideDrift s.params.domestic s.params.tenor st.dom dt j * dt
            + sideVolAt s.params.domestic s.params.tenor st.dom dt j * s.dw dt z (1 + j))
      ∧ ∀ j, 1 ≤ j → j ≤ s.params.tenor.m → (s.next st dt z).fgn.R j
          = st.fgn.R j + sideDrift s.params.foreign s.params.tenor st.fgn dt j * dt
            + sideVolAt s.params.foreign s.params.tenor st.fgn dt j
              * (s.dw dt z (1 + s.params.tenor.m + j)
                - s.params.correlations.xiF.getD (j - 1) 0 * √(max st.variance 0) * dt) := by
  obtain ⟨st', f', h1, h2, h3, h4, h5, h6, h7, h8, h9, h10, -⟩ := fxStep_ok hq hv hst hdt z
  have hn : s.next st dt z = st' := by rw [FxFmmSim.next, h1]
  obtain ⟨d1, d2, d3⟩ := sideStep_rate hq hv.1 hst.dom hdt _ h2
  obtain ⟨f1, f2, f3⟩ := sideStep_rate hq hv.2.1 hst.fgn hdt _ h3
  rw [hn]
  refine ⟨h1, ⟨d1, ⟨h4 ▸ f1.rates, h5 ▸ f1.yDiag, h6 ▸ f1.ratesAtStart, h7 ▸ f1.yAtStart⟩, ?_⟩, d2, h9,
    ?_, d3, fun j j1 j2 => ?_⟩
  · rw [h8, f2, d2, hst.time]
  · rw [h10, FxFmmState.carry, runningRate_eq hq]
  · rw [← f3 j j1 j2]
    change st'.fgn.rates.getD _ _ = f'.rates.getD _ _
    rw [h4]

theorem fxNext_fx_pos (hq : s.params.tenor.Ordered) (hv : s.params.Valid)
    {st : FxFmmState} (hst : st.Fits s.params.tenor.m) {dt : ℝ} (hdt : 0 < dt)
    (z : Fin s.size → ℝ) : 0 < (s.next st dt z).fx := by
  rw [(fxNext_ok hq hv hst hdt z).2.2.2.2.1]
  exact Real.exp_pos _

theorem fxNext_fx (hq : s.params.tenor.Ordered) (hv : s.params.Valid)
    {st : FxFmmState} (hst : st.Fits s.params.tenor.m) (hfx : 0 < st.fx) {dt : ℝ} (hdt : 0 < dt)
    (z : Fin s.size → ℝ) : (s.next st dt z).fx
      = st.fx * Real.exp ((st.carry s.params.tenor - 1 / 2 * max st.variance 0) * dt)
        * Real.exp (√(max st.variance 0) * s.dw dt z 0) := by
  rw [(fxNext_ok hq hv hst hdt z).2.2.2.2.1, Real.exp_add, Real.exp_add, Real.exp_log hfx]

/-! ## Measurability along a path -/

theorem fxChain_fits (hq : s.params.tenor.Ordered) (hv : s.params.Valid) {dt : ℕ → ℝ}
    (hdt : ∀ k, 0 < dt k) {st : FxFmmState} (hst : st.Fits s.params.tenor.m) (z : ℕ → Fin s.size → ℝ)
    (n : ℕ) : (chain (fxFmmChainStep s dt) n st z).Fits s.params.tenor.m
      ∧ (chain (fxFmmChainStep s dt) n st z).dom.t = st.dom.t + ∑ k ∈ Finset.range n, dt k := by
  induction n with
  | zero => exact ⟨hst, by simp [chain]⟩
  | succ n ih =>
    obtain ⟨-, h1, h2, -⟩ := fxNext_ok hq hv ih.1 (hdt n) (z n)
    refine ⟨h1, h2.trans ?_⟩
    rw [ih.2, Finset.sum_range_succ]
    ring

theorem measurable_sideDrift {α : Type} [MeasurableSpace α] {l : FmmSide} {q : FmmTenor} {dt t : ℝ}
    {p : α → FmmPath} (ht : ∀ a, (p a).t = t) {j : ℕ} (j2 : j ≤ q.m)
    (hR : ∀ j, 1 ≤ j → j ≤ q.m → Measurable fun a => (p a).R j) :
    Measurable fun a => sideDrift l q (p a) dt j := by
  unfold sideDrift fmmDrift
  simp_rw [ht]
  refine Measurable.const_mul (Finset.measurable_fun_sum _ fun i hi => ?_) _
  rw [Finset.mem_Icc] at hi
  exact (measurable_const.div (((hR i hi.1 (by omega)).const_mul _).const_add _)).const_mul _

theorem measurable_fxChain (hq : s.params.tenor.Ordered) (hv : s.params.Valid) {dt : ℕ → ℝ}
    (hdt : ∀ k, 0 < dt k) {st : FxFmmState} (hst : st.Fits s.params.tenor.m) (n : ℕ) :
    (Measurable fun z => (chain (fxFmmChainStep s dt) n st z).fx)
    ∧ (Measurable fun z => (chain (fxFmmChainStep s dt) n st z).variance)
    ∧ (∀ j, 1 ≤ j → j ≤ s.params.tenor.m →
      Measurable fun z => (chain (fxFmmChainStep s dt) n st z).dom.R j)
    ∧ (∀ j, 1 ≤ j → j ≤ s.params.tenor.m →
      Measurable fun z => (chain (fxFmmChainStep s dt) n st z).fgn.R j)
    ∧ Measurable fun z => (chain (fxFmmChainStep s dt) n st z).carry s.params.tenor := by
  have hcarry : ∀ n, (∀ j, 1 ≤ j → j ≤ s.params.tenor.m →
      Measurable fun z => (chain (fxFmmChainStep s dt) n st z).dom.R j)
    → (∀ j, 1 ≤ j → j ≤ s.params.tenor.m →
      Measurable fun z => (chain (fxFmmChainStep s dt) n st z).fgn.R j)
    → Measurable fun z => (chain (fxFmmChainStep s dt) n st z).carry s.params.tenor := by
    intro n hd hf
    unfold FxFmmState.carry
    simp_rw [fun z => (fxChain_fits hq hv hdt hst z n).2]
    obtain ⟨r1, r2⟩ := runningRate_mem hq (st.dom.t + ∑ k ∈ Finset.range n, dt k)
    exact (hd _ r1 r2).sub (hf _ r1 r2)
  induction n with
  | zero =>
    simp only [chain]
    exact ⟨measurable_const, measurable_const, fun _ _ _ => measurable_const,
      fun _ _ _ => measurable_const, measurable_const⟩
  | succ n ih =>
    obtain ⟨hfx, hvar, hd, hf, hc⟩ := ih
    have hs := hvar.max (measurable_const (a := (0 : ℝ)))
    have hr := Real.continuous_sqrt.measurable.comp hs
    have hw : ∀ i, Measurable fun z : ℕ → Fin s.size → ℝ => s.dw (dt n) (z n) i := fun i =>
      (measurable_fxDw s (dt n) i).comp (measurable_pi_apply n)
    have key := fun z : ℕ → Fin s.size → ℝ =>
      fxNext_ok hq hv (fxChain_fits hq hv hdt hst z n).1 (hdt n) (z n)
    have eD : ∀ j, 1 ≤ j → j ≤ s.params.tenor.m →
        Measurable fun z => (chain (fxFmmChainStep s dt) (n + 1) st z).dom.R j := by
      intro j j1 j2
      simp only [chain, fxFmmChainStep]
      change Measurable fun z => (s.next (chain (fxFmmChainStep s dt) n st z) (dt n) (z n)).dom.R j
      simp_rw [fun z => (key z).2.2.2.2.2.1 j j1 j2]
      refine ((hd j j1 j2).add (Measurable.mul_const ?_ _)).add (Measurable.mul ?_ (hw _))
      · exact measurable_sideDrift (fun z => (fxChain_fits hq hv hdt hst z n).2) j2 hd
      · unfold sideVolAt
        simp_rw [fun z => (fxChain_fits hq hv hdt hst z n).2]
        exact measurable_const
    have eF : ∀ j, 1 ≤ j → j ≤ s.params.tenor.m →
        Measurable fun z => (chain (fxFmmChainStep s dt) (n + 1) st z).fgn.R j := by
      intro j j1 j2
      simp only [chain, fxFmmChainStep]
      change Measurable fun z => (s.next (chain (fxFmmChainStep s dt) n st z) (dt n) (z n)).fgn.R j
      simp_rw [fun z => (key z).2.2.2.2.2.2 j j1 j2]
      have ht : ∀ z, (chain (fxFmmChainStep s dt) n st z).fgn.t
          = st.dom.t + ∑ k ∈ Finset.range n, dt k := fun z => by
        rw [(fxChain_fits hq hv hdt hst z n).1.time, (fxChain_fits hq hv hdt hst z n).2]
      refine ((hf j j1 j2).add (Measurable.mul_const ?_ _)).add (Measurable.mul ?_ ?_)
      · exact measurable_sideDrift ht j2 hf
      · unfold sideVolAt
        simp_rw [ht]
        exact measurable_const
      · exact (hw _).sub ((hr.const_mul _).mul_const _)
    refine ⟨?_, ?_, eD, eF, hcarry _ eD eF⟩
    · simp only [chain]
      change Measurable fun z => (s.next (chain (fxFmmChainStep s dt) n st z) (dt n) (z n)).fx
      simp_rw [fun z => (key z).2.2.2.2.1]
      exact Real.measurable_exp.comp (((Real.measurable_log.comp hfx).add
        ((hc.sub (hs.const_mul _)).mul_const _)).add (hr.mul (hw 0)))
    · simp only [chain]
      change Measurable fun z => (s.next (chain (fxFmmChainStep s dt) n st z) (dt n) (z n)).variance
      simp_rw [fun z => (key z).2.2.2.1]
      exact ((hs.add (((measurable_const.sub hs).const_mul _).mul_const _)).add
        ((hr.const_mul _).mul (hw 1))).max measurable_const

end Verif
