import Verif.Spec.FxFmmSim
import Verif.Lemmas.FmmStep
import Verif.Lemmas.Chain
import Verif.Lemmas.GaussVec
import Verif.Spec.Cholesky

/-!
# Lemmas on the FX-FMM simulator
-/

namespace Verif

open Outcome Classical

variable {l : FmmSide} {q : FmmTenor}

theorem sideFmm_valid (hq : q.Ordered) (hl : l.Valid q) : (sideFmm l q).Valid where
  tenor := hq
  sigmas := hl.1
  correlation := hl.2.1
  rows := hl.2.2.1
  betas := by simp [sideFmm]
  knots := by simp [sideFmm]

theorem sideVol_eq (l : FmmSide) (q : FmmTenor) (j : ℕ) (t r : ℝ) :
    (sideFmm l q).adaptedVol j t r = sideAdaptedVol l j := by
  rw [Fmm.adaptedVol]
  change (at1 l.sigmas j >>= fun s => Outcome.ok 1 >>= fun x => Outcome.ok (s * x)) = at1 l.sigmas j
  cases at1 l.sigmas j with
  | ok a => rw [ok_bind, ok_bind, mul_one]
  | fail e => rfl
  | panic => rfl

theorem sideVol_ok (hl : l.Valid q) {j : ℕ} (h1 : 1 ≤ j) (h2 : j ≤ q.m) :
    sideAdaptedVol l j = .ok (l.sigmas.getD (j - 1) 0) := at1_ok _ _ h1 (hl.1 ▸ h2) 0

theorem sideWeight_eq (rates : List ℝ) (tMid : ℝ) (i : ℕ) :
    sideWeight l q rates tMid i = fmmDriftWeight (sideFmm l q) rates tMid i := by
  rw [sideWeight, fmmDriftWeight]
  simp only [sideVol_eq]
  rfl

theorem domesticRate_eq (rates : List ℝ) (tMid dt : ℝ) (e j : ℕ) (z : List ℝ) :
    domesticRate l q rates tMid dt e j ((sideSim l q).dw dt z (j - 1))
      = (sideSim l q).newRate rates tMid dt z e j := by
  rw [domesticRate, FmmSimulator.newRate]
  simp only [sideSim, sideVol_eq, sideSum, sideWeight_eq]
  rfl

theorem sideNewY_eq (p : FmmPath) (tMid dt : ℝ) (j : ℕ) :
    sideNewY l q p dt j = (sideFmm l q).newY p tMid dt j := by
  rw [sideNewY, Fmm.newY]
  simp only [sideVol_eq]
  rfl

theorem sideNewX_eq (p : FmmPath) (tMid dt : ℝ) (z : List ℝ) (e : ℕ) (nr ny : List ℝ) :
    sideNewX l q p dt (fun k => (sideSim l q).dw dt z (k - 1)) e nr ny
      = (sideSim l q).newX p tMid dt z e nr ny := by
  rw [sideNewX, FmmSimulator.newX]
  simp only [sideSim, sideVol_eq]
  rfl

theorem side_step_eq (p : FmmPath) {dt : ℝ} (hdt : 0 < dt) (z : List ℝ) :
    (sideSim l q).step p dt z = (do
      let e ← q.eta p.t
      let nr ← collectO (fun i => domesticRate l q p.rates (p.t + 1 / 2 * dt) dt e (i + 1)
        ((sideSim l q).dw dt z i)) (List.range q.m)
      let ny ← collectO (fun i => sideNewY l q p dt (i + 1)) (List.range q.m)
      let x ← sideNewX l q p dt (fun k => (sideSim l q).dw dt z (k - 1)) e nr ny
      let e' ← q.eta (p.t + dt)
      sideCommit q p dt e e' nr ny x) := by
  have h1 : ∀ e i, domesticRate l q p.rates (p.t + 1 / 2 * dt) dt e (i + 1)
        ((sideSim l q).dw dt z i)
      = (sideSim l q).newRate p.rates (p.t + 1 / 2 * dt) dt z e (i + 1) := fun e i =>
    domesticRate_eq p.rates _ dt e (i + 1) z
  have h2 : ∀ i, sideNewY l q p dt (i + 1) = (sideFmm l q).newY p (p.t + 1 / 2 * dt) dt (i + 1) :=
    fun i => sideNewY_eq p _ dt (i + 1)
  simp only [h1, h2, sideNewX_eq p (p.t + 1 / 2 * dt)]
  rw [FmmSimulator.step, if_pos hdt]
  rfl

theorem unit_dw (hl : l.Valid q) {dt : ℝ} (hdt : 0 < dt) (w : ℕ → ℝ) {i : ℕ} (hi : i < q.m) :
    (sideSim l q).dw dt (unitDraws q.m dt w) i = w (i + 1) := by
  rw [dw_eq (n := q.m) hl.2.1 (by simp [unitDraws]) hi]
  have h0 : √dt ≠ 0 := (Real.sqrt_pos.2 hdt).ne'
  rw [Finset.sum_eq_single_of_mem i (Finset.self_mem_range_succ i)]
  · change √dt * ((if i = i then 1 else 0) * _) = _
    rw [if_pos rfl, one_mul]
    simp [unitDraws, List.getD_eq_getElem?_getD, hi]
    field_simp
  · intro k _ hk
    change (if i = k then (1 : ℝ) else 0) * _ = 0
    rw [if_neg (Ne.symm hk), zero_mul]

theorem collectO_congr {f g : ℕ → Outcome ℝ} {xs : List ℕ}
    (h : ∀ x ∈ xs, f x = g x) : collectO f xs = collectO g xs := by
  induction xs with
  | nil => rfl
  | cons a as ih =>
    rw [collectO, collectO, h a List.mem_cons_self, ih fun x hx => h x (List.mem_cons_of_mem _ hx)]

theorem collectO_length {f : ℕ → Outcome ℝ} {xs : List ℕ} {ys : List ℝ}
    (h : collectO f xs = .ok ys) : ys.length = xs.length := by
  induction xs generalizing ys with
  | nil => rw [collectO] at h; injection h with h; rw [← h]; rfl
  | cons a as ih =>
    rw [collectO] at h
    obtain ⟨y, -, h⟩ := bind_eq_ok.1 h
    obtain ⟨r, hr, h⟩ := bind_eq_ok.1 h
    injection h with h
    rw [← h, List.length_cons, List.length_cons, ih hr]

theorem foreignRate_eq {rho : List ℝ} (hrho : rho.length = q.m) (root : ℝ) (rates : List ℝ)
    (tMid dt : ℝ) (e : ℕ) {j : ℕ} (h1 : 1 ≤ j) (h2 : j ≤ q.m) (w : ℝ) :
    foreignRate l q rho root rates tMid dt e j w
      = domesticRate l q rates tMid dt e j (w - rho.getD (j - 1) 0 * root * dt) := by
  rw [foreignRate, domesticRate]
  cases at1 rates j with
  | fail e => rfl
  | panic => rfl
  | ok r =>
  rw [ok_bind, ok_bind]
  split
  · rfl
  cases q.gamma j tMid with
  | fail e => rfl
  | panic => rfl
  | ok g =>
  rw [ok_bind, ok_bind]
  split
  · rfl
  cases sideAdaptedVol l j with
  | fail e => rfl
  | panic => rfl
  | ok sig =>
  rw [ok_bind, ok_bind]
  cases sideSum l q rates tMid e j with
  | fail e => rfl
  | panic => rfl
  | ok sum =>
  rw [ok_bind, ok_bind, at1_ok rho j h1 (hrho ▸ h2) 0, ok_bind]
  refine congrArg Outcome.ok ?_
  ring

theorem sideNewX_congr {p : FmmPath} {dt : ℝ} {w w' : ℕ → ℝ} {e : ℕ} {nr ny : List ℝ}
    (h : ∀ k, 1 ≤ k → k ≤ q.m → w k = w' k) :
    sideNewX l q p dt w e nr ny = sideNewX l q p dt w' e nr ny := by
  rw [sideNewX, sideNewX]
  by_cases he : 1 ≤ e ∧ e ≤ q.m
  · rw [if_pos he, if_pos he]
    dsimp only
    rw [h e he.1 he.2]
  · rw [if_neg he, if_neg he]

theorem sideCommit_x {p f : FmmPath} {dt : ℝ} {e e' : ℕ} {nr ny : List ℝ} {x : ℝ}
    (h : sideCommit q p dt e e' nr ny x = .ok f) (x' : ℝ) :
    sideCommit q p dt e e' nr ny x'
        = .ok { f with xActive := if e + 1 ≤ min e' q.m then 0 else x' }
      ∧ f.xActive = (if e + 1 ≤ min e' q.m then 0 else x) ∧ f.rates = nr := by
  unfold sideCommit at h ⊢
  dsimp only at h ⊢
  obtain ⟨sr, hsr, h⟩ := bind_eq_ok.1 h
  obtain ⟨sy, hsy, h⟩ := bind_eq_ok.1 h
  injection h with h
  subst h
  rw [hsr, ok_bind, hsy, ok_bind]
  exact ⟨rfl, rfl, rfl⟩

/-- Everything a step does, each currency being a step of its own forward market model. -/
theorem fxStep_ok {s : FxFmmSim} (hq : s.params.tenor.Ordered) (hv : s.params.Valid)
    {st : FxFmmState} (hst : st.Fits s.params.tenor.m) {dt : ℝ} (hdt : 0 < dt)
    (z : Fin s.size → ℝ) :
    ∃ st' f', s.step st dt z = .ok st'
      ∧ (sideSim s.params.domestic s.params.tenor).step st.dom dt
          (unitDraws s.params.tenor.m dt fun j => s.dw dt z (1 + j)) = .ok st'.dom
      ∧ (sideSim s.params.foreign s.params.tenor).step st.fgn dt
          (unitDraws s.params.tenor.m dt fun j => s.dw dt z (1 + s.params.tenor.m + j)
            - s.params.correlations.xiF.getD (j - 1) 0 * √(max st.variance 0) * dt) = .ok f'
      ∧ st'.fgn.rates = f'.rates ∧ st'.fgn.yDiag = f'.yDiag
      ∧ st'.fgn.ratesAtStart = f'.ratesAtStart ∧ st'.fgn.yAtStart = f'.yAtStart ∧ st'.fgn.t = f'.t
      ∧ st'.variance = max (max st.variance 0
          + s.params.heston.kappa * (s.params.heston.theta - max st.variance 0) * dt
          + s.params.heston.gamma * √(max st.variance 0) * s.dw dt z 1) 0
      ∧ st'.fx = Real.exp (Real.log st.fx + (st.dom.R (min (s.params.tenor.etaN st.dom.t) s.params.tenor.m)
          - st.fgn.R (min (s.params.tenor.etaN st.dom.t) s.params.tenor.m)
          - 1 / 2 * max st.variance 0) * dt + √(max st.variance 0) * s.dw dt z 0)
      ∧ ∀ k, s.params.tenor.etaN st.dom.t = k → 
        (k ≤ s.params.tenor.m ∧ s.params.tenor.T (k - 1) < st.dom.t ∧ st.dom.t < s.params.tenor.T k
          ∧ (st.dom.t + dt ≤ s.params.tenor.T k ∨ k = s.params.tenor.m) →
        st'.fgn.xActive = f'.xActive + s.params.foreign.sigmas.getD (k - 1) 0
          / (1 / 2 * (st.fgn.R k + st'.fgn.R k) + 1 / s.params.tenor.len k)
          * (s.params.correlations.xiF.getD (k - 1) 0 * √(max st.variance 0) * dt))
        ∧ (¬ (k ≤ s.params.tenor.m ∧ s.params.tenor.T (k - 1) < st.dom.t ∧ st.dom.t < s.params.tenor.T k
          ∧ (st.dom.t + dt ≤ s.params.tenor.T k ∨ k = s.params.tenor.m)) →
          st'.fgn.xActive = f'.xActive) := by
  obtain ⟨hd, hf, hc⟩ := hv
  set p := s.params with hp
  set q := p.tenor with hqd
  set m := q.m with hm
  set wD : ℕ → ℝ := fun j => s.dw dt z (1 + j) with hwD
  set sg := max st.variance 0 with hsg
  set wF : ℕ → ℝ := fun j => s.dw dt z (1 + m + j) with hwF
  set wS : ℕ → ℝ := fun j => wF j - p.correlations.xiF.getD (j - 1) 0 * √sg * dt with hwS
  obtain ⟨e0, e1, e2, e3, e4⟩ := FmmTenor.eta_spec hq st.dom.t
  obtain ⟨e0', -⟩ := FmmTenor.eta_spec hq (st.dom.t + dt)
  obtain ⟨d', vD, stepD, fitD, -⟩ := step_ok (s := sideSim p.domestic q) (sideFmm_valid hq hd)
    (p := st.dom) hst.dom hdt (unitDraws m dt wD)
  obtain ⟨f', vF, stepF, fitF, -⟩ := step_ok (s := sideSim p.foreign q) (sideFmm_valid hq hf)
    (p := st.fgn) hst.fgn hdt (unitDraws m dt wS)
  have sD := stepD
  have sF := stepF
  rw [side_step_eq _ hdt, e0, ok_bind] at sD
  rw [side_step_eq _ hdt, hst.time, e0, ok_bind] at sF
  obtain ⟨nrD, hnrD, sD⟩ := bind_eq_ok.1 sD
  obtain ⟨nyD, hnyD, sD⟩ := bind_eq_ok.1 sD
  obtain ⟨xD, hxD, sD⟩ := bind_eq_ok.1 sD
  obtain ⟨nrF, hnrF, sF⟩ := bind_eq_ok.1 sF
  obtain ⟨nyF, hnyF, sF⟩ := bind_eq_ok.1 sF
  obtain ⟨xF, hxF, sF⟩ := bind_eq_ok.1 sF
  rw [e0', ok_bind] at sD sF
  have hm1 : 1 ≤ min (q.etaN st.dom.t) m := le_min e1 hq.1
  -- the increments that the step hands to the two currencies
  have aD : ∀ i < m, (sideSim p.domestic q).dw dt (unitDraws m dt wD) i
      = s.dw dt z (2 + (i + 1 - 1)) := fun i hi => by
    rw [unit_dw hd hdt wD hi, hwD]
    dsimp only
    congr 1
    omega
  have aF : ∀ i < m, (sideSim p.foreign q).dw dt (unitDraws m dt wF) i
      = s.dw dt z (2 + m + (i + 1 - 1)) := fun i hi => by
    rw [unit_dw hf hdt wF hi, hwF]
    dsimp only
    congr 1
    omega
  have hnrD' : collectO (fun i => domesticRate p.domestic q st.dom.rates (st.dom.t + 1 / 2 * dt) dt
      (q.etaN st.dom.t) (i + 1) (s.dw dt z (2 + (i + 1 - 1)))) (List.range m) = .ok nrD := by
    rw [← hnrD]
    refine collectO_congr fun i hi => ?_
    rw [aD i (List.mem_range.1 hi)]
  have hnrF' : collectO (fun i => foreignRate p.foreign q p.correlations.xiF (√sg) st.fgn.rates
      (st.dom.t + 1 / 2 * dt) dt (q.etaN st.dom.t) (i + 1) (s.dw dt z (2 + m + (i + 1 - 1))))
      (List.range m) = .ok nrF := by
    rw [← hnrF]
    refine collectO_congr fun i hi => ?_
    rw [List.mem_range] at hi
    rw [foreignRate_eq hc.2.2.1 _ _ _ _ _ (by omega) (by omega), unit_dw hf hdt wS hi, ← aF i hi,
      unit_dw hf hdt wF hi]
  have hxD' : sideNewX p.domestic q st.dom dt (fun j => s.dw dt z (2 + (j - 1))) (q.etaN st.dom.t)
      nrD nyD = .ok xD := by
    rw [← hxD]
    refine sideNewX_congr fun k k1 k2 => ?_
    rw [aD (k - 1) (by omega)]
    congr 1
  have xeq : ∀ w : ℕ → ℝ, sideNewX p.foreign q st.fgn dt w (q.etaN st.dom.t) nrF nyF
      = (sideSim p.foreign q).newX st.fgn (st.dom.t + 1 / 2 * dt) dt (unitDraws m dt w)
          (q.etaN st.dom.t) nrF nyF := fun w => by
    rw [← sideNewX_eq]
    refine sideNewX_congr fun k k1 k2 => ?_
    rw [unit_dw hf hdt w (by omega), Nat.sub_add_cancel k1]
  have lenR : nrF.length = q.m := by
    have := (sideCommit_x sF 0).2.2
    rw [← this]; exact fitF.rates
  have lenY : nyF.length = q.m := by
    have := collectO_length hnyF
    simpa using this
  obtain ⟨xF', hxF'⟩ := newX_ok (s := sideSim p.foreign q) (sideFmm_valid hq hf) hst.fgn
    (tMid := st.dom.t + 1 / 2 * dt) (dt := dt) (z := unitDraws m dt wF) lenR lenY (q.etaN st.dom.t)
  have hxF1 : sideNewX p.foreign q st.fgn dt (fun j => s.dw dt z (2 + m + (j - 1)))
      (q.etaN st.dom.t) nrF nyF = .ok xF' := by
    rw [← hxF', ← xeq]
    refine sideNewX_congr fun k k1 k2 => ?_
    rw [hwF]
    dsimp only
    congr 1
    omega
  have hxF2 : (sideSim p.foreign q).newX st.fgn (st.dom.t + 1 / 2 * dt) dt (unitDraws m dt wS)
      (q.etaN st.dom.t) nrF nyF = .ok xF := by
    rw [← sideNewX_eq]; exact hxF
  obtain ⟨cF1, cF2, cF3⟩ := sideCommit_x sF xF'
  refine ⟨⟨_, _, d', { f' with xActive := if q.etaN st.dom.t + 1 ≤ min (q.etaN (st.dom.t + dt)) q.m
    then 0 else xF' }⟩, f', ?_, stepD, stepF, rfl, rfl, rfl, rfl, rfl, rfl, rfl, ?_⟩
  · rw [FxFmmSim.step, if_pos hdt]
    dsimp only
    rw [← hp, ← hqd, ← hm, ← hsg, e0, ok_bind,
      at1_ok st.dom.rates _ hm1 (by rw [hst.dom.rates]; exact min_le_right _ _) 0, ok_bind,
      at1_ok st.fgn.rates _ hm1 (by rw [hst.fgn.rates]; exact min_le_right _ _) 0, ok_bind,
      hnrD', ok_bind, hnrF', ok_bind, hnyD, ok_bind, hnyF, ok_bind, hxD', ok_bind, hxF1, ok_bind,
      e0', ok_bind, sD, ok_bind, cF1, ok_bind]
    rfl
  · intro k hk
    dsimp only
    rw [hk] at hxF' hxF2 cF2 e1 ⊢
    rw [cF2]
    constructor
    · rintro ⟨k2, k3, k4, k5⟩
      have hno : ¬ (k + 1 ≤ min (q.etaN (st.dom.t + dt)) q.m) := by
        rcases k5 with k5 | k5
        · have := (etaN_le_iff hq (st.dom.t + dt) e1 k2).2 k5
          omega
        · omega
      rw [if_neg hno, if_neg hno]
      have hw : (sideSim p.foreign q).model.adaptedVol k (st.dom.t + 1 / 2 * dt)
          (1 / 2 * (st.fgn.R k + nrF.getD (k - 1) 0)) = .ok (p.foreign.sigmas.getD (k - 1) 0) := by
        change (sideFmm p.foreign q).adaptedVol _ _ _ = _
        rw [sideVol_eq, sideVol_ok hf e1 k2]
      have i1 := newX_inside (dt := dt) (z := unitDraws m dt wF) (s := sideSim p.foreign q)
        (sideFmm_valid hq hf) hst.fgn e1 k2 lenR lenY (hst.time ▸ k3) (hst.time ▸ k4) hw
      have i2 := newX_inside (dt := dt) (z := unitDraws m dt wS) (s := sideSim p.foreign q)
        (sideFmm_valid hq hf) hst.fgn e1 k2 lenR lenY (hst.time ▸ k3) (hst.time ▸ k4) hw
      rw [hxF'] at i1
      rw [hxF2] at i2
      injection i1 with i1
      injection i2 with i2
      rw [i1, i2, unit_dw hf hdt wF (by omega), unit_dw hf hdt wS (by omega), Nat.sub_add_cancel e1,
        hwS]
      dsimp only
      have hR : ({ f' with xActive := xF' } : FmmPath).R k = nrF.getD (k - 1) 0 := by
        change f'.rates.getD _ _ = _
        rw [cF3]
      have hR' : f'.R k = nrF.getD (k - 1) 0 := by
        change f'.rates.getD _ _ = _
        rw [cF3]
      change _ = _ + _ / (1 / 2 * (_ + f'.R k) + _) * _
      rw [hR']
      change _ = _ + _ / (1 / 2 * (_ + _) + 1 / (sideSim p.foreign q).model.tenor.len k) * _
      ring
    · intro hout
      by_cases hno : k + 1 ≤ min (q.etaN (st.dom.t + dt)) q.m
      · rw [if_pos hno, if_pos hno]
      · rw [if_neg hno, if_neg hno]
        have ho : ¬ (1 ≤ k ∧ k ≤ (sideSim p.foreign q).model.tenor.m
            ∧ (sideSim p.foreign q).model.tenor.T (k - 1) < st.fgn.t
            ∧ st.fgn.t < (sideSim p.foreign q).model.tenor.T k) := by
          rintro ⟨-, o2, o3, o4⟩
          rw [hst.time] at o3 o4
          refine hout ⟨o2, o3, o4, ?_⟩
          by_contra hc
          rw [not_or, not_le] at hc
          have o2' : k ≤ q.m := o2
          have : ¬ q.etaN (st.dom.t + dt) ≤ k := fun h =>
            absurd ((etaN_le_iff hq (st.dom.t + dt) e1 o2').1 h) (not_le.2 hc.1)
          have := hc.2
          omega
        have i1 := newX_outside (s := sideSim p.foreign q) (sideFmm_valid hq hf) (p := st.fgn)
          (tMid := st.dom.t + 1 / 2 * dt) (dt := dt) (z := unitDraws m dt wF) (newRates := nrF)
          (newYs := nyF) ho
        have i2 := newX_outside (s := sideSim p.foreign q) (sideFmm_valid hq hf) (p := st.fgn)
          (tMid := st.dom.t + 1 / 2 * dt) (dt := dt) (z := unitDraws m dt wS) (newRates := nrF)
          (newYs := nyF) ho
        rw [hxF'] at i1
        rw [hxF2] at i2
        injection i1 with i1
        injection i2 with i2
        rw [i1, i2]

end Verif
