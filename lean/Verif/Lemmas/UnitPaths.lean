import Verif.Spec.Units

namespace Verif
open Outcome Classical

variable {c : ℝ}

theorem exp_log_unit (hc : 0 < c) {x : ℝ} (hx : 0 < x) (a b : ℝ) :
    Real.exp (Real.log (c * x) + a + b) = c * Real.exp (Real.log x + a + b) := by
  rw [Real.log_mul hc.ne' hx.ne', add_assoc, add_assoc, Real.exp_add, Real.exp_log hc, ← add_assoc]

/-! ## The FX-HHW simulator -/

theorem hhw_euler_unit (hc : 0 < c) (q : HhwSim) {s : HhwState} (hs : 0 < s.fx) (dt a b : ℝ)
    (z : Fin 4 → ℝ) :
    HhwSim.euler { q with params := q.params.inUnit c } (s.inUnit c) dt a b z =
      (q.euler s dt a b z).inUnit c := by
  unfold HhwState.inUnit
  show HhwState.mk (Real.exp (Real.log (c * s.fx) + _ + _)) _ _ _ = _
  rw [exp_log_unit hc hs]
  rfl

theorem hhw_euler_pos (q : HhwSim) (s : HhwState) (dt a b : ℝ) (z : Fin 4 → ℝ) :
    0 < (q.euler s dt a b z).fx := Real.exp_pos _

theorem hhw_pathLoop_unit (hc : 0 < c) (q : HhwSim) (dt : ℝ) (draws : ℕ → Fin 4 → ℝ) (n : ℕ) :
    ∀ k (s : HhwState), 0 < s.fx →
      HhwSim.pathLoop { q with params := q.params.inUnit c } dt draws n k (s.inUnit c) =
        HhwState.inUnit c <$> q.pathLoop dt draws n k s := by
  induction n with
  | zero => intro k s _; rfl
  | succ n ih =>
    intro k s hs
    rw [HhwSim.pathLoop, HhwSim.pathLoop, HhwSim.step, HhwSim.step, HhwSim.stepAtTime,
      HhwSim.stepAtTime]
    by_cases h : 0 < dt
    · rw [if_pos h, if_pos h, hhw_euler_unit hc q hs, ok_bind, ok_bind]
      exact ih (k + 1) _ (hhw_euler_pos q s dt _ _ _)
    · rw [if_neg h, if_neg h]; rfl

theorem hhw_pathsLoop_unit (hc : 0 < c) (q : HhwSim) (hp : 0 < q.params.fx0) (dt : ℝ) (m : ℕ)
    (draws : ℕ → Fin 4 → ℝ) (n : ℕ) :
    ∀ k, HhwSim.pathsLoop { q with params := q.params.inUnit c } dt m draws n k =
        List.map (HhwState.inUnit c) <$> q.pathsLoop dt m draws n k := by
  induction n with
  | zero => intro k; rfl
  | succ n ih =>
    intro k
    have e : HhwState.initial (q.params.inUnit c) = (HhwState.initial q.params).inUnit c := rfl
    rw [HhwSim.pathsLoop, HhwSim.pathsLoop, e, hhw_pathLoop_unit hc q dt draws m k
      (HhwState.initial q.params) hp, ih]
    cases q.pathLoop dt draws m k (HhwState.initial q.params) with
    | fail e => rfl
    | panic => rfl
    | ok s => cases q.pathsLoop dt m draws n (k + m) <;> rfl

theorem hhw_simulate_unit (hc : 0 < c) (q : HhwSim) (hp : 0 < q.params.fx0)
    (draws : ℕ → Fin 4 → ℝ) (T : ℝ) (m n : ℕ) :
    HhwSim.simulate { q with params := q.params.inUnit c } draws T m n =
      List.map (HhwState.inUnit c) <$> q.simulate draws T m n := by
  unfold HhwSim.simulate
  by_cases h : 0 < m ∧ 0 < n ∧ 0 < T
  · rw [if_pos h, if_pos h]; exact hhw_pathsLoop_unit hc q hp _ m draws n 0
  · rw [if_neg h, if_neg h]; rfl

/-! ## The foreign-stock simulator -/

theorem stock_euler_unit (hc : 0 < c) (q : HhwStockSim) {s : HhwStockState} (hs : 0 < s.fx.fx)
    (dt : ℝ) (z : Fin 6 → ℝ) :
    HhwStockSim.euler { q with params := q.params.inUnit c } (s.inUnit c) dt z =
      (q.euler s dt z).inUnit c := by
  unfold HhwStockState.inUnit HhwState.inUnit
  show HhwStockState.mk (HhwState.mk (Real.exp (Real.log (c * s.fx.fx) + _ + _)) _ _ _) _ _ = _
  rw [exp_log_unit hc hs]
  rfl

theorem stock_euler_pos (q : HhwStockSim) (s : HhwStockState) (dt : ℝ) (z : Fin 6 → ℝ) :
    0 < (q.euler s dt z).fx.fx := Real.exp_pos _

theorem stock_pathLoop_unit (hc : 0 < c) (q : HhwStockSim) (dt : ℝ) (draws : ℕ → Fin 6 → ℝ)
    (n : ℕ) :
    ∀ k (s : HhwStockState), 0 < s.fx.fx →
      HhwStockSim.pathLoop { q with params := q.params.inUnit c } dt draws n k (s.inUnit c) =
        HhwStockState.inUnit c <$> q.pathLoop dt draws n k s := by
  induction n with
  | zero => intro k s _; rfl
  | succ n ih =>
    intro k s hs
    rw [HhwStockSim.pathLoop, HhwStockSim.pathLoop, HhwStockSim.step, HhwStockSim.step]
    by_cases h : 0 < dt
    · rw [if_pos h, if_pos h, stock_euler_unit hc q hs, ok_bind, ok_bind]
      exact ih (k + 1) _ (stock_euler_pos q s dt _)
    · rw [if_neg h, if_neg h]; rfl

theorem stock_pathsLoop_unit (hc : 0 < c) (q : HhwStockSim) (hp : 0 < q.params.fx0) (dt : ℝ)
    (m : ℕ) (draws : ℕ → Fin 6 → ℝ) (n : ℕ) :
    ∀ k, HhwStockSim.pathsLoop { q with params := q.params.inUnit c } dt m draws n k =
        List.map (HhwStockState.inUnit c) <$> q.pathsLoop dt m draws n k := by
  induction n with
  | zero => intro k; rfl
  | succ n ih =>
    intro k
    have e : HhwStockState.initial (q.params.inUnit c) q.equity =
        (HhwStockState.initial q.params q.equity).inUnit c := rfl
    rw [HhwStockSim.pathsLoop, HhwStockSim.pathsLoop, e, stock_pathLoop_unit hc q dt draws m k
      (HhwStockState.initial q.params q.equity) hp, ih]
    cases q.pathLoop dt draws m k (HhwStockState.initial q.params q.equity) with
    | fail e => rfl
    | panic => rfl
    | ok s => cases q.pathsLoop dt m draws n (k + m) <;> rfl

theorem stock_simulate_unit (hc : 0 < c) (q : HhwStockSim) (hp : 0 < q.params.fx0)
    (draws : ℕ → Fin 6 → ℝ) (T : ℝ) (m n : ℕ) :
    HhwStockSim.simulate { q with params := q.params.inUnit c } draws T m n =
      List.map (HhwStockState.inUnit c) <$> q.simulate draws T m n := by
  unfold HhwStockSim.simulate
  by_cases h : 0 < m ∧ 0 < n ∧ 0 < T
  · rw [if_pos h, if_pos h]; exact stock_pathsLoop_unit hc q hp _ m draws n 0
  · rw [if_neg h, if_neg h]; rfl

/-! ## The FX-FMM simulator -/

theorem map_bind_outcome {α β γ : Type} (x : Outcome α) (f : α → Outcome β) (g : β → γ) :
    g <$> (x >>= f) = x >>= fun a => g <$> f a := by
  cases x <;> rfl

theorem fxfmm_step_unit (hc : 0 < c) (s : FxFmmSim) {st : FxFmmState} (hs : 0 < st.fx) (dt : ℝ)
    (z : Fin s.size → ℝ) :
    s.step (st.inUnit c) dt z = FxFmmState.inUnit c <$> s.step st dt z := by
  unfold FxFmmSim.step
  by_cases h : 0 < dt
  · rw [if_pos h, if_pos h]
    simp only [map_bind_outcome, map_ok]
    unfold FxFmmState.inUnit
    dsimp only
    simp only [exp_log_unit hc hs]
  · rw [if_neg h, if_neg h]; rfl

theorem fxfmm_step_pos (s : FxFmmSim) {st st' : FxFmmState} {dt : ℝ} {z : Fin s.size → ℝ}
    (h : s.step st dt z = .ok st') : 0 < st'.fx := by
  unfold FxFmmSim.step at h
  by_cases hd : 0 < dt
  · rw [if_pos hd] at h
    obtain ⟨_, -, h⟩ := bind_eq_ok.1 h
    obtain ⟨_, -, h⟩ := bind_eq_ok.1 h
    obtain ⟨_, -, h⟩ := bind_eq_ok.1 h
    obtain ⟨_, -, h⟩ := bind_eq_ok.1 h
    obtain ⟨_, -, h⟩ := bind_eq_ok.1 h
    obtain ⟨_, -, h⟩ := bind_eq_ok.1 h
    obtain ⟨_, -, h⟩ := bind_eq_ok.1 h
    obtain ⟨_, -, h⟩ := bind_eq_ok.1 h
    obtain ⟨_, -, h⟩ := bind_eq_ok.1 h
    obtain ⟨_, -, h⟩ := bind_eq_ok.1 h
    obtain ⟨_, -, h⟩ := bind_eq_ok.1 h
    obtain ⟨_, -, h⟩ := bind_eq_ok.1 h
    cases h
    exact Real.exp_pos _
  · rw [if_neg hd] at h; cases h

/-- The simulator in the new unit draws as many normals. -/
theorem fxfmm_step_params (s : FxFmmSim) (c dt : ℝ) (st : FxFmmState) (z : Fin s.size → ℝ) :
    FxFmmSim.step { s with params := s.params.inUnit c } st dt z = s.step st dt z := rfl

theorem fxfmm_pathLoop_unit (hc : 0 < c) (s : FxFmmSim) (dt : ℝ) (draws : ℕ → Fin s.size → ℝ)
    (n : ℕ) :
    ∀ k (st : FxFmmState), 0 < st.fx →
      FxFmmSim.pathLoop { s with params := s.params.inUnit c } dt draws n k (st.inUnit c) =
        FxFmmState.inUnit c <$> s.pathLoop dt draws n k st := by
  induction n with
  | zero => intro k st _; rfl
  | succ n ih =>
    intro k st hs
    show (FxFmmSim.step { s with params := s.params.inUnit c } (st.inUnit c) dt (draws k) >>=
        fun st' => FxFmmSim.pathLoop { s with params := s.params.inUnit c } dt draws n (k + 1) st') =
      FxFmmState.inUnit c <$> (s.step st dt (draws k) >>= fun st' =>
        s.pathLoop dt draws n (k + 1) st')
    rw [map_bind_outcome]
    have e := fxfmm_step_params s c dt (st.inUnit c) (draws k)
    refine (congrArg (· >>= _) (e.trans (fxfmm_step_unit hc s hs dt (draws k)))).trans ?_
    cases hst : s.step st dt (draws k) with
    | fail e => rfl
    | panic => rfl
    | ok st' => exact ih (k + 1) st' (fxfmm_step_pos s hst)

theorem fxfmm_initial_unit (p : FmmParams) (c : ℝ) :
    FxFmmState.initial (p.inUnit c) = FxFmmState.inUnit c <$> FxFmmState.initial p := by
  unfold FxFmmState.initial
  have et : (p.inUnit c).tenor = p.tenor := rfl
  rw [et]
  cases unwrap p.tenor.rates[0]? <;> rfl

theorem fxfmm_initial_fx {p : FmmParams} {st : FxFmmState} (h : FxFmmState.initial p = .ok st) :
    st.fx = p.fx0 := by
  unfold FxFmmState.initial at h
  obtain ⟨_, -, h⟩ := bind_eq_ok.1 h
  cases h; rfl

theorem fxfmm_pathsLoop_unit (hc : 0 < c) (s : FxFmmSim) (hp : 0 < s.params.fx0) (dt : ℝ) (m : ℕ)
    (draws : ℕ → Fin s.size → ℝ) (n : ℕ) :
    ∀ k, FxFmmSim.pathsLoop { s with params := s.params.inUnit c } dt m draws n k =
        List.map (FxFmmState.inUnit c) <$> s.pathsLoop dt m draws n k := by
  induction n with
  | zero => intro k; rfl
  | succ n ih =>
    intro k
    show (FxFmmState.initial (s.params.inUnit c) >>= fun st =>
        FxFmmSim.pathLoop { s with params := s.params.inUnit c } dt draws m k st >>= fun st' =>
        FxFmmSim.pathsLoop { s with params := s.params.inUnit c } dt m draws n (k + m) >>=
        fun rest => .ok (st' :: rest)) =
      List.map (FxFmmState.inUnit c) <$> (FxFmmState.initial s.params >>= fun st =>
        s.pathLoop dt draws m k st >>= fun st' => s.pathsLoop dt m draws n (k + m) >>=
        fun rest => .ok (st' :: rest))
    rw [ih, fxfmm_initial_unit]
    cases h0 : FxFmmState.initial s.params with
    | fail e => rfl
    | panic => rfl
    | ok st =>
      rw [map_ok, ok_bind, ok_bind,
        fxfmm_pathLoop_unit hc s dt draws m k st (by rw [fxfmm_initial_fx h0]; exact hp)]
      cases s.pathLoop dt draws m k st with
      | fail e => rfl
      | panic => rfl
      | ok st' => cases s.pathsLoop dt m draws n (k + m) <;> rfl

theorem fxfmm_simulate_unit (hc : 0 < c) (s : FxFmmSim) (hp : 0 < s.params.fx0)
    (draws : ℕ → Fin s.size → ℝ) (T : ℝ) (m n : ℕ) :
    FxFmmSim.simulateTerminal { s with params := s.params.inUnit c } draws T m n =
      List.map (FxFmmState.inUnit c) <$> s.simulateTerminal draws T m n := by
  unfold FxFmmSim.simulateTerminal
  by_cases h : 0 < T ∧ 0 < m ∧ 0 < n
  · rw [if_pos h, if_pos h]; exact fxfmm_pathsLoop_unit hc s hp _ m draws n 0
  · rw [if_neg h, if_neg h]; rfl

/-! ## SABR -/

theorem sabr_forward_unit (hc : 0 < c) (beta f a w : ℝ) :
    max (max (c * f) 0 + max (c ^ (1 - beta) * a) 0 * max (c * f) 0 ^ beta * w) 0 =
      c * max (max f 0 + max a 0 * max f 0 ^ beta * w) 0 := by
  have hm : ∀ {x : ℝ}, 0 < x → ∀ y : ℝ, max (x * y) 0 = x * max y 0 := by
    intro x hx y; rw [mul_max_of_nonneg _ _ hx.le, mul_zero]
  have hg : 0 < c ^ (1 - beta) := Real.rpow_pos_of_pos hc _
  rw [hm hc f, hm hg, Real.mul_rpow hc.le (le_max_right f 0), ← hm hc (_ + _)]
  congr 1
  have e : c ^ (1 - beta) * c ^ beta = c := by
    rw [← Real.rpow_add hc]; simp
  have : c ^ (1 - beta) * max a 0 * (c ^ beta * max f 0 ^ beta) * w =
      c ^ (1 - beta) * c ^ beta * (max a 0 * max f 0 ^ beta * w) := by ring
  rw [this, e]; ring

theorem sabr_vol_unit (hc : 0 < c) (beta a e : ℝ) :
    max (c ^ (1 - beta) * a) 0 * e = c ^ (1 - beta) * (max a 0 * e) := by
  have hg : 0 < c ^ (1 - beta) := Real.rpow_pos_of_pos hc _
  have : max (c ^ (1 - beta) * a) 0 = c ^ (1 - beta) * max a 0 := by
    rw [mul_max_of_nonneg _ _ hg.le, mul_zero]
  rw [this, mul_assoc]

theorem sabr_step_unit (hc : 0 < c) (p : Sabr) (s : SabrState) (dt z1 z2 : ℝ) :
    (p.inUnit c).step (s.inUnit p.beta c) dt z1 z2 =
      SabrState.inUnit p.beta c <$> p.step s dt z1 z2 := by
  unfold Sabr.step
  by_cases h : 0 < dt
  · rw [if_pos h, if_pos h, map_ok]
    unfold SabrState.inUnit Sabr.inUnit
    dsimp only
    rw [sabr_forward_unit hc, sabr_vol_unit hc]
  · rw [if_neg h, if_neg h]; rfl

theorem sabr_pathLoop_unit (hc : 0 < c) (p : Sabr) (dt : ℝ) (draws : ℕ → Fin 2 → ℝ) (n : ℕ) :
    ∀ k (s : SabrState), (p.inUnit c).pathLoop dt draws n k (s.inUnit p.beta c) =
      SabrState.inUnit p.beta c <$> p.pathLoop dt draws n k s := by
  induction n with
  | zero => intro k s; rfl
  | succ n ih =>
    intro k s
    rw [Sabr.pathLoop, Sabr.pathLoop, sabr_step_unit hc]
    cases p.step s dt (draws k 0) (draws k 1) with
    | fail e => rfl
    | panic => rfl
    | ok s' => exact ih (k + 1) s'

theorem sabr_pathsLoop_unit (hc : 0 < c) (p : Sabr) (f dt : ℝ) (m : ℕ) (draws : ℕ → Fin 2 → ℝ)
    (n : ℕ) :
    ∀ k, (p.inUnit c).pathsLoop (c * f) dt m draws n k =
      List.map (SabrState.inUnit p.beta c) <$> p.pathsLoop f dt m draws n k := by
  induction n with
  | zero => intro k; rfl
  | succ n ih =>
    intro k
    have e : (p.inUnit c).initial (c * f) = (p.initial f).inUnit p.beta c := rfl
    rw [Sabr.pathsLoop, Sabr.pathsLoop, ih, e, sabr_pathLoop_unit hc]
    cases p.pathLoop dt draws m k (p.initial f) with
    | fail e => rfl
    | panic => rfl
    | ok s => cases p.pathsLoop f dt m draws n (k + m) <;> rfl

theorem sabr_simulate_unit (hc : 0 < c) (p : Sabr) (f : ℝ) (draws : ℕ → Fin 2 → ℝ) (T : ℝ)
    (m n : ℕ) :
    (p.inUnit c).simulate (c * f) draws T m n =
      List.map (SabrState.inUnit p.beta c) <$> p.simulate f draws T m n := by
  unfold Sabr.simulate
  by_cases h : 0 < m ∧ 0 < n ∧ 0 < T
  · rw [if_pos h, if_pos h]; exact sabr_pathsLoop_unit hc p f _ m draws n 0
  · rw [if_neg h, if_neg h]; rfl

/-! ## Time-dependent SABR -/

theorem scan_unit (g t last : ℝ) (ks : List ℝ) :
    ∀ vs : List ℝ, PieceConst.scan t (g * last) ks (vs.map (g * ·)) =
      g * PieceConst.scan t last ks vs := by
  induction ks with
  | nil => intro vs; rfl
  | cons k ks ih =>
    intro vs
    cases vs with
    | nil => rfl
    | cons v vs =>
      rw [List.map_cons, PieceConst.scan, PieceConst.scan]
      by_cases h : t ≤ k + 1 / 10 ^ 15
      · rw [if_pos h, if_pos h]
      · rw [if_neg h, if_neg h, ih]

theorem headD_unit (g : ℝ) (l : List ℝ) : (l.map (g * ·)).headD 0 = g * l.headD 0 := by
  cases l <;> simp

theorem getLastD_unit (g : ℝ) (l : List ℝ) : (l.map (g * ·)).getLastD 0 = g * l.getLastD 0 := by
  rw [List.getLastD_eq_getLast?, List.getLastD_eq_getLast?, List.getLast?_map]
  cases l.getLast? <;> simp

theorem at_unit (g : ℝ) (p : PieceConst) (t : ℝ) :
    PieceConst.at { p with values := p.values.map (g * ·) } t = (g * ·) <$> p.at t := by
  unfold PieceConst.at
  have ef : PieceConst.finalTime { p with values := p.values.map (g * ·) } = p.finalTime := rfl
  rw [ef]
  by_cases h : 0 ≤ t ∧ t ≤ p.finalTime + 1 / 10 ^ 15
  · rw [if_pos h, if_pos h]
    dsimp only
    by_cases h2 : t ≤ p.knots.headD 0
    · rw [if_pos h2, if_pos h2, headD_unit]; rfl
    · rw [if_neg h2, if_neg h2, getLastD_unit, scan_unit]; rfl
  · rw [if_neg h, if_neg h]; rfl

theorem td_step_unit (hc : 0 < c) (p : TdSabr) (s : SabrState) (t dt : ℝ) (z : Fin 2 → ℝ) :
    (p.inUnit c).step (s.inUnit p.beta c) t dt z =
      (fun r => (SabrState.inUnit p.beta c r.1, r.2)) <$> p.step s t dt z := by
  unfold TdSabr.step
  by_cases h : 0 < dt
  · rw [if_pos h, if_pos h]
    unfold TdSabr.at
    have ea : (p.inUnit c).alpha.at t = (c ^ (1 - p.beta) * ·) <$> p.alpha.at t := at_unit _ _ _
    have er : (p.inUnit c).rho = p.rho := rfl
    have en : (p.inUnit c).nu = p.nu := rfl
    have eb : (p.inUnit c).beta = p.beta := rfl
    rw [ea, er, en, eb]
    cases p.alpha.at t with
    | fail e => rfl
    | panic => rfl
    | ok a =>
      cases p.rho.at t with
      | fail e => rfl
      | panic => rfl
      | ok r =>
        cases p.nu.at t with
        | fail e => rfl
        | panic => rfl
        | ok n =>
          simp only [map_ok, ok_bind]
          unfold SabrState.inUnit
          dsimp only
          rw [sabr_forward_unit hc, sabr_vol_unit hc]
  · rw [if_neg h, if_neg h]; rfl

theorem td_pathLoop_unit (hc : 0 < c) (p : TdSabr) (dt : ℝ) (draws : ℕ → Fin 2 → ℝ) (n : ℕ) :
    ∀ k t (s : SabrState), (p.inUnit c).pathLoop dt draws n k t (s.inUnit p.beta c) =
      SabrState.inUnit p.beta c <$> p.pathLoop dt draws n k t s := by
  induction n with
  | zero => intro k t s; rfl
  | succ n ih =>
    intro k t s
    rw [TdSabr.pathLoop, TdSabr.pathLoop, td_step_unit hc]
    cases p.step s (t + 0.5 * dt) dt (draws k) with
    | fail e => rfl
    | panic => rfl
    | ok s' => exact ih (k + 1) (t + dt) s'.1

theorem td_pathsLoop_unit (hc : 0 < c) (p : TdSabr) (dt a : ℝ) (m : ℕ) (draws : ℕ → Fin 2 → ℝ)
    (n : ℕ) :
    ∀ k, (p.inUnit c).pathsLoop dt (c ^ (1 - p.beta) * a) m draws n k =
      List.map (SabrState.inUnit p.beta c) <$> p.pathsLoop dt a m draws n k := by
  induction n with
  | zero => intro k; rfl
  | succ n ih =>
    intro k
    have e : (⟨(p.inUnit c).forward0, c ^ (1 - p.beta) * a⟩ : SabrState) =
      SabrState.inUnit p.beta c ⟨p.forward0, a⟩ := rfl
    rw [TdSabr.pathsLoop, TdSabr.pathsLoop, ih, e, td_pathLoop_unit hc]
    cases p.pathLoop dt draws m k 0 ⟨p.forward0, a⟩ with
    | fail e => rfl
    | panic => rfl
    | ok s => cases p.pathsLoop dt a m draws n (k + m) <;> rfl

theorem td_simulate_unit (hc : 0 < c) (p : TdSabr) (draws : ℕ → Fin 2 → ℝ) (T : ℝ) (m n : ℕ) :
    (p.inUnit c).simulate draws T m n =
      List.map (SabrState.inUnit p.beta c) <$> p.simulate draws T m n := by
  unfold TdSabr.simulate
  by_cases h : 0 < m ∧ 0 < n ∧ 0 < T
  · rw [if_pos h, if_pos h]
    have ea : (p.inUnit c).alpha.at 0 = (c ^ (1 - p.beta) * ·) <$> p.alpha.at 0 := at_unit _ _ _
    rw [ea]
    cases p.alpha.at 0 with
    | fail e => rfl
    | panic => rfl
    | ok a => exact td_pathsLoop_unit hc p _ a m draws n 0
  · rw [if_neg h, if_neg h]; rfl

end Verif
