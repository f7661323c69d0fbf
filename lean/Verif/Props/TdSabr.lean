import Verif.Lemmas.TdSabrPath
import Verif.Props.Sabr
import Mathlib.Data.List.GetD

/-!
# C70: the time-dependent SABR simulator

Expectations are integrals over independent standard normal draws.
-/

namespace Verif

open MeasureTheory ProbabilityTheory Outcome

/-- The parameters that the documentation of the constructor asks for. -/
structure TdSabr.Admissible (p : TdSabr) : Prop where
  rhoKnots : p.alpha.knots = p.rho.knots
  nuKnots : p.alpha.knots = p.nu.knots
  beta0 : 0 ≤ p.beta
  beta1 : p.beta ≤ 1
  forward : 0 < p.forward0
  alpha : ∀ a ∈ p.alpha.values, 0 < a
  nu : ∀ n ∈ p.nu.values, 0 ≤ n
  rho : ∀ r ∈ p.rho.values, -1 < r ∧ r < 1

/-- The parameters are admissible and their schedules describe the functions `α`, `ρ`, `ν`. -/
structure TdSabr.Describes (p : TdSabr) (α ρ ν : ℝ → ℝ) : Prop extends p.Admissible where
  alphaFn : IsSchedule p.alpha.knots p.alpha.values α
  rhoFn : IsSchedule p.rho.knots p.rho.values ρ
  nuFn : IsSchedule p.nu.knots p.nu.values ν

theorem TdSabr.Admissible.final_rho {p : TdSabr} (h : p.Admissible) :
    p.rho.finalTime = p.alpha.finalTime := by rw [PieceConst.finalTime, ← h.rhoKnots]; rfl

theorem TdSabr.Admissible.final_nu {p : TdSabr} (h : p.Admissible) :
    p.nu.finalTime = p.alpha.finalTime := by rw [PieceConst.finalTime, ← h.nuKnots]; rfl

/-- **C70**: the constructor accepts exactly schedules on one set of knots, a `β` in `[0, 1]`, a
positive forward, positive `α`, non-negative `ν` and `ρ` strictly between `-1` and `1` on every
segment, and stores what it is given; everything else panics. -/
theorem C70_new (a r n : PieceConst) (b f : ℝ) :
    (TdSabr.new a r n b f = .ok ⟨a, r, n, b, f⟩ ↔ (⟨a, r, n, b, f⟩ : TdSabr).Admissible)
    ∧ (TdSabr.new a r n b f = .panic ↔ ¬ (⟨a, r, n, b, f⟩ : TdSabr).Admissible) := by
  have h : (⟨a, r, n, b, f⟩ : TdSabr).Admissible ↔
      a.knots = r.knots ∧ a.knots = n.knots ∧ (0 ≤ b ∧ b ≤ 1) ∧ 0 < f ∧ (∀ x ∈ a.values, 0 < x)
        ∧ (∀ x ∈ n.values, 0 ≤ x) ∧ ∀ x ∈ r.values, -1 < x ∧ x < 1 :=
    ⟨fun h => ⟨h.1, h.2, ⟨h.3, h.4⟩, h.5, h.6, h.7, h.8⟩,
      fun h => ⟨h.1, h.2.1, h.2.2.1.1, h.2.2.1.2, h.2.2.2.1, h.2.2.2.2.1, h.2.2.2.2.2.1,
        h.2.2.2.2.2.2⟩⟩
  rw [h]
  unfold TdSabr.new
  by_cases h1 : a.knots = r.knots
  swap; · rw [if_neg h1]; simp [h1]
  by_cases h2 : a.knots = n.knots
  swap; · rw [if_pos h1, if_neg h2]; simp [h2]
  by_cases h3 : 0 ≤ b ∧ b ≤ 1
  swap; · rw [if_pos h1, if_pos h2, if_neg h3]; simp only [h3]; simp
  by_cases h4 : 0 < f
  swap; · rw [if_pos h1, if_pos h2, if_pos h3, if_neg h4]; simp only [h4]; simp
  by_cases h5 : ∀ x ∈ a.values, 0 < x
  swap; · rw [if_pos h1, if_pos h2, if_pos h3, if_pos h4, if_neg h5]; simp only [h5]; simp
  by_cases h6 : ∀ x ∈ n.values, 0 ≤ x
  swap; · rw [if_pos h1, if_pos h2, if_pos h3, if_pos h4, if_pos h5, if_neg h6]; simp only [h6]; simp
  by_cases h7 : ∀ x ∈ r.values, -1 < x ∧ x < 1
  swap
  · rw [if_pos h1, if_pos h2, if_pos h3, if_pos h4, if_pos h5, if_pos h6, if_neg h7]
    simp only [h7]; simp
  rw [if_pos h1, if_pos h2, if_pos h3, if_pos h4, if_pos h5, if_pos h6, if_pos h7]
  exact ⟨⟨fun _ => ⟨h1, h2, h3, h4, h5, h6, h7⟩, fun _ => rfl⟩,
    ⟨fun h => (nomatch h), fun h => absurd ⟨h1, h2, h3, h4, h5, h6, h7⟩ h⟩⟩

/-- **C70**: the snapshot at a time inside the schedule and away from its knots has the values of
the three functions, and it is admissible for the constant-parameter model; a time before zero or
after the last knot panics. -/
theorem C70_at {p : TdSabr} {α ρ ν : ℝ → ℝ} (h : p.Describes α ρ ν) (t : ℝ) :
    (0 < t → t < p.horizon → (∀ k ∈ p.alpha.knots, ¬ (k ≤ t ∧ t ≤ k + 1 / 10 ^ 15)) →
      p.at t = .ok ⟨α t, p.beta, ρ t, ν t⟩ ∧ (⟨α t, p.beta, ρ t, ν t⟩ : Sabr).Admissible)
    ∧ (t < 0 ∨ p.horizon + 1 / 10 ^ 15 < t → p.at t = .panic) := by
  constructor
  · intro h0 h1 hk
    have hfr := h.final_rho
    have hfn := h.final_nu
    rw [TdSabr.horizon] at h1
    have hs : (0 : ℝ) < 1 / 10 ^ 15 := by norm_num
    have ea := pcRead_schedule h.alphaFn h0 h1 hk
    have er := pcRead_schedule h.rhoFn h0 (by rw [hfr]; exact h1) (by rw [← h.rhoKnots]; exact hk)
    have en := pcRead_schedule h.nuFn h0 (by rw [hfn]; exact h1) (by rw [← h.nuKnots]; exact hk)
    have hpos : 0 < p.alpha.finalTime := h0.trans h1
    have ma := pcRead_mem p.alpha (isSchedule_values_ne h.alphaFn hpos) t
    have mr := pcRead_mem p.rho (isSchedule_values_ne h.rhoFn (by rw [hfr]; exact hpos)) t
    have mn := pcRead_mem p.nu (isSchedule_values_ne h.nuFn (by rw [hfn]; exact hpos)) t
    refine ⟨?_, ?_⟩
    · rw [tdSabr_at h0.le (by linarith) hfr hfn, ea, er, en]
    · rw [← ea, ← er, ← en]
      exact ⟨h.alpha _ ma, h.beta0, h.beta1, (h.rho _ mr).1, (h.rho _ mr).2, h.nu _ mn⟩
  · intro hout
    rw [TdSabr.at, at_panic]
    · rfl
    · rintro ⟨h1, h2⟩
      rcases hout with h | h
      · linarith
      · rw [TdSabr.horizon] at h; linarith

/-- **C70**: the increments returned by a step are centred normal combinations with variance `dt`
each and covariance `ρ dt`. -/
theorem C70_noise {p : TdSabr} {t dt : ℝ} {q : Sabr} (hq : p.at t = .ok q) (hr : |q.rho| ≤ 1)
    (hdt : 0 < dt) (s : SabrState) :
    ∃ dw db : (Fin 2 → ℝ) → ℝ, (∀ z, ∃ s', p.step s t dt z = .ok (s', dw z, db z))
      ∧ ∫ z, dw z ∂stdNormal 2 = 0 ∧ ∫ z, db z ∂stdNormal 2 = 0
      ∧ ∫ z, dw z * dw z ∂stdNormal 2 = dt ∧ ∫ z, db z * db z ∂stdNormal 2 = dt
      ∧ ∫ z, dw z * db z ∂stdNormal 2 = q.rho * dt := by
  have hs : √dt * √dt = dt := Real.mul_self_sqrt hdt.le
  have h1 : √(1 - q.rho * q.rho) * √(1 - q.rho * q.rho) = 1 - q.rho * q.rho := by
    rw [abs_le] at hr
    exact Real.mul_self_sqrt (by nlinarith)
  have e1 : (fun z : Fin 2 → ℝ => √dt * z 0) = fun z => ∑ i, ![√dt, 0] i * z i := by
    funext z; simp [Fin.sum_univ_two]
  have e2 : (fun z : Fin 2 → ℝ => √dt * (q.rho * z 0 + √(1 - q.rho * q.rho) * z 1))
      = fun z => ∑ i, ![√dt * q.rho, √dt * √(1 - q.rho * q.rho)] i * z i := by
    funext z; simp [Fin.sum_univ_two]; ring
  refine ⟨fun z => √dt * z 0, fun z => √dt * (q.rho * z 0 + √(1 - q.rho * q.rho) * z 1), fun z => ?_,
    ?_, ?_, ?_, ?_, ?_⟩
  · rw [TdSabr.step, if_pos hdt, hq, ok_bind]
    exact ⟨_, rfl⟩
  · rw [e1]; exact (std_linear ![√dt, 0]).2
  · rw [e2]; exact (std_linear ![√dt * q.rho, √dt * √(1 - q.rho * q.rho)]).2
  · simp_rw [funext_iff] at e1
    simp_rw [e1]
    refine (std_linear_cov ![√dt, 0] ![√dt, 0]).2.trans ?_
    simp [Fin.sum_univ_two, hs]
  · simp_rw [funext_iff] at e2
    simp_rw [e2]
    refine (std_linear_cov ![√dt * q.rho, √dt * √(1 - q.rho * q.rho)]
      ![√dt * q.rho, √dt * √(1 - q.rho * q.rho)]).2.trans ?_
    simp only [Fin.sum_univ_two, Matrix.cons_val_zero, Matrix.cons_val_one]
    calc _ = √dt * √dt * (q.rho * q.rho + √(1 - q.rho * q.rho) * √(1 - q.rho * q.rho)) := by ring
      _ = dt := by rw [hs, h1]; ring
  · simp_rw [funext_iff] at e1 e2
    simp_rw [e1, e2]
    refine (std_linear_cov ![√dt, 0] ![√dt * q.rho, √dt * √(1 - q.rho * q.rho)]).2.trans ?_
    simp only [Fin.sum_univ_two, Matrix.cons_val_zero, Matrix.cons_val_one]
    calc _ = √dt * √dt * q.rho := by ring
      _ = q.rho * dt := by rw [hs]; ring

/-- **C70**: `simulate` succeeds exactly when there is something to simulate and the middle of the
last step lies within the schedule; otherwise it panics. -/
theorem C70_range {p : TdSabr} (h : p.Admissible) (hh : 0 ≤ p.horizon) (hv : p.alpha.values ≠ [])
    (draws : ℕ → Fin 2 → ℝ) (T : ℝ) (nSteps nPaths : ℕ) :
    ((∃ l, p.simulate draws T nSteps nPaths = .ok l) ↔ 0 < nSteps ∧ 0 < nPaths ∧ 0 < T
      ∧ T - T / nSteps / 2 ≤ p.horizon + 1 / 10 ^ 15)
    ∧ ((∃ l, p.simulate draws T nSteps nPaths = .ok l)
      ∨ p.simulate draws T nSteps nPaths = .panic) := by
  have hs : (0 : ℝ) < 1 / 10 ^ 15 := by norm_num
  by_cases hc : 0 < nSteps ∧ 0 < nPaths ∧ 0 < T
  swap
  · rw [TdSabr.simulate, if_neg hc]
    exact ⟨⟨fun ⟨_, hl⟩ => (nomatch hl), fun h => absurd ⟨h.1, h.2.1, h.2.2.1⟩ hc⟩, Or.inr rfl⟩
  have hn : (0 : ℝ) < nSteps := Nat.cast_pos.2 hc.1
  have hdt : 0 < T / nSteps := div_pos hc.2.2 hn
  have ha := at_pcRead p.alpha le_rfl (by rw [TdSabr.horizon] at hh; linarith)
  have ha0 : 0 < pcRead p.alpha 0 := h.alpha _ (pcRead_mem p.alpha hv 0)
  have e : T - T / nSteps / 2 = ((nSteps : ℝ) - 1 / 2) * (T / nSteps) := by field_simp
  rw [e, TdSabr.horizon]
  by_cases hin : ((nSteps : ℝ) - 1 / 2) * (T / nSteps) ≤ p.alpha.finalTime + 1 / 10 ^ 15
  · have hok := tdSabr_pathsLoop p hdt ha0.le h.forward.le h.final_rho h.final_nu draws nSteps hin
      nPaths 0
    have : ∃ l, p.simulate draws T nSteps nPaths = .ok l := by
      rw [TdSabr.simulate, if_pos hc, ha, ok_bind, hok]
      exact ⟨_, rfl⟩
    exact ⟨⟨fun _ => ⟨hc.1, hc.2.1, hc.2.2, hin⟩, fun _ => this⟩, Or.inl this⟩
  · have hp : p.simulate draws T nSteps nPaths = .panic := by
      rw [TdSabr.simulate, if_pos hc, ha, ok_bind]
      obtain ⟨m, rfl⟩ := Nat.exists_eq_succ_of_ne_zero hc.2.1.ne'
      have := (tdSabr_pathLoop p hdt ha0.le h.forward.le h.final_rho h.final_nu draws nSteps 0 0
        ⟨p.forward0, pcRead p.alpha 0⟩ (p.forward0, 1) rfl le_rfl (by simp)).2 hc.1
        (by push_cast; rw [zero_add]; exact not_le.1 hin)
      rw [Nat.cast_zero, zero_mul] at this
      rw [TdSabr.pathsLoop, this]
      rfl
    rw [hp]
    exact ⟨⟨fun ⟨_, hl⟩ => (nomatch hl), fun h => absurd h.2.2.2 hin⟩, Or.inr rfl⟩

/-- No midpoint of the grid with `n` steps on `[0, T]` falls on a knot or just after one. -/
def OffKnots (ks : List ℝ) (T : ℝ) (n : ℕ) : Prop :=
  ∀ j < n, ∀ k ∈ ks, ¬ (k ≤ ((j : ℝ) + 1 / 2) * (T / n) ∧ ((j : ℝ) + 1 / 2) * (T / n) ≤ k + 1 / 10 ^ 15)

theorem mid_lt {T : ℝ} (hT : 0 < T) {n j : ℕ} (hj : j < n) :
    0 < ((j : ℝ) + 1 / 2) * (T / n) ∧ ((j : ℝ) + 1 / 2) * (T / n) < T := by
  have hn : (0 : ℝ) < n := by exact_mod_cast (by omega : 0 < n)
  refine ⟨mul_pos (by positivity) (div_pos hT hn), ?_⟩
  have h1 : (j : ℝ) + 1 / 2 < n := by
    have : (j : ℝ) + 1 ≤ n := by exact_mod_cast hj
    linarith
  calc ((j : ℝ) + 1 / 2) * (T / n) < n * (T / n) := mul_lt_mul_of_pos_right h1 (div_pos hT hn)
    _ = T := by field_simp

theorem pcRead_zero (p : PieceConst) {f : ℝ → ℝ} (h : IsSchedule p.knots p.values f) :
    pcRead p 0 = p.values.headD 0 := by
  rw [pcRead, if_pos]
  obtain ⟨hh, -⟩ := h
  cases hk : p.knots with
  | nil => simp
  | cons a l => rw [hk] at hh; simp at hh; simp [hh]

/-- **C70, partial**: up to the horizon the paths are the discretised SABR model with the
correlation and the vol-of-vol of the middle of each step, but with the volatility scale frozen at
its first value: path `i` is driven by its own block of draws, its forward is non-negative and its
volatility positive.  Missing from the claim: the volatility scale `α(t)` after the first segment,
see `C70_alpha_false`. -/
theorem C70_simulate_partial {p : TdSabr} {α ρ ν : ℝ → ℝ} (h : p.Describes α ρ ν) {T : ℝ} {n : ℕ}
    (hn : 0 < n) (hT : 0 < T) (hH : T ≤ p.horizon) (hoff : OffKnots p.alpha.knots T n)
    {nPaths : ℕ} (hp : 0 < nPaths) (draws : ℕ → Fin 2 → ℝ) :
    ∃ l a0, p.simulate draws T n nPaths = .ok l ∧ l.length = nPaths
      ∧ p.alpha.values.head? = some a0
      ∧ (∀ i < nPaths, ∀ x, x = chain (sabrScheme (fun _ => a0) (atMid ρ T n) (atMid ν T n)
          (fun _ => T / n) p.beta) n (p.forward0, 1) (fun j => draws (i * n + j)) →
          l[i]? = some ⟨x.1, a0 * x.2⟩)
      ∧ ∀ s ∈ l, 0 ≤ s.forward ∧ 0 < s.vol := by
  have hs : (0 : ℝ) < 1 / 10 ^ 15 := by norm_num
  have hnr : (0 : ℝ) < n := Nat.cast_pos.2 hn
  have hdt : 0 < T / n := div_pos hT hnr
  have hpos : 0 < p.alpha.finalTime := hT.trans_le hH
  have hv := isSchedule_values_ne h.alphaFn hpos
  have ha := at_pcRead p.alpha le_rfl (by linarith)
  have ha0 : 0 < pcRead p.alpha 0 := h.alpha _ (pcRead_mem p.alpha hv 0)
  have hin : ((n : ℝ) - 1 / 2) * (T / n) ≤ p.alpha.finalTime + 1 / 10 ^ 15 := by
    have : ((n : ℝ) - 1 / 2) * (T / n) = T - T / n / 2 := by field_simp
    rw [TdSabr.horizon] at hH
    rw [this]; linarith
  have hok := tdSabr_pathsLoop p hdt ha0.le h.forward.le h.final_rho h.final_nu draws n hin nPaths 0
  have hsim : p.simulate draws T n nPaths = p.pathsLoop (T / n) (pcRead p.alpha 0) n draws nPaths 0 := by
    rw [TdSabr.simulate, if_pos ⟨hn, hp, hT⟩, ha, ok_bind]
  have hchain : ∀ z : ℕ → Fin 2 → ℝ, chain (tdChain p (pcRead p.alpha 0) (T / n)) n (p.forward0, 1) z
      = chain (sabrScheme (fun _ => pcRead p.alpha 0) (atMid ρ T n) (atMid ν T n)
          (fun _ => T / n) p.beta) n (p.forward0, 1) z := by
    intro z
    refine chain_congr_step _ _ n fun j hj => ?_
    obtain ⟨m0, m1⟩ := mid_lt hT hj
    have er := pcRead_schedule h.rhoFn m0 (by rw [h.final_rho]; exact m1.trans_le hH)
      (by rw [← h.rhoKnots]; exact hoff j hj)
    have en := pcRead_schedule h.nuFn m0 (by rw [h.final_nu]; exact m1.trans_le hH)
      (by rw [← h.nuKnots]; exact hoff j hj)
    funext s w
    simp only [tdChain, sabrScheme, atMid, er, en]
  rw [hsim, hok]
  refine ⟨_, pcRead p.alpha 0, rfl, by simp, ?_, ?_, ?_⟩
  · rw [pcRead_zero _ h.alphaFn]
    obtain ⟨a, l, e⟩ := List.exists_cons_of_ne_nil hv
    rw [e]; rfl
  · intro i hi x hx
    rw [List.getElem?_map, List.getElem?_range hi, Option.map_some, Nat.zero_add, hchain, ← hx]
  · intro s hs
    obtain ⟨i, -, rfl⟩ := List.mem_map.1 hs
    have hg := chain_inv (tdChain p (pcRead p.alpha 0) (T / n)) SabrGood (sabrScheme_good _ _ _ _ _)
      (s := (p.forward0, 1)) ⟨h.forward.le, one_pos⟩ (fun j => draws (0 + i * n + j)) n
    exact ⟨hg.1, mul_pos ha0 hg.2⟩

/-- **C70**: with a constant volatility scale the paths are those of the discretised model. -/
theorem C70_constant_alpha {p : TdSabr} {ρ ν : ℝ → ℝ} {a : ℝ} (h : p.Describes (fun _ => a) ρ ν)
    {T : ℝ} {n : ℕ} (hn : 0 < n) (hT : 0 < T) (hH : T ≤ p.horizon)
    (hoff : OffKnots p.alpha.knots T n) {nPaths : ℕ} (hp : 0 < nPaths) (draws : ℕ → Fin 2 → ℝ) :
    ∃ l, p.simulate draws T n nPaths = .ok l ∧ l.length = nPaths
      ∧ ∀ i < nPaths, ∀ x, x = chain (sabrScheme (atMid (fun _ => a) T n) (atMid ρ T n) (atMid ν T n)
          (fun _ => T / n) p.beta) n (p.forward0, 1) (fun j => draws (i * n + j)) →
          l[i]? = some ⟨x.1, a * x.2⟩ := by
  obtain ⟨l, a0, h1, h2, h3, h4, -⟩ := C70_simulate_partial h hn hT hH hoff hp draws
  have : a0 = a := by
    obtain ⟨hh, hc, hl, hst⟩ := h.alphaFn
    have hpos : 0 < p.alpha.finalTime := hT.trans_le hH
    revert hc hl hst h3
    generalize p.alpha.knots = ks
    generalize p.alpha.values = vs
    intro h3 hc hl hst
    match ks, vs, h3, hl with
    | [], vs, _, hl => simp at hl
    | [_], v :: vs, _, hl => simp at hl
    | x :: y :: ks, v :: vs, h3, hl =>
      simp only [List.head?_cons, Option.some.injEq] at h3
      have hxy := (List.isChain_cons_cons.1 hc).1
      have := hst.1 ((x + y) / 2) (by linarith) (by linarith)
      rw [← h3, ← this]
  subst this
  exact ⟨l, h1, h2, h4⟩

/-- **C70, refuted**: the volatility scale after the first segment has no effect.  Two parameter
sets that differ only in later values of `α` give the same paths for all draws; and with `α` going
from 1 to 2 (`ν = 0`, `β = 0`, steps of one year) the forward moves by `1 + 1` instead of
`1 + 2`. -/
theorem C70_alpha_false :
    (∀ (p : TdSabr) (vs : List ℝ) (draws : ℕ → Fin 2 → ℝ) (T : ℝ) (n m : ℕ),
      p.alpha.knots.head? = some 0 → vs.head? = p.alpha.values.head? →
      ({ p with alpha := ⟨p.alpha.knots, vs⟩ } : TdSabr).simulate draws T n m
        = p.simulate draws T n m)
    ∧ ∃ (p : TdSabr) (α ρ ν : ℝ → ℝ) (draws : ℕ → Fin 2 → ℝ) (s : SabrState),
      p.Describes α ρ ν ∧ OffKnots p.alpha.knots 2 2 ∧ p.simulate draws 2 2 1 = .ok [s]
      ∧ s.forward = 12
      ∧ (chain (sabrScheme (atMid α 2 2) (atMid ρ 2 2) (atMid ν 2 2) (fun _ => 2 / (2 : ℕ)) p.beta) 2
          (p.forward0, 1) draws).1 = 13 := by
  constructor
  · intro p vs draws T n m hk hv
    have hat : ∀ t, (∃ x, PieceConst.at ⟨p.alpha.knots, vs⟩ t = .ok x) ∧ (∃ x, p.alpha.at t = .ok x)
        ∨ PieceConst.at ⟨p.alpha.knots, vs⟩ t = .panic ∧ p.alpha.at t = .panic := by
      intro t
      by_cases hc : 0 ≤ t ∧ t ≤ p.alpha.finalTime + 1 / 10 ^ 15
      · exact Or.inl ⟨⟨_, at_pcRead ⟨p.alpha.knots, vs⟩ hc.1 hc.2⟩, ⟨_, at_pcRead _ hc.1 hc.2⟩⟩
      · exact Or.inr ⟨at_panic ⟨p.alpha.knots, vs⟩ hc, at_panic _ hc⟩
    have hstep : ∀ s t dt z, ({ p with alpha := ⟨p.alpha.knots, vs⟩ } : TdSabr).step s t dt z
        = p.step s t dt z := by
      intro s t dt z
      unfold TdSabr.step TdSabr.at
      by_cases hd : 0 < dt
      · rw [if_pos hd, if_pos hd]
        dsimp only
        rcases hat t with ⟨⟨x, hx⟩, ⟨y, hy⟩⟩ | ⟨hx, hy⟩
        · rw [hx, hy, ok_bind, ok_bind]
          cases p.rho.at t with
          | panic => rfl
          | fail e => rfl
          | ok r =>
            rw [ok_bind, ok_bind]
            cases p.nu.at t with
            | panic => rfl
            | fail e => rfl
            | ok v => rfl
        · rw [hx, hy]
      · rw [if_neg hd, if_neg hd]
    have hpath : ∀ dt n k t s, ({ p with alpha := ⟨p.alpha.knots, vs⟩ } : TdSabr).pathLoop dt draws n k t s
        = p.pathLoop dt draws n k t s := by
      intro dt n
      induction n with
      | zero => intro k t s; rfl
      | succ n ih =>
        intro k t s
        rw [TdSabr.pathLoop, TdSabr.pathLoop, hstep]
        congr 1
        funext r
        exact ih _ _ _
    have hpaths : ∀ dt a m k, ({ p with alpha := ⟨p.alpha.knots, vs⟩ } : TdSabr).pathsLoop dt a n draws m k
        = p.pathsLoop dt a n draws m k := by
      intro dt a m
      induction m with
      | zero => intro k; rfl
      | succ m ih =>
        intro k
        rw [TdSabr.pathsLoop, TdSabr.pathsLoop, hpath]
        congr 1
        funext r
        rw [ih]
    have hz : PieceConst.at ⟨p.alpha.knots, vs⟩ 0 = p.alpha.at 0 := by
      by_cases hc : (0 : ℝ) ≤ 0 ∧ 0 ≤ p.alpha.finalTime + 1 / 10 ^ 15
      · have h0 : (0 : ℝ) ≤ p.alpha.knots.headD 0 := by
          rw [List.headD_eq_head?_getD, hk]; simp
        rw [at_pcRead _ hc.1 hc.2, at_pcRead ⟨p.alpha.knots, vs⟩ hc.1 hc.2, pcRead, pcRead, if_pos h0]
        refine congrArg Outcome.ok (Eq.trans ?_ (if_pos h0).symm)
        simp only [List.headD_eq_head?_getD, hv]
      · rw [at_panic _ hc, at_panic ⟨p.alpha.knots, vs⟩ hc]
    unfold TdSabr.simulate
    dsimp only
    rw [hz]
    split
    · congr 1
      funext a
      exact hpaths _ _ _ _
    · rfl
  · have hoff : OffKnots [0, 1, 2] 2 2 := by
      intro j hj k hk
      have : j = 0 ∨ j = 1 := by omega
      simp only [List.mem_cons, List.not_mem_nil, or_false] at hk
      rcases this with rfl | rfl <;> rcases hk with rfl | rfl | rfl <;> norm_num
    have hd : (⟨⟨[0, 1, 2], [1, 2]⟩, ⟨[0, 1, 2], [0, 0]⟩, ⟨[0, 1, 2], [0, 0]⟩, 0, 10⟩ : TdSabr).Describes
        (fun t => if t < 1 then 1 else 2) (fun _ => 0) (fun _ => 0) := by
      refine ⟨⟨rfl, rfl, ?_, ?_, ?_, ?_, ?_, ?_⟩, ⟨rfl, ?_, rfl, ?_⟩, ⟨rfl, ?_, rfl, ?_⟩,
        ⟨rfl, ?_, rfl, ?_⟩⟩
      all_goals first | norm_num | skip
      · exact ⟨fun t _ h => if_pos h, fun t h _ => if_neg (by linarith), trivial⟩
      · exact ⟨fun t _ h => rfl, fun t h _ => rfl, trivial⟩
      · exact ⟨fun t _ h => rfl, fun t h _ => rfl, trivial⟩
    obtain ⟨l, a0, h1, h2, h3, h4, -⟩ := C70_simulate_partial hd (T := 2) (n := 2) (by norm_num)
      (by norm_num) (by norm_num [TdSabr.horizon, PieceConst.finalTime]) hoff (nPaths := 1) one_pos
      (fun _ => ![1, 0])
    simp only [List.head?_cons, Option.some.injEq] at h3
    subst h3
    have h5 := h4 0 one_pos _ rfl
    match l, h2 with
    | [x], _ =>
      simp only [List.getElem?_cons_zero, Option.some.injEq] at h5
      refine ⟨_, _, _, _, fun _ => ![1, 0], x, hd, hoff, h1, ?_, ?_⟩
      · rw [h5]
        norm_num [chain, sabrScheme, atMid]
      · norm_num [chain, sabrScheme, atMid]

theorem td_flat_step {p : TdSabr} {q : Sabr} {t : ℝ} (h : ∃ a, p.at t = .ok ⟨a, q.beta, q.rho, q.nu⟩)
    (s : SabrState) (dt : ℝ) (z : Fin 2 → ℝ) :
    (∃ s' w, p.step s t dt z = .ok (s', w) ∧ q.step s dt (z 0) (z 1) = .ok s')
    ∨ p.step s t dt z = .panic ∧ q.step s dt (z 0) (z 1) = .panic := by
  obtain ⟨a, h⟩ := h
  unfold TdSabr.step Sabr.step
  by_cases hd : 0 < dt
  · left
    rw [if_pos hd, if_pos hd, h, ok_bind]
    exact ⟨_, _, rfl, rfl⟩
  · right
    rw [if_neg hd, if_neg hd]
    exact ⟨rfl, rfl⟩

/-- **C70**: with flat schedules the simulator is the constant-parameter simulator: the same draws
give the same states, for every number of steps and paths. -/
theorem C70_flat {p : TdSabr} (h : p.Admissible) (hh : 0 ≤ p.horizon) {a r v : ℝ}
    (hane : p.alpha.values ≠ []) (ha : ∀ x ∈ p.alpha.values, x = a)
    (hrne : p.rho.values ≠ []) (hr : ∀ x ∈ p.rho.values, x = r)
    (hvne : p.nu.values ≠ []) (hv : ∀ x ∈ p.nu.values, x = v)
    (draws : ℕ → Fin 2 → ℝ) {T : ℝ} (hT : T ≤ p.horizon) (nSteps nPaths : ℕ) :
    p.simulate draws T nSteps nPaths
      = (⟨a, p.beta, r, v⟩ : Sabr).simulate p.forward0 draws T nSteps nPaths := by
  have hs : (0 : ℝ) < 1 / 10 ^ 15 := by norm_num
  have hat : ∀ t, 0 ≤ t → t ≤ p.horizon → p.at t = .ok ⟨a, p.beta, r, v⟩ := fun t h0 h1 => by
    rw [TdSabr.horizon] at h1
    rw [tdSabr_at h0 (by linarith) h.final_rho h.final_nu, ha _ (pcRead_mem _ hane t),
      hr _ (pcRead_mem _ hrne t), hv _ (pcRead_mem _ hvne t)]
  have ha0 : p.alpha.at 0 = .ok a := by
    rw [at_pcRead p.alpha le_rfl (by rw [TdSabr.horizon] at hh; linarith),
      ha _ (pcRead_mem _ hane 0)]
  unfold TdSabr.simulate Sabr.simulate
  by_cases hc : 0 < nSteps ∧ 0 < nPaths ∧ 0 < T
  swap; · rw [if_neg hc, if_neg hc]
  rw [if_pos hc, if_pos hc, ha0, ok_bind]
  have hn : (0 : ℝ) < nSteps := Nat.cast_pos.2 hc.1
  set dt := T / nSteps with hdt
  have hdt0 : 0 < dt := div_pos hc.2.2 hn
  have hpath : ∀ (n k : ℕ) (t : ℝ) (s : SabrState), 0 ≤ t → t + n * dt ≤ T →
      p.pathLoop dt draws n k t s = (⟨a, p.beta, r, v⟩ : Sabr).pathLoop dt draws n k s := by
    intro n
    induction n with
    | zero => intro k t s _ _; rfl
    | succ n ih =>
      intro k t s h0 h1
      push_cast at h1
      have hnn : 0 ≤ (n : ℝ) * dt := by positivity
      rw [TdSabr.pathLoop, Sabr.pathLoop]
      rcases td_flat_step (q := ⟨a, p.beta, r, v⟩) ⟨a, hat (t + 0.5 * dt) (by norm_num; linarith)
        (by norm_num; nlinarith)⟩ s dt (draws k) with ⟨s', w, h2, h3⟩ | ⟨h2, h3⟩
      · rw [h2, h3, ok_bind, ok_bind]
        exact ih _ _ _ (by linarith) (by linarith)
      · rw [h2, h3]; rfl
  have hT' : (nSteps : ℝ) * dt = T := by rw [hdt]; field_simp
  have hpaths : ∀ m k : ℕ, p.pathsLoop dt a nSteps draws m k
      = (⟨a, p.beta, r, v⟩ : Sabr).pathsLoop p.forward0 dt nSteps draws m k := by
    intro m
    induction m with
    | zero => intro k; rfl
    | succ m ih =>
      intro k
      rw [TdSabr.pathsLoop, Sabr.pathsLoop, hpath _ _ _ _ le_rfl (by linarith)]
      congr 1
      funext s
      rw [ih]
  exact hpaths _ _

/-- **C70**: flat schedules reduce to the constant parameters; a jump of `1e-12` or more in any
schedule does not. -/
theorem C70_reduces {p : TdSabr} (h : p.Admissible) {a r v : ℝ} (hane : p.alpha.values ≠ [])
    (ha : ∀ x ∈ p.alpha.values, x = a) (hrne : p.rho.values ≠ []) (hr : ∀ x ∈ p.rho.values, x = r)
    (hvne : p.nu.values ≠ []) (hv : ∀ x ∈ p.nu.values, x = v) :
    p.reducesToConstant = .ok (some (⟨a, p.beta, r, v⟩, p.forward0)) := by
  have hw : ∀ {l : List ℝ} {c : ℝ}, (∀ x ∈ l, x = c) → windowsClose l := by
    intro l c hl i hi
    have h1 : l.getD i 0 = c := by
      rw [List.getD_eq_getElem _ _ (by omega)]; exact hl _ (List.getElem_mem _)
    have h2 : l.getD (i + 1) 0 = c := by
      rw [List.getD_eq_getElem _ _ hi]; exact hl _ (List.getElem_mem _)
    rw [h1, h2, sub_self, abs_zero]
    norm_num
  have hu : ∀ {l : List ℝ} {c : ℝ}, l ≠ [] → (∀ x ∈ l, x = c) → unwrap l[0]? = .ok c := by
    intro l c hne hl
    obtain ⟨x, xs, rfl⟩ := List.exists_cons_of_ne_nil hne
    rw [hl x (by simp)]
    rfl
  have hq : (⟨a, p.beta, r, v⟩ : Sabr).Admissible := by
    have m1 := List.head_mem hane
    have m2 := List.head_mem hrne
    have m3 := List.head_mem hvne
    have e1 := h.alpha _ m1
    have e2 := h.rho _ m2
    have e3 := h.nu _ m3
    rw [ha _ m1] at e1
    rw [hr _ m2] at e2
    rw [hv _ m3] at e3
    exact ⟨e1, h.beta0, h.beta1, e2.1, e2.2, e3⟩
  rw [TdSabr.reducesToConstant, if_pos ⟨hw ha, hw hr, hw hv⟩, hu hane ha, ok_bind, hu hrne hr, ok_bind,
    hu hvne hv, ok_bind, (C53_new _ _ _ _).1.2 hq, ok_bind, if_pos h.forward]

/-- **C70**: a jump in a schedule is noticed. -/
theorem C70_reduces_none {p : TdSabr} (vs : List ℝ)
    (hm : vs = p.alpha.values ∨ vs = p.rho.values ∨ vs = p.nu.values) (i : ℕ)
    (hi : i + 1 < vs.length) (hj : 1 / 10 ^ 12 ≤ |vs[i] - vs[i + 1]|) :
    p.reducesToConstant = .ok none := by
  have hnot : ¬ windowsClose vs := by
    intro hw
    have := hw i hi
    rw [List.getD_eq_getElem _ _ (by omega), List.getD_eq_getElem _ _ hi] at this
    linarith
  rw [TdSabr.reducesToConstant, if_neg]
  rintro ⟨h1, h2, h3⟩
  rcases hm with rfl | rfl | rfl
  · exact hnot h1
  · exact hnot h2
  · exact hnot h3

theorem describes_rho_bound {p : TdSabr} {α ρ ν : ℝ → ℝ} (h : p.Describes α ρ ν) {T : ℝ} {n : ℕ}
    (hT : 0 < T) (hH : T ≤ p.horizon) (hoff : OffKnots p.alpha.knots T n) {j : ℕ} (hj : j < n) :
    -1 < atMid ρ T n j ∧ atMid ρ T n j < 1 := by
  obtain ⟨m0, m1⟩ := mid_lt hT hj
  have hpos : 0 < p.rho.finalTime := by rw [h.final_rho]; exact hT.trans_le hH
  have er := pcRead_schedule h.rhoFn m0 (by rw [h.final_rho]; exact m1.trans_le hH)
    (by rw [← h.rhoKnots]; exact hoff j hj)
  rw [atMid, ← er]
  exact h.rho _ (pcRead_mem _ (isSchedule_values_ne h.rhoFn hpos) _)

/-- With the knots on the grid, the sum of the squared vol-of-vol over the steps is its integral. -/
theorem grid_sum {f : ℝ → ℝ} {ks vs : List ℝ} (h : IsSchedule ks vs f) {T : ℝ} {n : ℕ} (hn : 0 < n)
    (hT : 0 < T) (hH : T ≤ ks.getLastD 0) (hgrid : ∀ k ∈ ks, k < T → ∃ j : ℕ, k = j * (T / n)) :
    ∑ k ∈ Finset.range n, atMid f T n k ^ 2 * (T / n) = ∫ t in 0..T, f t ^ 2 := by
  have hnr : (0 : ℝ) < n := Nat.cast_pos.2 hn
  set d := T / n with hd
  have hd0 : 0 < d := div_pos hT hnr
  have hcell : ∀ k < n, ∀ t, (k : ℝ) * d < t → t < ((k + 1 : ℕ) : ℝ) * d →
      f t ^ 2 = atMid f T n k ^ 2 := by
    intro k hk t h1 h2
    obtain ⟨m0, m1⟩ := mid_lt hT hk
    have hk1 : ((k + 1 : ℕ) : ℝ) * d ≤ T := by
      calc ((k + 1 : ℕ) : ℝ) * d ≤ n * d := by
            refine mul_le_mul_of_nonneg_right ?_ hd0.le
            exact_mod_cast hk
        _ = T := by rw [hd]; field_simp
    have hm1 : (k : ℝ) * d < ((k : ℝ) + 1 / 2) * d := by nlinarith
    have hm2 : ((k : ℝ) + 1 / 2) * d < ((k + 1 : ℕ) : ℝ) * d := by push_cast; nlinarith
    have hnk : ∀ x ∈ ks, ¬ ((k : ℝ) * d < x ∧ x < ((k + 1 : ℕ) : ℝ) * d) := by
      rintro x hx ⟨l1, l2⟩
      obtain ⟨j, rfl⟩ := hgrid x hx (l2.trans_le hk1)
      have a1 : (k : ℝ) < j := lt_of_mul_lt_mul_right l1 hd0.le
      have a2 : (j : ℝ) < (k + 1 : ℕ) := lt_of_mul_lt_mul_right l2 hd0.le
      have b1 : k < j := by exact_mod_cast a1
      have b2 : j < k + 1 := by exact_mod_cast a2
      omega
    have hkd : 0 ≤ (k : ℝ) * d := by positivity
    have hhead : ks.headD 0 = 0 := by rw [List.headD_eq_head?_getD, h.1]; rfl
    have e : f t = f (((k : ℝ) + 1 / 2) * d) := by
      rcases le_total t (((k : ℝ) + 1 / 2) * d) with ht | ht
      · exact stepOn_between ht ks vs h.2.2.2 h.2.2.1 h.2.1 (by rw [hhead]; linarith) (by linarith)
          fun x hx hc => hnk x hx ⟨by linarith [hc.1], by linarith [hc.2]⟩
      · exact (stepOn_between ht ks vs h.2.2.2 h.2.2.1 h.2.1 (by rw [hhead]; linarith) (by linarith)
          fun x hx hc => hnk x hx ⟨by linarith [hc.1], by linarith [hc.2]⟩).symm
    rw [e, atMid]
  have hint : ∀ k < n, (∫ t in (k : ℝ) * d..((k + 1 : ℕ) : ℝ) * d, f t ^ 2) = atMid f T n k ^ 2 * d
      ∧ IntervalIntegrable (fun t => f t ^ 2) volume ((k : ℝ) * d) (((k + 1 : ℕ) : ℝ) * d) := by
    intro k hk
    have hle : (k : ℝ) * d ≤ ((k + 1 : ℕ) : ℝ) * d := by push_cast; nlinarith
    have := head_integral (f := fun t => f t ^ 2) (hcell k hk) hle le_rfl
    refine ⟨?_, this.2⟩
    rw [this.1]
    congr 1
    push_cast; ring
  have hsum := intervalIntegral.sum_integral_adjacent_intervals (f := fun t => f t ^ 2) (μ := volume)
    (a := fun k : ℕ => (k : ℝ) * d) (n := n) fun k hk => (hint k hk).2
  rw [Finset.sum_congr rfl fun k hk => (hint k (Finset.mem_range.1 hk)).1] at hsum
  rw [hsum, Nat.cast_zero, zero_mul]
  congr 1
  rw [hd]; field_simp

/-- **C70**: the volatility is exactly lognormal in all its moments: with the knots on the grid,
`E[σ^q] = α₀^q exp(½(q² − q) ∫₀ᵀ ν²)` for every real `q`.  In particular it is a martingale, and its
second moment is `α₀² exp(∫₀ᵀ ν²)`. -/
theorem C70_volatility {p : TdSabr} {α ρ ν : ℝ → ℝ} (h : p.Describes α ρ ν) {T : ℝ} {n : ℕ}
    (hn : 0 < n) (hT : 0 < T) (hH : T ≤ p.horizon) (hoff : OffKnots p.alpha.knots T n)
    (hgrid : ∀ k ∈ p.alpha.knots, k < T → ∃ j : ℕ, k = j * (T / n)) {a0 : ℝ} (ha0 : 0 < a0) (q : ℝ) :
    Integrable (fun zs => (a0 * (chain (sabrScheme (fun _ => a0) (atMid ρ T n) (atMid ν T n)
      (fun _ => T / n) p.beta) n (p.forward0, 1) (firstDraws zs)).2) ^ q) (iidLaw (stdNormal 2) n)
    ∧ ∫ zs, (a0 * (chain (sabrScheme (fun _ => a0) (atMid ρ T n) (atMid ν T n)
        (fun _ => T / n) p.beta) n (p.forward0, 1) (firstDraws zs)).2) ^ q ∂iidLaw (stdNormal 2) n
      = a0 ^ q * Real.exp ((q ^ 2 - q) / 2 * ∫ t in 0..T, ν t ^ 2) := by
  have hnr : (0 : ℝ) < n := Nat.cast_pos.2 hn
  set r' : ℕ → ℝ := fun k => if k < n then atMid ρ T n k else 0 with hr'
  have hc : ∀ z : ℕ → Fin 2 → ℝ, chain (sabrScheme (fun _ => a0) (atMid ρ T n) (atMid ν T n)
      (fun _ => T / n) p.beta) n (p.forward0, 1) z
      = chain (sabrScheme (fun _ => a0) r' (atMid ν T n) (fun _ => T / n) p.beta) n (p.forward0, 1) z :=
    fun z => chain_congr_step _ _ n fun k hk => by
      funext s w
      simp only [sabrScheme, hr', if_pos hk]
  have hb : ∀ k, -1 ≤ r' k ∧ r' k ≤ 1 := fun k => by
    simp only [hr']
    by_cases hk : k < n
    · rw [if_pos hk]
      have := describes_rho_bound h hT hH hoff hk
      exact ⟨this.1.le, this.2.le⟩
    · rw [if_neg hk]; norm_num
  have hf := sabr_factor (fun _ => a0) r' (atMid ν T n) (fun _ => T / n) p.beta hb
    (fun _ => (div_pos hT hnr).le) q (s := (p.forward0, 1)) ⟨h.forward.le, one_pos⟩ n
  have hsum := grid_sum h.nuFn hn hT (by
    have := h.final_nu
    rw [PieceConst.finalTime] at this
    rw [this]; exact hH) (by rw [← h.nuKnots]; exact hgrid)
  rw [hsum, Real.one_rpow, one_mul] at hf
  have e : ∀ zs : Fin n → Fin 2 → ℝ, (a0 * (chain (sabrScheme (fun _ => a0) (atMid ρ T n)
      (atMid ν T n) (fun _ => T / n) p.beta) n (p.forward0, 1) (firstDraws zs)).2) ^ q
      = a0 ^ q * (chain (sabrScheme (fun _ => a0) r' (atMid ν T n) (fun _ => T / n) p.beta) n
        (p.forward0, 1) (firstDraws zs)).2 ^ q := fun zs => by
    have hg := chain_inv (sabrScheme (fun _ => a0) r' (atMid ν T n) (fun _ => T / n) p.beta) SabrGood
      (sabrScheme_good _ _ _ _ _) (s := (p.forward0, 1)) ⟨h.forward.le, one_pos⟩ (firstDraws zs) n
    rw [hc, Real.mul_rpow ha0.le hg.2.le]
  simp_rw [e]
  exact ⟨hf.1.const_mul _, by rw [integral_const_mul, hf.2]⟩

/-- **C70, partial**: the forward, less what keeping it non-negative has added along the way, has
mean `F₀`.  Missing from the martingale claim: the truncations themselves, see
`C70_martingale_false`. -/
theorem C70_martingale_partial {p : TdSabr} (h : p.Admissible) (ρ ν : ℝ → ℝ) (a0 T : ℝ) (n : ℕ) :
    ∫ zs, ((chain (sabrScheme (fun _ => a0) (atMid ρ T n) (atMid ν T n) (fun _ => T / n) p.beta) n
        (p.forward0, 1) (firstDraws zs)).1
      - ∑ k ∈ Finset.range n, sabrCut (fun _ => a0) (fun _ => T / n) p.beta k
          (chain (sabrScheme (fun _ => a0) (atMid ρ T n) (atMid ν T n) (fun _ => T / n) p.beta) k
            (p.forward0, 1) (firstDraws zs)) (firstDraws zs k)) ∂iidLaw (stdNormal 2) n
      = p.forward0 :=
  (sabr_forward (fun _ => a0) (atMid ρ T n) (atMid ν T n) (fun _ => T / n) p.beta h.beta0 h.beta1
    (s := (p.forward0, 1)) ⟨h.forward.le, one_pos⟩ n).2

instance (n : ℕ) : (iidLaw (stdNormal 2) n).IsOpenPosMeasure := by unfold iidLaw; exact Measure.pi.isOpenPosMeasure _

/-- **C70, refuted**: the forward is not a martingale of the scheme: for every admissible parameter
set and every grid its mean exceeds `F₀` strictly, because it is kept non-negative. -/
theorem C70_martingale_false {p : TdSabr} (h : p.Admissible) (ρ ν : ℝ → ℝ) {a0 T : ℝ} {n : ℕ}
    (ha0 : 0 < a0) (hT : 0 < T) (hn : 0 < n) :
    Integrable (fun zs => (chain (sabrScheme (fun _ => a0) (atMid ρ T n) (atMid ν T n)
      (fun _ => T / n) p.beta) n (p.forward0, 1) (firstDraws zs)).1) (iidLaw (stdNormal 2) n)
    ∧ p.forward0 < ∫ zs, (chain (sabrScheme (fun _ => a0) (atMid ρ T n) (atMid ν T n)
      (fun _ => T / n) p.beta) n (p.forward0, 1) (firstDraws zs)).1 ∂iidLaw (stdNormal 2) n := by
  have hnr : (0 : ℝ) < n := Nat.cast_pos.2 hn
  have hg : SabrGood (p.forward0, 1) := ⟨h.forward.le, one_pos⟩
  have hF := sabr_forward_integrable (fun _ => a0) (atMid ρ T n) (atMid ν T n) (fun _ => T / n) p.beta
    h.beta0 h.beta1 hg n
  have hM := sabr_forward (fun _ => a0) (atMid ρ T n) (atMid ν T n) (fun _ => T / n) p.beta
    h.beta0 h.beta1 hg n
  refine ⟨hF, ?_⟩
  set F := fun zs : Fin n → Fin 2 → ℝ => (chain (sabrScheme (fun _ => a0) (atMid ρ T n) (atMid ν T n)
      (fun _ => T / n) p.beta) n (p.forward0, 1) (firstDraws zs)).1 with hFd
  set S := fun zs : Fin n → Fin 2 → ℝ => ∑ k ∈ Finset.range n,
      sabrCut (fun _ => a0) (fun _ => T / n) p.beta k
        (chain (sabrScheme (fun _ => a0) (atMid ρ T n) (atMid ν T n) (fun _ => T / n) p.beta) k
          (p.forward0, 1) (firstDraws zs)) (firstDraws zs k) with hSd
  have hS : Integrable S (iidLaw (stdNormal 2) n) := by
    have := hF.sub hM.1
    refine this.congr (Filter.Eventually.of_forall fun zs => ?_)
    simp [hFd, hSd]
  have hsub : ∫ zs, (F zs - S zs) ∂iidLaw (stdNormal 2) n = p.forward0 := hM.2
  rw [integral_sub hF hS] at hsub
  have hcut : ∀ k s z, 0 ≤ sabrCut (fun _ => a0) (fun _ => T / n) p.beta k s z := fun _ _ _ =>
    le_max_right _ _
  have hS0 : 0 ≤ S := fun zs => Finset.sum_nonneg fun k _ => hcut _ _ _
  have hpos : 0 < ∫ zs, S zs ∂iidLaw (stdNormal 2) n := by
    rw [integral_pos_iff_support_of_nonneg hS0 hS]
    set c := a0 * 1 * p.forward0 ^ p.beta * √(T / n) with hc
    have hc0 : 0 < c := by
      have := Real.rpow_pos_of_pos h.forward p.beta
      have := Real.sqrt_pos.2 (div_pos hT hnr)
      positivity
    have hopen : IsOpen {zs : Fin n → Fin 2 → ℝ | p.forward0 + c * zs ⟨0, hn⟩ 0 < 0} := by
      refine isOpen_lt ?_ continuous_const
      fun_prop
    refine lt_of_lt_of_le (hopen.measure_pos _ ⟨fun _ _ => -(p.forward0 + 1) / c, ?_⟩)
      (measure_mono fun zs hzs => ?_)
    · change p.forward0 + c * (-(p.forward0 + 1) / c) < 0
      rw [mul_div_cancel₀ _ hc0.ne']
      linarith
    · rw [Function.mem_support]
      refine ne_of_gt (lt_of_lt_of_le ?_ (Finset.single_le_sum (fun k _ => hcut k _ _)
        (Finset.mem_range.2 hn)))
      have e : firstDraws zs 0 = zs ⟨0, hn⟩ := by rw [firstDraws, dif_pos hn]
      rw [chain, e]
      refine lt_max_of_lt_left ?_
      have : p.forward0 + c * zs ⟨0, hn⟩ 0 < 0 := hzs
      rw [hc] at this
      simp only
      linarith
  linarith

/-- **C70, refuted**: the documentation says that a step across a knot uses the value at its right
end and that the lookup is right-continuous.  The middle of the step decides (`ν` is 0 up to 0.6,
then 1; one step over a year leaves the volatility unchanged for all draws), and at a knot the value
before it is returned. -/
theorem C70_straddle_false :
    ∃ (p : TdSabr) (α ρ ν : ℝ → ℝ), p.Describes α ρ ν ∧ ν 1 = 1
      ∧ (∀ draws, ∃ s, p.simulate draws 1 1 1 = .ok [s] ∧ s.vol = 1)
      ∧ (∃ q, p.at (3 / 5) = .ok q ∧ q.nu = 0) ∧ ∀ t, 3 / 5 < t → ν t = 1 := by
  have hd : (⟨⟨[0, 3 / 5, 1], [1, 1]⟩, ⟨[0, 3 / 5, 1], [0, 0]⟩, ⟨[0, 3 / 5, 1], [0, 1]⟩, 1, 1⟩
      : TdSabr).Describes (fun _ => 1) (fun _ => 0) (fun t => if t ≤ 3 / 5 then 0 else 1) := by
    refine ⟨⟨rfl, rfl, ?_, ?_, ?_, ?_, ?_, ?_⟩, ⟨rfl, ?_, rfl, ?_⟩, ⟨rfl, ?_, rfl, ?_⟩,
      ⟨rfl, ?_, rfl, ?_⟩⟩
    all_goals first | norm_num | skip
    · exact ⟨fun t _ h => rfl, fun t h _ => rfl, trivial⟩
    · exact ⟨fun t _ h => rfl, fun t h _ => rfl, trivial⟩
    · exact ⟨fun t _ h => if_pos h.le, fun t h _ => if_neg (by linarith), trivial⟩
  refine ⟨_, _, _, _, hd, if_neg (by norm_num), fun draws => ?_, ?_, fun t h => if_neg (by linarith)⟩
  · have hoff : OffKnots [0, 3 / 5, 1] 1 1 := by
      intro j hj k hk
      have : j = 0 := by omega
      simp only [List.mem_cons, List.not_mem_nil, or_false] at hk
      subst this
      rcases hk with rfl | rfl | rfl <;> norm_num
    obtain ⟨l, a0, h1, h2, h3, h4, -⟩ := C70_simulate_partial hd (T := 1) (n := 1) (by norm_num)
      (by norm_num) (by norm_num [TdSabr.horizon, PieceConst.finalTime]) hoff (nPaths := 1) one_pos draws
    simp only [List.head?_cons, Option.some.injEq] at h3
    subst h3
    have h5 := h4 0 one_pos _ rfl
    match l, h2 with
    | [x], _ =>
      simp only [List.getElem?_cons_zero, Option.some.injEq] at h5
      refine ⟨x, h1, ?_⟩
      rw [h5]
      norm_num [chain, sabrScheme, atMid]
  · refine ⟨⟨1, 1, 0, 0⟩, ?_, rfl⟩
    norm_num [TdSabr.at, PieceConst.at, PieceConst.scan, PieceConst.finalTime]

/-- **C70**: driven by dates, the simulator is the same scheme with the steps between consecutive
dates, correlation and vol-of-vol read from the schedules at the middle of each step. -/
theorem C70_dated {p : TdSabr} (h : p.Admissible) (draws : ℕ → Fin 2 → ℝ) (f : Int → ℝ) {a0 : ℝ}
    (ha0 : 0 ≤ a0) (later : List Int) : ∀ (val : Int) (x : ℝ × ℝ) (k : ℕ), SabrGood x → 0 ≤ f val →
    ((val :: later).map f).IsChain (· < ·) → (∀ d ∈ later, f d ≤ p.horizon) →
    ∃ r v : ℕ → ℝ,
      (∀ j < later.length, ∃ a, p.at ((f ((val :: later).getD j 0) + f ((val :: later).getD (j + 1) 0)) / 2)
        = .ok ⟨a, p.beta, r j, v j⟩)
      ∧ ∀ y, y = chain (sabrScheme (fun _ => a0) r v
          (fun j => f ((val :: later).getD (j + 1) 0) - f ((val :: later).getD j 0)) p.beta) later.length x
          (fun j => draws (k + j)) →
        walk (p.toModel draws) f val later (.ok ⟨x.1, a0 * x.2⟩, k)
          = (.ok ⟨y.1, a0 * y.2⟩, k + later.length) := by
  have hs : (0 : ℝ) < 1 / 10 ^ 15 := by norm_num
  induction later with
  | nil => exact fun val x k _ _ _ _ => ⟨fun _ => 0, fun _ => 0, by simp, by rintro y rfl; rfl⟩
  | cons d ds ih =>
    intro val x k hx h0 hc hH
    simp only [List.map_cons, List.isChain_cons_cons] at hc
    have hlt := hc.1
    have hd := hH d (by simp)
    have hat := tdSabr_at (p := p) (t := (f val + f d) / 2) (by linarith)
      (by rw [TdSabr.horizon] at hd; linarith) h.final_rho h.final_nu
    set r0 := pcRead p.rho ((f val + f d) / 2)
    set v0 := pcRead p.nu ((f val + f d) / 2)
    have hst := tdSabr_step hat (sub_pos.2 hlt) ha0 hx (draws k) (fun _ => r0) (fun _ => v0)
      (fun _ => f d - f val) 0 rfl rfl rfl
    obtain ⟨r, v, h1, h2⟩ := ih d _ (k + 1) (sabrScheme_good (fun _ => a0) (fun _ => r0) (fun _ => v0)
      (fun _ => f d - f val) p.beta 0 x (draws k) hx) (by linarith) hc.2
      fun e he => hH e (by simp [he])
    refine ⟨fun j => Nat.casesOn j r0 r, fun j => Nat.casesOn j v0 v, ?_, ?_⟩
    · rintro (_ | j) hj
      · exact ⟨_, hat⟩
      · exact h1 j (by simpa using hj)
    · rintro y rfl
      rw [walk]
      have e : (p.toModel draws).step k (.ok ⟨x.1, a0 * x.2⟩) ((f val + f d) / 2) (f d - f val)
          = (.ok ⟨(sabrScheme (fun _ => a0) (fun _ => r0) (fun _ => v0) (fun _ => f d - f val) p.beta 0 x
              (draws k)).1, a0 * (sabrScheme (fun _ => a0) (fun _ => r0) (fun _ => v0)
              (fun _ => f d - f val) p.beta 0 x (draws k)).2⟩, k + 1) := by
        refine Prod.ext ?_ rfl
        change (do let s ← Outcome.ok (⟨x.1, a0 * x.2⟩ : SabrState)
                   let r ← p.step s ((f val + f d) / 2) (f d - f val) (draws k)
                   Outcome.ok r.1) = _
        rw [ok_bind, hst, ok_bind]
      rw [show (Outcome.ok (⟨x.1, a0 * x.2⟩ : SabrState), k).2 = k from rfl,
        show (Outcome.ok (⟨x.1, a0 * x.2⟩ : SabrState), k).1 = .ok ⟨x.1, a0 * x.2⟩ from rfl, e]
      rw [h2 _ rfl, List.length_cons, chain_front]
      refine Prod.ext ?_ (by simp; omega)
      have e2 : (fun j => draws (k + 1 + j)) = fun j => draws (k + (j + 1)) := by
        funext j; rw [show k + 1 + j = k + (j + 1) by omega]
      rw [e2]
      rfl

/-- **C70**: the state at the valuation date is the forward with the first volatility. -/
theorem C70_initial {p : TdSabr} {α ρ ν : ℝ → ℝ} (h : p.Describes α ρ ν) (hH : 0 < p.horizon)
    (draws : ℕ → Fin 2 → ℝ) (k : ℕ) : ∃ a0, p.alpha.values.head? = some a0
      ∧ (p.toModel draws).initial k = .ok ⟨p.forward0, a0⟩ := by
  have hv := isSchedule_values_ne h.alphaFn hH
  obtain ⟨a, l, e⟩ := List.exists_cons_of_ne_nil hv
  refine ⟨a, by rw [e]; rfl, ?_⟩
  change (do let a ← p.alpha.at 0
             Outcome.ok (⟨p.forward0, a⟩ : SabrState)) = _
  rw [at_pcRead p.alpha le_rfl (by rw [TdSabr.horizon] at hH; have : (0 : ℝ) < 1 / 10 ^ 15 := by norm_num
                                   linarith), ok_bind, pcRead_zero _ h.alphaFn, e]
  rfl

/-- A two-segment schedule with varying correlation and vol-of-vol, simulated on its own grid, meets
the hypotheses. -/
example : ∃ p : TdSabr, p.Describes (fun _ => 0.15) (fun t => if t < 1 then -0.4 else -0.2)
      (fun t => if t < 1 then 0.5 else 0.3) ∧ (2 : ℝ) ≤ p.horizon ∧ OffKnots p.alpha.knots 2 4
      ∧ ∀ k ∈ p.alpha.knots, k < 2 → ∃ j : ℕ, k = j * (2 / (4 : ℕ)) := by
  refine ⟨⟨⟨[0, 1, 2], [0.15, 0.15]⟩, ⟨[0, 1, 2], [-0.4, -0.2]⟩, ⟨[0, 1, 2], [0.5, 0.3]⟩, 0.5, 1.3⟩,
    ⟨⟨rfl, rfl, ?_, ?_, ?_, ?_, ?_, ?_⟩, ⟨rfl, ?_, rfl, ?_⟩, ⟨rfl, ?_, rfl, ?_⟩, ⟨rfl, ?_, rfl, ?_⟩⟩,
    ?_, ?_, ?_⟩
  case refine_8 => exact ⟨fun t _ h => rfl, fun t h _ => rfl, trivial⟩
  case refine_10 => exact ⟨fun t _ h => if_pos h, fun t h _ => if_neg (by linarith), trivial⟩
  case refine_12 => exact ⟨fun t _ h => if_pos h, fun t h _ => if_neg (by linarith), trivial⟩
  case refine_13 => norm_num [TdSabr.horizon, PieceConst.finalTime]
  case refine_14 =>
    intro j hj k hk
    have : j = 0 ∨ j = 1 ∨ j = 2 ∨ j = 3 := by omega
    simp only [List.mem_cons, List.not_mem_nil, or_false] at hk
    rcases this with rfl | rfl | rfl | rfl <;> rcases hk with rfl | rfl | rfl <;> norm_num
  case refine_15 =>
    intro k hk h2
    simp only [List.mem_cons, List.not_mem_nil, or_false] at hk
    rcases hk with rfl | rfl | rfl
    · exact ⟨0, by norm_num⟩
    · exact ⟨2, by norm_num⟩
    · exact absurd h2 (lt_irrefl _)
  all_goals norm_num

/-- Flat schedules on three knots meet the hypotheses of `C70_flat` and `C70_reduces`; a dated grid
inside the horizon meets those of `C70_dated`. -/
example : ∃ p : TdSabr, p.Admissible ∧ (2 : ℝ) ≤ p.horizon ∧ p.alpha.values ≠ []
      ∧ (∀ x ∈ p.alpha.values, x = 0.2) ∧ p.rho.values ≠ [] ∧ (∀ x ∈ p.rho.values, x = -0.3)
      ∧ p.nu.values ≠ [] ∧ (∀ x ∈ p.nu.values, x = 0.4)
      ∧ (([0, 182, 365] : List Int).map fun d => (d : ℝ) / 365).IsChain (· < ·)
      ∧ ∀ d ∈ ([182, 365] : List Int), (d : ℝ) / 365 ≤ p.horizon := by
  refine ⟨⟨⟨[0, 1, 2], [0.2, 0.2]⟩, ⟨[0, 1, 2], [-0.3, -0.3]⟩, ⟨[0, 1, 2], [0.4, 0.4]⟩, 0.5, 1.3⟩,
    ⟨rfl, rfl, ?_, ?_, ?_, ?_, ?_, ?_⟩, ?_⟩
  all_goals norm_num [TdSabr.horizon, PieceConst.finalTime]
  exact ⟨List.cons_ne_nil _ _, List.cons_ne_nil _ _, List.cons_ne_nil _ _⟩

end Verif
