import Verif.Model.Dated
import Verif.Lemmas.Dated
import Verif.Props.FmmMc
import Verif.Props.Fmm
import Verif.Props.HhwSim
import Verif.Props.HhwStock
import Verif.Props.FxFmmSim
import Verif.Props.TdSabr
import Verif.Props.ClosedForms

/-!
# C91: simulators driven by dates
-/

namespace Verif

open Outcome Classical MeasureTheory ProbabilityTheory Filter

variable {S E M : Type}

/-- **C91.** The integration dates are exactly the observation dates and every `step`-th day up to the
last of them. -/
theorem C91_grid {ks : KeySearch} {sim : SimModel S M} {m : M} {val : Int}
    {dates : List Int} {n step : Nat} {dc : Int → Int → Outcome ℝ} {f : Int → ℝ}
    (hf : ∀ d, val ≤ d → yfOrZero dc val d = .ok (f d)) (hinc : ∀ a b, val ≤ a → a < b → f a < f b)
    {r : DatedPaths S} (h : simulateAtDates ks sim m val dates n step dc = .ok r) :
    ∃ later, IsGrid val dates step later ∧ r.paths = expectedPaths sim f val later r.obs n m :=
  (captured_exact hf hinc h).2.2.2.2

/-- **C91.** What the first path does up to a requested date does not depend on later requests. -/
theorem C91_causal {ks : KeySearch} {sim : SimModel S M} {m : M} {val : Int} {A B : List Int}
    {n n' step : Nat} {dc : Int → Int → Outcome ℝ} {f : Int → ℝ}
    (hf : ∀ d, val ≤ d → yfOrZero dc val d = .ok (f d)) (hinc : ∀ a b, val ≤ a → a < b → f a < f b)
    {r r' : DatedPaths S} (h : simulateAtDates ks sim m val A n step dc = .ok r)
    (h' : simulateAtDates ks sim m val B n' step dc = .ok r') {d : Int} (hd : d ∈ A)
    (hAB : ∀ x ≤ d, x ∈ A ↔ x ∈ B) :
    ∃ s c c', r.statesAt ks d = .ok (some (s :: c)) ∧ r'.statesAt ks d = .ok (some (s :: c')) := by
  obtain ⟨l, g, e⟩ := statesAt_exact hf hinc h hd
  obtain ⟨l', g', e'⟩ := statesAt_exact hf hinc h' ((hAB d le_rfl).1 hd)
  have hn := (captured_exact hf hinc h).1
  have hn' := (captured_exact hf hinc h').1
  obtain ⟨k, rfl⟩ : ∃ k, n = k + 1 := ⟨n - 1, by omega⟩
  obtain ⟨k', rfl⟩ : ∃ k, n' = k + 1 := ⟨n' - 1, by omega⟩
  refine ⟨stateAt sim f val l m d, _, (expectedPaths sim f val l' [d] k' (walk sim f val l'
    (sim.initial m, m)).2).flatten, e, ?_⟩
  rw [e', stateAt, g.prefix g' hd hAB]
  rfl

/-- **C91.** A property of state and time that holds initially and is kept by every step holds for every
path at every requested date. -/
theorem C91_invariant {ks : KeySearch} {sim : SimModel S M} {m : M} {val : Int}
    {dates : List Int} {n step : Nat} {dc : Int → Int → Outcome ℝ} {f : Int → ℝ}
    (hf : ∀ d, val ≤ d → yfOrZero dc val d = .ok (f d)) (hinc : ∀ a b, val ≤ a → a < b → f a < f b)
    {r : DatedPaths S} (h : simulateAtDates ks sim m val dates n step dc = .ok r)
    (I : ℝ → S → Prop) (h0 : ∀ m, I (f val) (sim.initial m))
    (hI : ∀ m s a b, a < b → I a s → I b (sim.step m s ((a + b) / 2) (b - a)).1)
    {d : Int} (hd : d ∈ dates) :
    ∃ c, r.statesAt ks d = .ok (some c) ∧ c.length = n ∧ ∀ s ∈ c, I (f d) s := by
  obtain ⟨later, g, e⟩ := statesAt_exact hf hinc h hd
  have hval := (captured_exact hf hinc h).2.2.1 d hd
  have hwalk : ∀ (l : List Int) (prev : Int) (x : S × M), val ≤ prev → (prev :: l).Pairwise (· < ·) →
      I (f prev) x.1 → I (f (lastDate prev l)) (walk sim f prev l x).1 := by
    intro l
    induction l with
    | nil => intro prev x _ _ h; exact h
    | cons e l ih =>
      intro prev x hv hp hx
      obtain ⟨h1, h2⟩ := List.pairwise_cons.1 hp
      have hlt := h1 e List.mem_cons_self
      rw [walk, lastDate_cons]
      exact ih e _ (by omega) h2 (hI _ _ _ _ (hinc _ _ hv hlt) hx)
  have hstate : ∀ m, I (f d) (stateAt sim f val later m d) := fun m => by
    have hp : (val :: later.filter fun g => decide (g ≤ d)).Pairwise (· < ·) := by
      obtain ⟨h1, h2⟩ := List.pairwise_cons.1 g.increasing
      exact List.pairwise_cons.2 ⟨fun x hx => h1 x (List.mem_of_mem_filter hx), h2.filter _⟩
    have := hwalk _ val (sim.initial m, m) le_rfl hp (h0 m)
    rwa [lastDate_filter g.increasing (List.mem_cons_of_mem _ ((g.mem d).2 (.inl hd)))] at this
  refine ⟨_, e, ?_, fun s hs => ?_⟩
  · have : ∀ k m, (expectedPaths sim f val later [d] k m).flatten.length = k := by
      intro k
      induction k with
      | zero => intro m; rfl
      | succ k ih => intro m; rw [expectedPaths]; simp [ih]
    exact this n m
  · obtain ⟨p, hp, hs⟩ := List.mem_flatten.1 hs
    obtain ⟨m', rfl⟩ := expectedPaths_get sim f val later [d] n m p hp
    rw [List.map_singleton, List.mem_singleton] at hs
    rw [hs]
    exact hstate m'

/-- **C91.** On a regular grid every path holds, after `k` steps, the result of `k` equal steps with its
own block of draws. -/
theorem C91_regular {ks : KeySearch} {s0 : S} {g : E → S → ℝ → ℝ → S} {x : ℕ → E} {val : Int}
    {dates : List Int} {n step N : Nat} {dc : Int → Int → Outcome ℝ} {f : Int → ℝ} {dt : ℝ}
    (hf : ∀ d, val ≤ d → yfOrZero dc val d = .ok (f d)) (hinc : ∀ a b, val ≤ a → a < b → f a < f b)
    (hreg : ∀ k ≤ N, f (val + k * step) = k * dt) (hg : OnGrid val dates step N) {r : DatedPaths S}
    (h : simulateAtDates ks (drawSim s0 g x) 0 val dates n step dc = .ok r) {k : ℕ}
    (hk : val + k * step ∈ dates) :
    r.statesAt ks (val + k * step)
      = .ok (some ((List.range n).map fun i => regularRun g dt k s0 fun j => x (i * N + j))) := by
  obtain ⟨later, hgrid, e⟩ := statesAt_exact hf hinc h hk
  have hs := (captured_exact hf hinc h).2.1
  obtain rfl := hgrid.regular hs (fun d hd => ⟨(hg.after d hd).1, (hg.after d hd).2.1⟩) hg.ends
    (fun d hd => (hg.after d hd).2.2)
  have hkN : k ≤ N := by
    by_contra hc
    have h1 := (hg.after _ hk).2.2
    have : ((N : Int) + 1) * step ≤ k * step := mul_le_mul_of_nonneg_right (by omega) (by omega)
    have e : ((N : Int) + 1) * step = N * step + step := by ring
    omega
  let _ : MeasurableSpace E := ⊤
  rw [e, expectedPaths_drawSim]
  simp only [List.map_singleton, regular_length, zero_add]
  rw [flatten_singletons fun j => stateAt (drawSim s0 g x) f val (regularDates val step N) (j * N)
    (val + k * step)]
  congr 2
  refine List.map_congr_left fun i _ => ?_
  rw [stateAt, filter_regular hs hkN]
  exact walk_regular s0 g x hreg hkN (i * N)

/-! ## The loops of the simulators -/

theorem together_cons (o : Outcome S) (l : List (Outcome S)) :
    together (o :: l) = (do
      let s ← o
      let r ← together l
      .ok (s :: r)) := by
  cases o with
  | ok s =>
    rw [ok_bind, together]
    cases together l <;> rfl
  | fail e => rfl
  | panic => rfl

theorem together_ok (l : List S) : together (l.map .ok) = .ok l := by
  induction l with
  | nil => rfl
  | cons s l ih => rw [List.map_cons, together, ih]

theorem together_stop {n : ℕ} (hn : 0 < n) {o : Outcome S} (ho : ∀ s, o ≠ .ok s) (F : ℕ → Outcome S)
    (hF : ∀ i, F i = o) : (∀ e, o = .fail e → together ((List.range n).map F) = .fail e)
      ∧ (o = .panic → together ((List.range n).map F) = .panic) := by
  obtain ⟨k, rfl⟩ : ∃ k, n = k + 1 := ⟨n - 1, by omega⟩
  rw [List.range_succ_eq_map, List.map_cons, hF]
  exact ⟨fun e he => by rw [he]; rfl, fun he => by rw [he]; rfl⟩

theorem chain_stop (F : ℕ → E → S → Outcome S) (x : ℕ → E) (n : ℕ) {o : Outcome S} (ho : ∀ s, o ≠ .ok s) :
    chain (fun j (o : Outcome S) z => o >>= F j z) n o x = o := by
  induction n with
  | zero => rfl
  | succ n ih =>
    rw [chain, ih]
    cases o with
    | ok s => exact absurd rfl (ho s)
    | fail e => rfl
    | panic => rfl

/-- A loop of equal steps is a run on the regular grid. -/
theorem own_loop (st : E → S → ℝ → ℝ → Outcome S) (dt : ℝ) (draws : ℕ → E)
    (loop : ℕ → ℕ → ℝ → S → Outcome S) (h0 : ∀ k t s, loop 0 k t s = .ok s)
    (h1 : ∀ n k t s, loop (n + 1) k t s
      = (st (draws k) s (t + 1 / 2 * dt) dt >>= fun r => loop n (k + 1) (t + dt) r)) :
    ∀ n k t s, loop n k t s = chain (fun j (o : Outcome S) z =>
      o >>= fun s => st z s (t + (j + 1 / 2) * dt) dt) n (.ok s) fun j => draws (k + j) := by
  intro n
  induction n with
  | zero => intro k t s; rw [h0]; rfl
  | succ n ih =>
    intro k t s
    rw [h1, chain_front]
    simp only [ok_bind, add_zero]
    have e : t + (((0 : ℕ) : ℝ) + 1 / 2) * dt = t + 1 / 2 * dt := by push_cast; ring
    rw [e]
    have hfun : (fun (j : ℕ) (o : Outcome S) z => o >>= fun s => st z s (t + (((j + 1 : ℕ) : ℝ) + 1 / 2) * dt) dt)
        = fun (j : ℕ) (o : Outcome S) z => o >>= fun s => st z s (t + dt + ((j : ℝ) + 1 / 2) * dt) dt := by
      funext j o z
      congr 1
      funext s
      congr 1
      push_cast
      ring
    have hdr : (fun j => draws (k + (j + 1))) = fun j => draws (k + 1 + j) := by
      funext j; rw [show k + (j + 1) = k + 1 + j by omega]
    rw [hfun, hdr]
    cases hst : st (draws k) s (t + 1 / 2 * dt) dt with
    | ok r => rw [ok_bind, ih]
    | fail e =>
      rw [chain_stop (fun (j : ℕ) z s => st z s (t + dt + ((j : ℝ) + 1 / 2) * dt) dt) _ n (by intro s h; cases h)]
      rfl
    | panic =>
      rw [chain_stop (fun (j : ℕ) z s => st z s (t + dt + ((j : ℝ) + 1 / 2) * dt) dt) _ n (by intro s h; cases h)]
      rfl

/-- A loop over paths collects their runs. -/
theorem own_paths (N : ℕ) (run : ℕ → Outcome S) (paths : ℕ → ℕ → Outcome (List S))
    (h0 : ∀ k, paths 0 k = .ok [])
    (h1 : ∀ n k, paths (n + 1) k = (do
      let s ← run k
      let rest ← paths n (k + N)
      .ok (s :: rest))) :
    ∀ n k, paths n k = together ((List.range n).map fun i => run (k + i * N)) := by
  intro n
  induction n with
  | zero => intro k; rw [h0]; rfl
  | succ n ih =>
    intro k
    rw [h1, List.range_succ_eq_map, List.map_cons, List.map_map, together_cons, zero_mul, add_zero, ih]
    congr 1
    funext s
    congr 2
    refine List.map_congr_left fun i _ => ?_
    simp only [Function.comp_apply, Nat.succ_eq_add_one]
    congr 1
    ring

variable {ks : KeySearch} {val : Int} {dates : List Int} {n step N : ℕ} {dc : Int → Int → Outcome ℝ}
  {f : Int → ℝ} {T : ℝ}

/-- **C91.** SABR: driven by dates on a regular grid, the simulator returns at its end what its own
`simulate` returns for the same draws. -/
theorem C91_sabr (p : Sabr) (forward0 : ℝ) (draws : ℕ → Fin 2 → ℝ)
    (hf : ∀ d, val ≤ d → yfOrZero dc val d = .ok (f d)) (hinc : ∀ a b, val ≤ a → a < b → f a < f b)
    (hreg : ∀ k ≤ N, f (val + k * step) = k * (T / N)) (hg : OnGrid val dates step N)
    (hN : 0 < N) (hT : 0 < T) {r : DatedPaths (Outcome SabrState)}
    (h : simulateAtDates ks (p.toModel forward0 draws) 0 val dates n step dc = .ok r) :
    ∃ l, r.statesAt ks (val + N * step) = .ok (some l) ∧ p.simulate forward0 draws T N n = together l := by
  have hm : p.toModel forward0 draws = drawSim (.ok (p.initial forward0))
    (fun z o _ dt => o >>= fun s => p.step s dt (z 0) (z 1)) draws := rfl
  rw [hm] at h
  refine ⟨_, C91_regular hf hinc hreg hg h hg.ends, ?_⟩
  have hn := (captured_exact hf hinc h).1
  rw [Sabr.simulate, if_pos ⟨hN, hn, hT⟩,
    own_paths N (fun k => p.pathLoop (T / N) draws N k (p.initial forward0))
      (fun n k => p.pathsLoop forward0 (T / N) N draws n k) (fun _ => rfl) (fun _ _ => rfl)]
  congr 1
  refine List.map_congr_left fun i _ => ?_
  rw [zero_add]
  exact own_loop (fun z s _ dt => p.step s dt (z 0) (z 1)) (T / N) draws
    (fun n k _ s => p.pathLoop (T / N) draws n k s) (fun _ _ _ => rfl) (fun _ _ _ _ => rfl) N (i * N) 0
    (p.initial forward0)

/-- **C91.** The same for time-dependent SABR, with the schedules read at the middle of each step. -/
theorem C91_td_sabr (p : TdSabr) (draws : ℕ → Fin 2 → ℝ)
    (hf : ∀ d, val ≤ d → yfOrZero dc val d = .ok (f d)) (hinc : ∀ a b, val ≤ a → a < b → f a < f b)
    (hreg : ∀ k ≤ N, f (val + k * step) = k * (T / N)) (hg : OnGrid val dates step N)
    (hN : 0 < N) (hT : 0 < T) {r : DatedPaths (Outcome SabrState)}
    (h : simulateAtDates ks (p.toModel draws) 0 val dates n step dc = .ok r) :
    ∃ l, r.statesAt ks (val + N * step) = .ok (some l) ∧ p.simulate draws T N n = together l := by
  refine ⟨_, C91_regular (s0 := (do
      let a ← p.alpha.at 0
      .ok ⟨p.forward0, a⟩))
    (g := fun z o t dt => do
      let s ← o
      let r ← p.step s t dt z
      .ok r.1) hf hinc hreg hg h hg.ends, ?_⟩
  have hn := (captured_exact hf hinc h).1
  rw [TdSabr.simulate, if_pos ⟨hN, hn, hT⟩]
  cases ha : p.alpha.at 0 with
  | ok a =>
    rw [ok_bind, ok_bind, own_paths N (fun k => p.pathLoop (T / N) draws N k 0 ⟨p.forward0, a⟩)
      (fun n k => p.pathsLoop (T / N) a N draws n k) (fun _ => rfl) (fun _ _ => rfl)]
    congr 1
    refine List.map_congr_left fun i _ => ?_
    rw [zero_add]
    have := own_loop (fun z s t dt => do
        let r ← p.step s t dt z
        Outcome.ok r.1) (T / N) draws
      (fun n k t s => p.pathLoop (T / N) draws n k t s) (fun _ _ _ => rfl) (fun n k t s => by
        rw [TdSabr.pathLoop, show t + 0.5 * (T / N) = t + 1 / 2 * (T / N) by norm_num]
        cases p.step s (t + 1 / 2 * (T / N)) (T / N) (draws k) <;> rfl) N (i * N) 0 ⟨p.forward0, a⟩
    simp only [zero_add] at this
    exact this
  | fail e =>
    refine ((together_stop hn (o := .fail e) (by intro s h; cases h) _ fun i => ?_).1 e rfl).symm
    exact chain_stop (fun (j : ℕ) z s => do
      let r ← p.step s ((j + 1 / 2) * (T / N)) (T / N) z
      Outcome.ok r.1) _ N (by intro s h; cases h)
  | panic =>
    refine ((together_stop hn (o := .panic) (by intro s h; cases h) _ fun i => ?_).2 rfl).symm
    exact chain_stop (fun (j : ℕ) z s => do
      let r ← p.step s ((j + 1 / 2) * (T / N)) (T / N) z
      Outcome.ok r.1) _ N (by intro s h; cases h)

/-- **C91.** The forward market model: the same. -/
theorem C91_fmm (s : FmmSimulator) (draws : ℕ → List ℝ)
    (hf : ∀ d, val ≤ d → yfOrZero dc val d = .ok (f d)) (hinc : ∀ a b, val ≤ a → a < b → f a < f b)
    (hreg : ∀ k ≤ N, f (val + k * step) = k * (T / N)) (hg : OnGrid val dates step N)
    (hN : 0 < N) (hT : 0 < T) {r : DatedPaths (Outcome FmmPath)}
    (h : simulateAtDates ks (s.toModel draws) 0 val dates n step dc = .ok r) :
    ∃ l, r.statesAt ks (val + N * step) = .ok (some l) ∧ s.simulateTerminal draws T N n = together l := by
  refine ⟨_, C91_regular (s0 := s.initialPath)
    (g := fun z o _ dt => o >>= fun p => s.step p dt z) hf hinc hreg hg h hg.ends, ?_⟩
  have hn := (captured_exact hf hinc h).1
  rw [FmmSimulator.simulateTerminal, if_pos ⟨hT, hN, hn⟩,
    own_paths N (fun k => do
        let p ← s.initialPath
        s.run (T / N) p ((List.range N).map fun i => draws (k + i)))
      (fun n k => s.pathsLoop (T / N) N draws n k) (fun _ => rfl) (fun n k => by
        rw [FmmSimulator.pathsLoop]
        cases s.initialPath <;> rfl)]
  congr 1
  refine List.map_congr_left fun i _ => ?_
  rw [zero_add]
  cases s.initialPath with
  | ok p =>
    rw [ok_bind]
    exact own_loop (fun z p _ dt => s.step p dt z) (T / N) draws
      (fun n k _ p => s.run (T / N) p ((List.range n).map fun i => draws (k + i))) (fun _ _ _ => rfl)
      (fun n k _ p => by
        rw [List.range_succ_eq_map, List.map_cons, List.map_map, FmmSimulator.run, add_zero]
        congr 1
        funext p'
        congr 1
        refine List.map_congr_left fun i _ => ?_
        simp only [Function.comp_apply, Nat.succ_eq_add_one]
        congr 1
        ring) N (i * N) 0 p
  | fail e => exact (chain_stop (fun _ z p => s.step p (T / N) z) _ N (by intro s h; cases h)).symm
  | panic => exact (chain_stop (fun _ z p => s.step p (T / N) z) _ N (by intro s h; cases h)).symm

/-- **C91.** The Heston/Hull-White simulator with the constant targets of its parameters (its `simulate`
knows no others, `C67_theta_fn_false`): the same. -/
theorem C91_hhw (q : HhwSim) (hq : ∀ t, q.theta t = (q.params.thetaD, q.params.thetaF))
    (draws : ℕ → Fin 4 → ℝ)
    (hf : ∀ d, val ≤ d → yfOrZero dc val d = .ok (f d)) (hinc : ∀ a b, val ≤ a → a < b → f a < f b)
    (hreg : ∀ k ≤ N, f (val + k * step) = k * (T / N)) (hg : OnGrid val dates step N)
    (hN : 0 < N) (hT : 0 < T) {r : DatedPaths HhwState}
    (h : simulateAtDates ks (q.toModel draws) 0 val dates n step dc = .ok r) :
    ∃ l, r.statesAt ks (val + N * step) = .ok (some l) ∧ q.simulate draws T N n = .ok l := by
  refine ⟨_, C91_regular (s0 := HhwState.initial q.params)
    (g := fun z s t dt => q.euler s dt (q.theta t).1 (q.theta t).2 z) hf hinc hreg hg h hg.ends, ?_⟩
  have hn := (captured_exact hf hinc h).1
  have hdt : 0 < T / N := div_pos hT (by exact_mod_cast hN)
  rw [HhwSim.simulate, if_pos ⟨hN, hn, hT⟩, hhw_pathsLoop q hdt]
  congr 1
  refine List.map_congr_left fun i _ => ?_
  rw [regularRun, zero_add]
  congr 1
  funext k s z
  rw [hq]
  rfl

/-- **C91.** The Heston/Hull-White simulator with a stock: the same. -/
theorem C91_stock (q : HhwStockSim) (draws : ℕ → Fin 6 → ℝ)
    (hf : ∀ d, val ≤ d → yfOrZero dc val d = .ok (f d)) (hinc : ∀ a b, val ≤ a → a < b → f a < f b)
    (hreg : ∀ k ≤ N, f (val + k * step) = k * (T / N)) (hg : OnGrid val dates step N)
    (hN : 0 < N) (hT : 0 < T) {r : DatedPaths HhwStockState}
    (h : simulateAtDates ks (q.toModel draws) 0 val dates n step dc = .ok r) :
    ∃ l, r.statesAt ks (val + N * step) = .ok (some l) ∧ q.simulate draws T N n = .ok l := by
  refine ⟨_, C91_regular (s0 := HhwStockState.initial q.params q.equity)
    (g := fun z s _ dt => q.euler s dt z) hf hinc hreg hg h hg.ends, ?_⟩
  have hn := (captured_exact hf hinc h).1
  have hdt : 0 < T / N := div_pos hT (by exact_mod_cast hN)
  rw [HhwStockSim.simulate, if_pos ⟨hN, hn, hT⟩, stock_pathsLoop q hdt]
  congr 1
  refine List.map_congr_left fun i _ => ?_
  rw [regularRun, zero_add]
  rfl

/-- **C91.** The FX forward market model: the same. -/
theorem C91_fx_fmm {p : FmmParams} {s : FxFmmSim} (hs : FxFmmSim.new p = .ok s) (hq : p.tenor.Ordered)
    {st0 : FxFmmState} (hst : FxFmmState.initial p = .ok st0) (draws : ℕ → Fin s.size → ℝ)
    (hf : ∀ d, val ≤ d → yfOrZero dc val d = .ok (f d)) (hinc : ∀ a b, val ≤ a → a < b → f a < f b)
    (hreg : ∀ k ≤ N, f (val + k * step) = k * (T / N)) (hg : OnGrid val dates step N)
    (hN : 0 < N) (hT : 0 < T) {r : DatedPaths FxFmmState}
    (h : simulateAtDates ks (s.toModel st0 draws) 0 val dates n step dc = .ok r) :
    ∃ l, r.statesAt ks (val + N * step) = .ok (some l) ∧ s.simulateTerminal draws T N n = .ok l := by
  refine ⟨_, C91_regular (s0 := st0) (g := fun z st _ dt => s.next st dt z) hf hinc hreg hg h hg.ends, ?_⟩
  have hn := (captured_exact hf hinc h).1
  have hdt : 0 < T / N := div_pos hT (by exact_mod_cast hN)
  obtain ⟨rfl, hv, -⟩ := fxFmm_new hs
  obtain ⟨st, i1, i2, -⟩ := C68_initial s.params hq
  obtain rfl : st = st0 := Outcome.ok.inj (i1.symm.trans hst)
  rw [FxFmmSim.simulateTerminal, if_pos ⟨hT, hN, hn⟩, fxFmm_pathsLoop hq hv hdt i1 i2]
  congr 1
  refine List.map_congr_left fun i _ => ?_
  rw [regularRun, zero_add]
  rfl

/-! ## What holds at every date -/

/-- **C91.** A state of the forward market model carries the time of its date, and no step panics. -/
theorem C91_fmm_time {s : FmmSimulator} (hv : s.model.Valid) {draws : ℕ → List ℝ}
    (hf : ∀ d, val ≤ d → yfOrZero dc val d = .ok (f d)) (hinc : ∀ a b, val ≤ a → a < b → f a < f b)
    {m : ℕ} {r : DatedPaths (Outcome FmmPath)}
    (h : simulateAtDates ks (s.toModel draws) m val dates n step dc = .ok r) {d : Int} (hd : d ∈ dates) :
    ∃ c, r.statesAt ks d = .ok (some c) ∧ c.length = n
      ∧ ∀ o ∈ c, ∃ p : FmmPath, o = .ok p ∧ p.Fits s.model.tenor.m ∧ p.t = f d - f val := by
  refine C91_invariant hf hinc h
    (fun t o => ∃ p : FmmPath, o = .ok p ∧ p.Fits s.model.tenor.m ∧ p.t = t - f val) (fun m => ?_) ?_ hd
  · obtain ⟨p, h1, h2, h3, -⟩ := initial_ok (s := s) hv.tenor
    exact ⟨p, h1, h2, by rw [h3, sub_self]⟩
  · rintro m o a b hab ⟨p, rfl, hp, ht⟩
    obtain ⟨n1, n2, n3, -⟩ := next_ok hv hp (sub_pos.2 hab) (draws m)
    exact ⟨_, n1, n2, by rw [n3, ht]; ring⟩

/-- **C91.** SABR forwards stay non-negative and volatilities positive at every date. -/
theorem C91_sabr_signs (p : Sabr) (hp : 0 < p.alpha) {forward0 : ℝ} (h0 : 0 ≤ forward0)
    {draws : ℕ → Fin 2 → ℝ}
    (hf : ∀ d, val ≤ d → yfOrZero dc val d = .ok (f d)) (hinc : ∀ a b, val ≤ a → a < b → f a < f b)
    {m : ℕ} {r : DatedPaths (Outcome SabrState)}
    (h : simulateAtDates ks (p.toModel forward0 draws) m val dates n step dc = .ok r) {d : Int}
    (hd : d ∈ dates) :
    ∃ c, r.statesAt ks d = .ok (some c) ∧ c.length = n
      ∧ ∀ o ∈ c, ∃ s : SabrState, o = .ok s ∧ 0 ≤ s.forward ∧ 0 < s.vol := by
  refine C91_invariant hf hinc h
    (fun _ o => ∃ s : SabrState, o = .ok s ∧ 0 ≤ s.forward ∧ 0 < s.vol) (fun m => ⟨_, rfl, h0, hp⟩) ?_ hd
  rintro m o a b hab ⟨s, rfl, -, hs⟩
  refine ⟨_, if_pos (sub_pos.2 hab), le_max_right _ _, ?_⟩
  exact mul_pos (lt_max_of_lt_left hs) (Real.exp_pos _)

/-- **C91.** Square-root variances stay non-negative at every date. -/
theorem C91_cir (p : Cir) (hp : 0 ≤ p.sigma0) {draws : ℕ → ℝ}
    (hf : ∀ d, val ≤ d → yfOrZero dc val d = .ok (f d)) (hinc : ∀ a b, val ≤ a → a < b → f a < f b)
    {m : ℕ} {r : DatedPaths ℝ}
    (h : simulateAtDates ks (p.toModel draws) m val dates n step dc = .ok r) {d : Int} (hd : d ∈ dates) :
    ∃ c, r.statesAt ks d = .ok (some c) ∧ c.length = n ∧ ∀ v ∈ c, 0 ≤ v :=
  C91_invariant hf hinc h (fun _ v => 0 ≤ v) (fun _ => hp) (fun _ _ _ _ _ _ => le_max_right _ _) hd

theorem walk_chain (s0 : S) (g : E → S → ℝ → ℝ → S) (x : ℕ → E) (f : Int → ℝ) (D : Int) (later : List Int) :
    ∀ (val : Int) (s : S) (k : ℕ), (walk (drawSim s0 g x) f val later (s, k)).1
      = chain (fun j s z => g z s ((f ((val :: later).getD j D) + f ((val :: later).getD (j + 1) D)) / 2)
          (f ((val :: later).getD (j + 1) D) - f ((val :: later).getD j D))) later.length s
          (fun j => x (k + j)) := by
  induction later with
  | nil => intro val s k; rfl
  | cons d ds ih =>
    intro val s k
    rw [walk]
    change (walk (drawSim s0 g x) f d ds (_, k + 1)).1 = _
    rw [ih, List.length_cons, chain_front]
    congr 1
    funext j
    rw [show k + 1 + j = k + (j + 1) by omega]

/-- **C91.** At every requested date the Hull-White rate of every path is exactly normal; mean and
variance follow the Euler steps between the integration dates. -/
theorem C91_hull_white_law {Ω : Type} [MeasurableSpace Ω] {P : Measure Ω} [IsProbabilityMeasure P]
    {ξ : ℕ → Ω → ℝ} (hξ : NormalDraws P ξ) (hw : HullWhite) (θ : ℝ → ℝ) (r0 : ℝ)
    (hf : ∀ d, val ≤ d → yfOrZero dc val d = .ok (f d)) (hinc : ∀ a b, val ≤ a → a < b → f a < f b)
    {r : Ω → DatedPaths ℝ}
    (h : ∀ ω, simulateAtDates ks (hw.toModel θ r0 fun k => ξ k ω) 0 val dates n step dc = .ok (r ω))
    {d : Int} (hd : d ∈ dates) {i : ℕ} (hi : i < n) :
    ∃ (X : Ω → ℝ) (later : List Int) (t : ℕ → ℝ) (K : ℕ), IsGrid val dates step later
      ∧ (val :: later)[K]? = some d ∧ (∀ k ≤ K, ∃ e, (val :: later)[k]? = some e ∧ t k = f e)
      ∧ (∀ ω, ∃ c, (r ω).statesAt ks d = .ok (some c) ∧ c[i]? = some (X ω))
      ∧ P.map X = gaussianReal (steppedMean hw.lambda θ t r0 K)
          (steppedVariance hw.lambda hw.sigma t K).toNNReal := by
  obtain ⟨ω0⟩ : Nonempty Ω := P.nonempty_of_neZero
  obtain ⟨later, hgrid, -⟩ := statesAt_exact hf hinc (h ω0) hd
  have hval := (captured_exact hf hinc (h ω0)).2.2.1 d hd
  have hmd : d ∈ later := (hgrid.mem d).2 (.inl hd)
  obtain ⟨p1, p2⟩ := List.pairwise_cons.1 hgrid.increasing
  have hL : later = later.filter (fun g => decide (g ≤ d)) ++ later.filter fun g => decide (d < g) := by
    have hsub : ∀ l : List Int, l.Pairwise (· < ·) → l = l.filter (fun g => decide (g ≤ d))
        ++ l.filter fun g => decide (d < g) := by
      intro l hl
      induction l with
      | nil => rfl
      | cons a l ih =>
        obtain ⟨q1, q2⟩ := List.pairwise_cons.1 hl
        by_cases ha : a ≤ d
        · rw [List.filter_cons_of_pos (by simpa using ha), List.filter_cons_of_neg (by simpa using ha),
            List.cons_append, ← ih q2]
        · have hnil : l.filter (fun g => decide (g ≤ d)) = [] := by
            refine List.filter_eq_nil_iff.2 fun x hx => ?_
            have := q1 x hx
            simp only [decide_eq_true_iff]
            omega
          have hall : l.filter (fun g => decide (d < g)) = l := by
            refine List.filter_eq_self.2 fun x hx => ?_
            have := q1 x hx
            simp only [decide_eq_true_iff]
            omega
          rw [List.filter_cons_of_neg (by simpa using ha), List.filter_cons_of_pos (by simpa using ha),
            hnil, hall, List.nil_append]
    exact hsub later p2
  set L := later.filter (fun g => decide (g ≤ d)) with hLd
  have hlast : lastDate val L = d := lastDate_filter hgrid.increasing (List.mem_cons_of_mem _ hmd)
  have hLinc : (val :: L).Pairwise (· < ·) :=
    List.pairwise_cons.2 ⟨fun x hx => p1 x (List.mem_of_mem_filter hx), p2.filter _⟩
  set t : ℕ → ℝ := fun k => f ((val :: L).getD k d) with ht
  have hidx : ∀ k ≤ L.length, ∃ e, (val :: L)[k]? = some e ∧ t k = f e
      ∧ (val :: later)[k]? = some e := by
    intro k hk
    have hk' : k < (val :: L).length := by rw [List.length_cons]; omega
    refine ⟨(val :: L)[k], List.getElem?_eq_getElem hk', ?_, ?_⟩
    · simp only [ht, List.getD, List.getElem?_eq_getElem hk', Option.getD_some]
    · rw [show val :: later = (val :: L) ++ later.filter fun g => decide (d < g) by
        rw [List.cons_append, ← hL], List.getElem?_append_left hk', List.getElem?_eq_getElem hk']
  have hK : (val :: L)[L.length]? = some d := by
    have : (val :: L).getLast? = some d := by
      rw [List.getLast?_eq_some_getLast (List.cons_ne_nil _ _)]
      exact congrArg some hlast
    rw [List.getLast?_eq_getElem?] at this
    simpa using this
  have hmono : ∀ k, 0 ≤ t (k + 1) - t k := by
    intro k
    by_cases hk : k + 1 ≤ L.length
    · have h1 : k < (val :: L).length := by rw [List.length_cons]; omega
      have h2 : k + 1 < (val :: L).length := by rw [List.length_cons]; omega
      have hlt := List.pairwise_iff_getElem.1 hLinc k (k + 1) h1 h2 (by omega)
      have hge : val ≤ (val :: L)[k] := by
        rcases List.mem_cons.1 (List.getElem_mem h1) with e | e
        · omega
        · exact (p1 _ (List.mem_of_mem_filter e)).le
      have := hinc _ _ hge hlt
      simp only [ht, List.getD, List.getElem?_eq_getElem h1, List.getElem?_eq_getElem h2, Option.getD_some]
      linarith
    · have e1 : t (k + 1) = f d := by
        simp only [ht, List.getD]
        rw [List.getElem?_eq_none (by rw [List.length_cons]; omega)]
        rfl
      have e2 : t k = f d := by
        simp only [ht, List.getD]
        by_cases hk2 : k = L.length
        · rw [hk2, hK]; rfl
        · rw [List.getElem?_eq_none (by rw [List.length_cons]; omega)]
          rfl
      rw [e1, e2, sub_self]
  have hvar : ∀ k, 0 ≤ steppedVariance hw.lambda hw.sigma t k := by
    intro k
    induction k with
    | zero => exact le_rfl
    | succ k ih =>
      rw [steppedVariance]
      exact add_nonneg (mul_nonneg (sq_nonneg _) ih) (mul_nonneg (sq_nonneg _) (hmono k))
  set stp : ℕ → ℝ → ℝ → ℝ := fun j s z => hw.step θ s ((t j + t (j + 1)) / 2) (t (j + 1) - t j) z with hstp
  have hgauss := (chain_gauss (gaussianReal 0 1) stp (fun _ _ => True) (fun _ _ _ _ => trivial) id
    (fun k => 1 - hw.lambda * (t (k + 1) - t k))
    (fun k => hw.lambda * θ ((t k + t (k + 1)) / 2) * (t (k + 1) - t k))
    (fun k => (hw.sigma ^ 2 * (t (k + 1) - t k)).toNNReal)
    (fun k z => hw.sigma * √(t (k + 1) - t k) * z) (fun k => by fun_prop) (fun k => by
      rw [gaussianReal_map_const_mul, mul_zero, mul_one]
      congr 1
      apply NNReal.eq
      rw [Real.coe_toNNReal _ (mul_nonneg (sq_nonneg _) (hmono k))]
      change (hw.sigma * √(t (k + 1) - t k)) ^ 2 = _
      rw [mul_pow, Real.sq_sqrt (hmono k)])
    (fun k s z _ => by
      simp only [id, hstp, HullWhite.step]
      ring)
    (steppedMean hw.lambda θ t r0) (fun k => (steppedVariance hw.lambda hw.sigma t k).toNNReal) (s := r0)
    trivial rfl (by simp [steppedVariance]) (fun k => by rw [steppedMean]; ring) (fun k => by
      rw [Real.coe_toNNReal _ (hvar _), Real.coe_toNNReal _ (hvar _),
        Real.coe_toNNReal _ (mul_nonneg (sq_nonneg _) (hmono k)), steppedVariance]) L.length)
  refine ⟨fun ω => chain stp L.length r0 fun j => ξ (i * later.length + j) ω, later, t, L.length, hgrid,
    ?_, fun k hk => ?_, fun ω => ?_, ?_⟩
  · obtain ⟨e, e1, -, e3⟩ := hidx L.length le_rfl
    rw [e3, ← e1, hK]
  · obtain ⟨e, -, e2, e3⟩ := hidx k hk
    exact ⟨e, e3, e2⟩
  · obtain ⟨later', hgrid', e⟩ := statesAt_exact hf hinc (h ω) hd
    have : later' = later := increasing_ext (List.pairwise_cons.1 hgrid'.increasing).2 p2 fun x => by
      rw [hgrid.mem, hgrid'.mem]
    subst this
    refine ⟨_, e, ?_⟩
    have hm : hw.toModel θ r0 (fun k => ξ k ω)
      = drawSim r0 (fun z s t dt => hw.step θ s t dt z) fun k => ξ k ω := rfl
    rw [hm, expectedPaths_drawSim]
    simp only [List.map_singleton, zero_add]
    rw [flatten_singletons fun j => stateAt (drawSim r0 (fun z s t dt => hw.step θ s t dt z)
      fun k => ξ k ω) f val later' (j * later'.length) d, List.getElem?_map, List.getElem?_range hi,
      Option.map_some]
    congr 1
    rw [stateAt, ← hLd]
    exact walk_chain r0 (fun z s t dt => hw.step θ s t dt z) (fun k => ξ k ω) f d L val r0 _
  · have hX : (fun ω => chain stp L.length r0 fun j => ξ (i * later.length + j) ω)
        = (fun zs : Fin L.length → ℝ => chain stp L.length r0 (firstDraws zs))
          ∘ drawBlock ξ (i * later.length) L.length 0 := by
      funext ω
      simp only [Function.comp_apply]
      refine chain_congr _ _ _ fun k hk => ?_
      rw [firstDraws, dif_pos hk, drawBlock, zero_mul, add_zero]
    have hmeas : Measurable fun zs : Fin L.length → ℝ => chain stp L.length r0 (firstDraws zs) := hgauss.1
    rw [hX, ← Measure.map_map hmeas (drawBlock_measurable hξ _ _ _), drawBlock_law hξ]
    exact hgauss.2

/-! ## Which other dates are requested -/

theorem act365_later {ks : KeySearch} {sim : SimModel S ℕ} {r : DatedPaths S} {val : Int} {dates : List Int}
    {n step : ℕ} (h : simulateAtDates ks sim 0 val dates n step act365Dc = .ok r) {d : Int} (hd : d ∈ dates)
    {L : List Int} (hL : L.Pairwise (· < ·))
    (hm : ∀ g, g ∈ L ↔ g ∈ dates ∨ (val < g ∧ (step : Int) ∣ g - val ∧ ∃ d ∈ dates, g ≤ d)) :
    r.statesAt ks d = .ok (some (expectedPaths sim (fun d => ((d - val : Int) : ℝ) / 365) val L [d] n 0).flatten) := by
  obtain ⟨l, g, e⟩ := statesAt_exact (f := fun d => ((d - val : Int) : ℝ) / 365) (fun _ _ => rfl)
    (act365Dc_increasing _) h hd
  rwa [increasing_ext (List.pairwise_cons.1 g.increasing).2 hL fun x => by rw [g.mem, hm]] at e

/-- **C91 refuted for the other requests.** A Brownian motion with ten-day steps and the draws
`0, 1, 2, …`, observed after ten days.  Asking for the fifth day as well changes the state of the tenth,
already on the first path; asking for the twentieth day changes it on the second. -/
theorem C91_other_dates_false (ks : KeySearch) :
    ∃ rA rB rC : DatedPaths ℝ, ∃ a a' b b' c c' : ℝ,
      simulateAtDates ks (brownian 0 0 1 fun k => k) 0 0 [10] 2 10 act365Dc = .ok rA
      ∧ simulateAtDates ks (brownian 0 0 1 fun k => k) 0 0 [5, 10] 2 10 act365Dc = .ok rB
      ∧ simulateAtDates ks (brownian 0 0 1 fun k => k) 0 0 [10, 20] 2 10 act365Dc = .ok rC
      ∧ rA.statesAt ks 10 = .ok (some [a, a']) ∧ rB.statesAt ks 10 = .ok (some [b, b'])
      ∧ rC.statesAt ks 10 = .ok (some [c, c']) ∧ a < b ∧ a = c ∧ a' < c' := by
  have hmin : minDay ≤ 0 := by decide +kernel
  have hmax : (30 : Int) ≤ maxDay := by decide +kernel
  obtain ⟨rA, hA⟩ := C50_total ks (brownian 0 0 1 fun k => k) 0 0 [10] 2 10 act365Dc (by decide)
    (by decide) (by decide) (by simp) hmin (by intro d hd; simp at hd; subst hd; push_cast; omega)
    (fun d _ h => by cases h)
  obtain ⟨rB, hB⟩ := C50_total ks (brownian 0 0 1 fun k => k) 0 0 [5, 10] 2 10 act365Dc (by decide)
    (by decide) (by decide) (by simp) hmin
    (by intro d hd; simp at hd; rcases hd with rfl | rfl <;> push_cast <;> omega) (fun d _ h => by cases h)
  obtain ⟨rC, hC⟩ := C50_total ks (brownian 0 0 1 fun k => k) 0 0 [10, 20] 2 10 act365Dc (by decide)
    (by decide) (by decide) (by simp) hmin
    (by intro d hd; simp at hd; rcases hd with rfl | rfl <;> push_cast <;> omega) (fun d _ h => by cases h)
  have eA := act365_later hA (d := 10) (by simp) (L := [10]) (by simp) (by
    intro g
    simp only [List.mem_singleton, exists_eq_left, sub_zero, Nat.cast_ofNat]
    constructor
    · exact fun h => .inl h
    · rintro (h | ⟨h1, ⟨k, h2⟩, h3⟩) <;> omega)
  have eB := act365_later hB (d := 10) (by simp) (L := [5, 10]) (by simp) (by
    intro g
    simp only [List.mem_cons, List.not_mem_nil, or_false, exists_eq_or_imp, exists_eq_left, sub_zero,
      Nat.cast_ofNat]
    constructor
    · exact fun h => .inl h
    · rintro (h | ⟨h1, ⟨k, h2⟩, h3⟩) <;> omega)
  have eC := act365_later hC (d := 10) (by simp) (L := [10, 20]) (by simp) (by
    intro g
    simp only [List.mem_cons, List.not_mem_nil, or_false, exists_eq_or_imp, exists_eq_left, sub_zero,
      Nat.cast_ofNat]
    constructor
    · exact fun h => .inl h
    · rintro (h | ⟨h1, ⟨k, h2⟩, h3⟩) <;> omega)
  refine ⟨rA, rB, rC, _, _, _, _, _, _, hA, hB, hC, eA, eB, eC, ?_⟩
  have h1 : (0 : ℝ) < √(5 / 365) := Real.sqrt_pos.2 (by norm_num)
  have h2 : (0 : ℝ) < √(10 / 365) := Real.sqrt_pos.2 (by norm_num)
  have w : ∀ (s : ℝ) (k : ℕ) (prev : Int) (l : List Int) (d : Int),
      walk (brownian 0 0 1 fun k => k) (fun d => ((d - 0 : Int) : ℝ) / 365) prev (d :: l) (s, k)
        = walk (brownian 0 0 1 fun k => k) (fun d => ((d - 0 : Int) : ℝ) / 365) d l
          (s + √(((d - prev : Int) : ℝ) / 365) * k, k + 1) := by
    intro s k prev l d
    rw [walk]
    congr 2
    simp only [brownian]
    push_cast
    ring_nf
  have w0 : ∀ (prev : Int) (x : ℝ × ℕ),
      walk (brownian 0 0 1 fun k => k) (fun d => ((d - 0 : Int) : ℝ) / 365) prev [] x = x := fun _ _ => rfl
  have i0 : ∀ k, (brownian 0 0 1 fun k => k).initial k = 0 := fun _ => rfl
  simp only [stateAt, w, w0, i0, List.filter, Int.reduceLE, decide_true, decide_false, Int.reduceSub]
  norm_num

/-! ## Examples: a year in steps of a fifth, observed after one and after five of them -/

theorem fifths_run (ks : KeySearch) (sim : SimModel S ℕ) {n : ℕ} (hn : 0 < n) :
    ∃ r, simulateAtDates ks sim 0 (ymd 2025 1 1) [ymd 2025 1 1 + 365, ymd 2025 1 1 + 73] n 73 act365Dc = .ok r :=
  C50_total ks sim 0 _ _ n 73 act365Dc hn (by decide) (by decide) (by decide +kernel) (by decide +kernel)
    (by decide +kernel) (fun d _ h => by cases h)

theorem fifths_grid : OnGrid (ymd 2025 1 1) [ymd 2025 1 1 + 365, ymd 2025 1 1 + 73] 73 5 where
  after := by decide +kernel
  ends := by decide +kernel

theorem fifths_regular : ∀ k ≤ 5, (fun d : Int => ((d - ymd 2025 1 1 : Int) : ℝ) / 365)
    (ymd 2025 1 1 + (k : ℕ) * (73 : ℕ)) = k * (1 / (5 : ℕ)) := by
  intro k _
  beta_reduce
  rw [add_sub_cancel_left]
  push_cast
  ring

/-- SABR. -/
example : ∃ (ks : KeySearch) (r : DatedPaths (Outcome SabrState)) (l : List (Outcome SabrState)),
    simulateAtDates ks ((⟨2 / 10, 1 / 2, -3 / 10, 4 / 10⟩ : Sabr).toModel 1 fun _ _ => 1) 0 (ymd 2025 1 1)
      [ymd 2025 1 1 + 365, ymd 2025 1 1 + 73] 3 73 act365Dc = .ok r
    ∧ r.statesAt ks (ymd 2025 1 1 + 365) = .ok (some l)
    ∧ (⟨2 / 10, 1 / 2, -3 / 10, 4 / 10⟩ : Sabr).simulate 1 (fun _ _ => 1) 1 5 3 = together l
    ∧ ∀ o ∈ l, ∃ s : SabrState, o = .ok s ∧ 0 ≤ s.forward ∧ 0 < s.vol := by
  obtain ⟨ks⟩ := exists_keySearch
  obtain ⟨r, hr⟩ := fifths_run ks ((⟨2 / 10, 1 / 2, -3 / 10, 4 / 10⟩ : Sabr).toModel 1 fun _ _ => 1)
    (n := 3) (by decide)
  obtain ⟨l, h1, h2⟩ := C91_sabr _ 1 (fun _ _ => 1) (fun d _ => rfl) (act365Dc_increasing _) fifths_regular
    fifths_grid (by decide) one_pos hr
  have e : ymd 2025 1 1 + ((5 : ℕ) : Int) * (73 : ℕ) = ymd 2025 1 1 + 365 := by norm_num
  rw [e] at h1
  refine ⟨ks, r, l, hr, h1, h2, ?_⟩
  obtain ⟨c, c1, -, c3⟩ := C91_sabr_signs ⟨2 / 10, 1 / 2, -3 / 10, 4 / 10⟩ (by norm_num) zero_le_one
    (fun d _ => rfl) (act365Dc_increasing _) hr (d := ymd 2025 1 1 + 365) (by simp)
  obtain rfl : l = c := by
    rw [h1] at c1
    exact Option.some.inj (Outcome.ok.inj c1)
  exact c3

/-- The forward market model. -/
example : ∃ (ks : KeySearch) (s : FmmSimulator) (r : DatedPaths (Outcome FmmPath)) (l : List (Outcome FmmPath)),
    FmmSimulator.new exForward = .ok s
    ∧ simulateAtDates ks (s.toModel fun _ => [1, 2]) 0 (ymd 2025 1 1)
      [ymd 2025 1 1 + 365, ymd 2025 1 1 + 73] 3 73 act365Dc = .ok r
    ∧ r.statesAt ks (ymd 2025 1 1 + 365) = .ok (some l)
    ∧ s.simulateTerminal (fun _ => [1, 2]) 1 5 3 = together l
    ∧ ∀ o ∈ l, ∃ p : FmmPath, o = .ok p ∧ p.t = 1 := by
  obtain ⟨ks⟩ := exists_keySearch
  obtain ⟨s, hs⟩ := exForward_simulator
  obtain ⟨r, hr⟩ := fifths_run ks (s.toModel fun _ => [1, 2]) (n := 3) (by decide)
  obtain ⟨l, h1, h2⟩ := C91_fmm s (fun _ => [1, 2]) (fun d _ => rfl) (act365Dc_increasing _) fifths_regular
    fifths_grid (by decide) one_pos hr
  have e : ymd 2025 1 1 + ((5 : ℕ) : Int) * (73 : ℕ) = ymd 2025 1 1 + 365 := by norm_num
  rw [e] at h1
  refine ⟨ks, s, r, l, hs, hr, h1, h2, ?_⟩
  have hv : s.model.Valid := by
    rw [(fmm_diagonal exForward_valid hs exForward_symm).1]
    exact exForward_valid
  obtain ⟨c, c1, -, c3⟩ := C91_fmm_time hv (fun d _ => rfl) (act365Dc_increasing _) hr
    (d := ymd 2025 1 1 + 365) (by simp)
  obtain rfl : l = c := by
    rw [h1] at c1
    exact Option.some.inj (Outcome.ok.inj c1)
  intro o ho
  obtain ⟨p, p1, -, p3⟩ := c3 o ho
  refine ⟨p, p1, p3.trans ?_⟩
  norm_num

/-- Time-dependent SABR. -/
example : ∃ (ks : KeySearch) (p : TdSabr) (r : DatedPaths (Outcome SabrState)) (l : List (Outcome SabrState)),
    p = ⟨⟨[0, 1, 2], [0.2, 0.3]⟩, ⟨[0, 1, 2], [-0.3, -0.2]⟩, ⟨[0, 1, 2], [0.4, 0.4]⟩, 0.5, 1.3⟩
    ∧ simulateAtDates ks (p.toModel fun _ _ => 1) 0 (ymd 2025 1 1)
      [ymd 2025 1 1 + 365, ymd 2025 1 1 + 73] 3 73 act365Dc = .ok r
    ∧ r.statesAt ks (ymd 2025 1 1 + 365) = .ok (some l) ∧ p.simulate (fun _ _ => 1) 1 5 3 = together l := by
  obtain ⟨ks⟩ := exists_keySearch
  obtain ⟨r, hr⟩ := fifths_run ks ((⟨⟨[0, 1, 2], [0.2, 0.3]⟩, ⟨[0, 1, 2], [-0.3, -0.2]⟩,
    ⟨[0, 1, 2], [0.4, 0.4]⟩, 0.5, 1.3⟩ : TdSabr).toModel fun _ _ => 1) (n := 3) (by decide)
  obtain ⟨l, h1, h2⟩ := C91_td_sabr _ (fun _ _ => 1) (fun d _ => rfl) (act365Dc_increasing _) fifths_regular
    fifths_grid (by decide) one_pos hr
  exact ⟨ks, _, r, l, rfl, hr, by simpa using h1, h2⟩

/-- Heston/Hull-White, alone and with a stock. -/
example : ∃ (ks : KeySearch) (q : HhwSim) (r : DatedPaths HhwState) (l : List HhwState),
    HhwSim.new exHhwSim = .ok q
    ∧ simulateAtDates ks (q.toModel fun _ _ => 1) 0 (ymd 2025 1 1)
      [ymd 2025 1 1 + 365, ymd 2025 1 1 + 73] 3 73 act365Dc = .ok r
    ∧ r.statesAt ks (ymd 2025 1 1 + 365) = .ok (some l) ∧ q.simulate (fun _ _ => 1) 1 5 3 = .ok l := by
  obtain ⟨ks⟩ := exists_keySearch
  obtain ⟨q, hq⟩ := exHhwSim_new
  obtain ⟨r, hr⟩ := fifths_run ks (q.toModel fun _ _ => 1) (n := 3) (by decide)
  obtain ⟨l, h1, h2⟩ := C91_hhw q (by rw [((C67_new _).2.2 q hq).1]; exact ((C67_new _).2.2 q hq).2) (fun _ _ => 1) (fun d _ => rfl) (act365Dc_increasing _)
    fifths_regular fifths_grid (by decide) one_pos hr
  exact ⟨ks, q, r, l, hq, hr, by simpa using h1, h2⟩

/-- With the stock of `exForeignStock`. -/
example : ∃ (ks : KeySearch) (q : HhwStockSim) (r : DatedPaths HhwStockState) (l : List HhwStockState),
    HhwStockSim.new exHhwSim exForeignStock = .ok q
    ∧ simulateAtDates ks (q.toModel fun _ _ => 1) 0 (ymd 2025 1 1)
      [ymd 2025 1 1 + 365, ymd 2025 1 1 + 73] 3 73 act365Dc = .ok r
    ∧ r.statesAt ks (ymd 2025 1 1 + 365) = .ok (some l) ∧ q.simulate (fun _ _ => 1) 1 5 3 = .ok l := by
  obtain ⟨ks⟩ := exists_keySearch
  obtain ⟨q, hq⟩ := (C72_new exHhwSim exForeignStock).1.2 ⟨(C67_new _).1.1 exHhwSim_new, by
    norm_num [exForeignStock, abs_le], by norm_num [exForeignStock, abs_le]⟩
  obtain ⟨r, hr⟩ := fifths_run ks (q.toModel fun _ _ => 1) (n := 3) (by decide)
  obtain ⟨l, h1, h2⟩ := C91_stock q (fun _ _ => 1) (fun d _ => rfl) (act365Dc_increasing _)
    fifths_regular fifths_grid (by decide) one_pos hr
  exact ⟨ks, q, r, l, hq, hr, by simpa using h1, h2⟩

/-- The FX forward market model. -/
example : ∃ (ks : KeySearch) (s : FxFmmSim) (st : FxFmmState) (r : DatedPaths FxFmmState) (l : List FxFmmState),
    FxFmmSim.new exFxSkew = .ok s ∧ FxFmmState.initial exFxSkew = .ok st
    ∧ simulateAtDates ks (s.toModel st fun _ _ => 1) 0 (ymd 2025 1 1)
      [ymd 2025 1 1 + 365, ymd 2025 1 1 + 73] 3 73 act365Dc = .ok r
    ∧ r.statesAt ks (ymd 2025 1 1 + 365) = .ok (some l)
    ∧ s.simulateTerminal (fun _ _ => 1) 1 5 3 = .ok l := by
  obtain ⟨ks⟩ := exists_keySearch
  obtain ⟨s, hs⟩ := exFxSkew_new
  obtain ⟨st, i1, -⟩ := C68_initial exFxSkew exFxSkew_ordered
  obtain ⟨r, hr⟩ := fifths_run ks (s.toModel st fun _ _ => 1) (n := 3) (by decide)
  obtain ⟨l, h1, h2⟩ := C91_fx_fmm hs exFxSkew_ordered i1 (fun _ _ => 1) (fun d _ => rfl)
    (act365Dc_increasing _) fifths_regular fifths_grid (by decide) one_pos hr
  exact ⟨ks, s, st, r, l, hs, i1, hr, by simpa using h1, h2⟩

/-- A square-root variance. -/
example : ∃ (ks : KeySearch) (r : DatedPaths ℝ) (l : List ℝ),
    simulateAtDates ks ((⟨2, 1 / 25, 3 / 10, 1 / 25⟩ : Cir).toModel fun _ => -9) 0 (ymd 2025 1 1)
      [ymd 2025 1 1 + 365, ymd 2025 1 1 + 73] 3 73 act365Dc = .ok r
    ∧ r.statesAt ks (ymd 2025 1 1 + 365) = .ok (some l) ∧ l.length = 3 ∧ ∀ v ∈ l, 0 ≤ v := by
  obtain ⟨ks⟩ := exists_keySearch
  obtain ⟨r, hr⟩ := fifths_run ks ((⟨2, 1 / 25, 3 / 10, 1 / 25⟩ : Cir).toModel fun _ => -9) (n := 3)
    (by decide)
  obtain ⟨l, h⟩ := C91_cir _ (by norm_num) (fun d _ => rfl) (act365Dc_increasing _) hr
    (d := ymd 2025 1 1 + 365) (by simp)
  exact ⟨ks, r, l, hr, h⟩

/-- The second of three Hull-White paths after the first fifth of a year. -/
example : ∃ (ks : KeySearch) (r : (ℕ → ℝ) → DatedPaths ℝ) (X : (ℕ → ℝ) → ℝ),
    (∀ ω, simulateAtDates ks ((⟨1 / 10, 1 / 100⟩ : HullWhite).toModel (fun t => t) (3 / 100) ω) 0
      (ymd 2025 1 1) [ymd 2025 1 1 + 365, ymd 2025 1 1 + 73] 3 73 act365Dc = .ok (r ω))
    ∧ (∀ ω, ∃ c, (r ω).statesAt ks (ymd 2025 1 1 + 73) = .ok (some c) ∧ c[1]? = some (X ω))
    ∧ (Measure.infinitePi fun _ : ℕ => gaussianReal 0 1).map X
      = gaussianReal (3 / 100 + 1 / 10 * (1 / 10 - 3 / 100) * (1 / 5)) (1 / 50000 : ℝ).toNNReal := by
  obtain ⟨ks⟩ := exists_keySearch
  choose r hr using fun ω : ℕ → ℝ => fifths_run ks
    ((⟨1 / 10, 1 / 100⟩ : HullWhite).toModel (fun t => t) (3 / 100) ω) (n := 3) (by decide)
  obtain ⟨X, later, t, K, hg, hK, ht, hX, hl⟩ := C91_hull_white_law exists_normalDraws ⟨1 / 10, 1 / 100⟩
    (fun t => t) (3 / 100) (fun d _ => rfl) (act365Dc_increasing _) hr (d := ymd 2025 1 1 + 73) (by simp)
    (i := 1) (by decide)
  refine ⟨ks, r, X, hr, hX, hl.trans ?_⟩
  obtain rfl : later = regularDates (ymd 2025 1 1) 73 5 := hg.regular (by decide)
    (fun d hd => ⟨(fifths_grid.after d hd).1, (fifths_grid.after d hd).2.1⟩) fifths_grid.ends
    (fun d hd => (fifths_grid.after d hd).2.2)
  obtain rfl : K = 1 := by
    have hl : K < 6 := by
      by_contra hc
      rw [List.getElem?_eq_none (by rw [List.length_cons, regular_length]; omega)] at hK
      cases hK
    have e : ∀ k < 6, (ymd 2025 1 1 :: regularDates (ymd 2025 1 1) 73 5)[k]? = some (ymd 2025 1 1 + 73) →
        k = 1 := by decide +kernel
    exact e K hl hK
  have t0 : t 0 = 0 := by
    obtain ⟨e, e1, e2⟩ := ht 0 (by decide)
    obtain rfl : ymd 2025 1 1 = e := Option.some.inj e1
    rw [e2]
    norm_num
  have t1 : t 1 = 1 / 5 := by
    obtain ⟨e, e1, e2⟩ := ht 1 le_rfl
    obtain rfl : ymd 2025 1 1 + 73 = e := Option.some.inj (hK.symm.trans e1)
    rw [e2]
    norm_num
  simp only [steppedMean, steppedVariance, zero_add, t0, t1]
  norm_num

end Verif
