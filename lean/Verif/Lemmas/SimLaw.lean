import Verif.Lemmas.BlockDraws
import Verif.Props.Simulation

/-!
# Laws of simulated paths: lemmas
-/

namespace Verif

open MeasureTheory ProbabilityTheory Filter Topology Measure Outcome

variable {Ω E S : Type} [MeasurableSpace Ω] [MeasurableSpace E] {P : Measure Ω} [IsProbabilityMeasure P]
  {ν : Measure E} {ξ : ℕ → Ω → E}

/-- A tuple indexed by a finite set of positions, extended to a sequence. -/
noncomputable def extendDraws [Inhabited E] (T : Finset ℕ) (y : T → E) : ℕ → E :=
  fun k => if h : k ∈ T then y ⟨k, h⟩ else default

theorem extendDraws_measurable [Inhabited E] (T : Finset ℕ) :
    Measurable (extendDraws (E := E) T) := by
  refine measurable_pi_lambda _ fun k => ?_
  unfold extendDraws
  by_cases h : k ∈ T
  · simp only [dif_pos h]; exact measurable_pi_apply _
  · simp only [dif_neg h]; exact measurable_const

/-- Functions of disjoint sets of draws are independent. -/
theorem indep_of_disjoint [Inhabited E] (h : IidDraws P ν ξ) {β γ : Type} [MeasurableSpace β]
    [MeasurableSpace γ] {F : (ℕ → E) → β} {G : (ℕ → E) → γ} (hF : Measurable F) (hG : Measurable G)
    {T U : Finset ℕ} (hTU : Disjoint T U) (hFT : ∀ x y, (∀ k ∈ T, x k = y k) → F x = F y)
    (hGU : ∀ x y, (∀ k ∈ U, x k = y k) → G x = G y) :
    IndepFun (fun ω => F fun k => ξ k ω) (fun ω => G fun k => ξ k ω) P := by
  have := (h.independent.indepFun_finset T U hTU h.measurable).comp
    (hF.comp (extendDraws_measurable T)) (hG.comp (extendDraws_measurable U))
  have e1 : (fun ω => F fun k => ξ k ω) = (F ∘ extendDraws T) ∘ fun ω (i : T) => ξ i ω := by
    funext ω
    exact hFT _ _ fun k hk => by rw [extendDraws, dif_pos hk]
  have e2 : (fun ω => G fun k => ξ k ω) = (G ∘ extendDraws U) ∘ fun ω (i : U) => ξ i ω := by
    funext ω
    exact hGU _ _ fun k hk => by rw [extendDraws, dif_pos hk]
  rw [e1, e2]
  exact this

/-- A block of draws, extended to a sequence. -/
noncomputable def extendBlock [Inhabited E] {L : ℕ} (b : Fin L → E) : ℕ → E :=
  fun k => if h : k < L then b ⟨k, h⟩ else default

theorem extendBlock_measurable [Inhabited E] {L : ℕ} :
    Measurable (extendBlock (E := E) (L := L)) := by
  refine measurable_pi_lambda _ fun k => ?_
  unfold extendBlock
  by_cases h : k < L
  · simp only [dif_pos h]; exact measurable_pi_apply _
  · simp only [dif_neg h]; exact measurable_const

/-! ### Paths as functions of the draws -/

theorem walk_position (s0 : S) (g : E → S → ℝ → ℝ → S) (x : ℕ → E) (f : Int → ℝ) (l : List Int) :
    ∀ (prev : Int) (s : S) (n : ℕ), (walk (drawSim s0 g x) f prev l (s, n)).2 = n + l.length := by
  induction l with
  | nil => intro prev s n; rfl
  | cons d l ih =>
    intro prev s n
    rw [walk]
    simp only [drawSim] at ih ⊢
    rw [ih, List.length_cons]; ring

theorem walk_congr (s0 : S) (g : E → S → ℝ → ℝ → S) (x y : ℕ → E) (f : Int → ℝ) (l : List Int) :
    ∀ (prev : Int) (s : S) (n n' : ℕ), (∀ k, k < l.length → x (n + k) = y (n' + k)) →
      (walk (drawSim s0 g x) f prev l (s, n)).1 = (walk (drawSim s0 g y) f prev l (s, n')).1 := by
  induction l with
  | nil => intro prev s n n' _; rfl
  | cons d l ih =>
    intro prev s n n' h
    rw [walk, walk]
    simp only [drawSim] at ih ⊢
    have h0 := h 0 (by simp)
    rw [add_zero, add_zero] at h0
    rw [h0]
    refine ih d _ _ _ fun k hk => ?_
    have := h (k + 1) (by simpa using hk)
    rw [show n + 1 + k = n + (k + 1) by ring, show n' + 1 + k = n' + (k + 1) by ring]
    exact this

theorem walk_measurable [MeasurableSpace S] (s0 : S) {g : E → S → ℝ → ℝ → S}
    (hg : ∀ t dt, Measurable fun p : E × S => g p.1 p.2 t dt) (f : Int → ℝ) (l : List Int) :
    ∀ (prev : Int) (n : ℕ), Measurable fun p : (ℕ → E) × S =>
      (walk (drawSim s0 g p.1) f prev l (p.2, n)).1 := by
  induction l with
  | nil => intro prev n; exact measurable_snd
  | cons d l ih =>
    intro prev n
    have h1 : Measurable fun p : (ℕ → E) × S => (p.1 n, p.2) :=
      ((measurable_pi_apply n).comp measurable_fst).prodMk measurable_snd
    have h2 : Measurable fun p : (ℕ → E) × S => g (p.1 n) p.2 ((f prev + f d) / 2) (f d - f prev) :=
      (hg ((f prev + f d) / 2) (f d - f prev)).comp h1
    exact (ih d (n + 1)).comp (measurable_fst.prodMk h2)

theorem stateAt_measurable [MeasurableSpace S] (s0 : S) {g : E → S → ℝ → ℝ → S}
    (hg : ∀ t dt, Measurable fun p : E × S => g p.1 p.2 t dt) (f : Int → ℝ) (val : Int)
    (later : List Int) (m : ℕ) (d : Int) :
    Measurable fun x : ℕ → E => stateAt (drawSim s0 g x) f val later m d :=
  (walk_measurable s0 hg f _ val m).comp (measurable_id.prodMk measurable_const)

theorem stateAt_congr (s0 : S) (g : E → S → ℝ → ℝ → S) {x y : ℕ → E} (f : Int → ℝ) (val : Int)
    (later : List Int) (m m' : ℕ) (d : Int)
    (h : ∀ k, k < (later.filter fun g => decide (g ≤ d)).length → x (m + k) = y (m' + k)) :
    stateAt (drawSim s0 g x) f val later m d = stateAt (drawSim s0 g y) f val later m' d :=
  walk_congr s0 g x y f _ val s0 m m' h

theorem expectedPaths_drawSim (s0 : S) (g : E → S → ℝ → ℝ → S) (x : ℕ → E) (f : Int → ℝ) (val : Int)
    (later obs : List Int) (n : ℕ) : ∀ m, expectedPaths (drawSim s0 g x) f val later obs n m
      = (List.range n).map fun j => obs.map (stateAt (drawSim s0 g x) f val later (m + j * later.length)) := by
  induction n with
  | zero => intro m; rfl
  | succ n ih =>
    intro m
    have hi : (drawSim s0 g x).initial m = s0 := rfl
    rw [expectedPaths, hi, walk_position, ih, List.range_succ_eq_map, List.map_cons, List.map_map,
      zero_mul, add_zero]
    congr 1
    refine List.map_congr_left fun j _ => ?_
    rw [Function.comp_apply, Nat.succ_eq_add_one]
    congr 2
    ring

omit [MeasurableSpace Ω] in
/-- The state of path `j` as a function of its block of draws. -/
theorem stateAt_block [Inhabited E] (s0 : S) (g : E → S → ℝ → ℝ → S) (f : Int → ℝ) (val : Int)
    (later : List Int) (m j : ℕ) (d : Int) (ω : Ω) :
    stateAt (drawSim s0 g fun k => ξ k ω) f val later (m + j * later.length) d
      = stateAt (drawSim s0 g (extendBlock (drawBlock ξ m later.length j ω))) f val later 0 d := by
  refine stateAt_congr s0 g f val later _ _ d fun k hk => ?_
  have hk' : k < later.length := hk.trans_le (List.length_filter_le _ _)
  rw [zero_add, extendBlock, dif_pos hk', drawBlock]

/-- All runs with the same dates share their integration grid. -/
theorem captured_uniform {M : Type} (ks : KeySearch) (val : Int) (dates : List Int) (step : Nat)
    (dc : Int → Int → Outcome ℝ) (f : Int → ℝ) (hf : ∀ d, val ≤ d → yfOrZero dc val d = .ok (f d))
    (hinc : ∀ a b, val ≤ a → a < b → f a < f b) :
    ∃ later, ∀ (sim : SimModel S M) (m : M) (n : ℕ) (r : DatedPaths S),
      simulateAtDates ks sim m val dates n step dc = .ok r →
      GoodGrid val dates step later ∧ r.obs = (dates.mergeSort fun a b => decide (a ≤ b)) ∧
        r.paths = expectedPaths sim f val later r.obs n m := by
  by_cases hex : ∃ last grid, (dates.mergeSort fun a b => decide (a ≤ b)).getLast? = some last ∧
      simGrid val (dates.mergeSort fun a b => decide (a ≤ b)) last step = .ok grid
  · obtain ⟨last0, grid0, hl0, hg0⟩ := hex
    refine ⟨grid0.tail, fun sim m n r h => ?_⟩
    obtain ⟨hn, hs, hne, hv, last, grid, times, hlast, hg, ht, idx, hi, rfl⟩ := simulate_ok h
    rw [hl0] at hlast
    obtain rfl := Option.some.inj hlast
    rw [hg0] at hg
    obtain rfl := Outcome.ok.inj hg
    have hsort := mergeSort_dates dates
    have hperm : (dates.mergeSort fun a b => decide (a ≤ b)).Perm dates := List.mergeSort_perm _ _
    have hmax := getLast_max _ _ hsort hl0
    obtain ⟨later, rfl, hgood⟩ := simGrid_good val _ last0 step hs
      (fun d hd => hv d (hperm.mem_iff.1 hd)) hmax grid0 hg0
    have hge : ∀ d ∈ val :: later, val ≤ d := by
      intro d hd
      rcases List.mem_cons.1 hd with rfl | hd
      · exact le_rfl
      · exact ((List.pairwise_cons.1 hgood.increasing).1 d hd).le
    have hts := gridTimes_ok (fun d hd => hf d (hge d hd)) ht
    have hidx := obsIndices_eq ks (val :: later) hgood.increasing _
      (fun d hd => List.mem_cons_of_mem _ (hgood.covers d hd))
    rw [hidx] at hi
    injection hi with hi
    subst hts hi
    refine ⟨⟨hgood.increasing, fun d hd => hgood.covers d (hperm.mem_iff.2 hd), fun g hg => ?_,
      hgood.gaps⟩, rfl, runPaths_eq sim f val later _ hgood.increasing
        (fun a ha b _ hab => hinc a b (hge a ha) hab) hsort hgood.covers n m⟩
    obtain ⟨d, hd, h⟩ := hgood.ends g hg
    exact ⟨d, hperm.mem_iff.1 hd, h⟩
  · refine ⟨[], fun sim m n r h => ?_⟩
    obtain ⟨-, -, -, -, last, grid, -, hlast, hg, -⟩ := simulate_ok h
    exact absurd ⟨last, grid, hlast, hg⟩ hex

/-! ### Gaussian increments -/

/-- The accumulated noise over the dates `l` after `prev`, from draw `n` on. -/
noncomputable def noiseSum (f : Int → ℝ) : Int → List Int → ℕ → (ℕ → ℝ) → ℝ
  | _, [], _, _ => 0
  | prev, d :: ds, n, x => √(f d - f prev) * x n + noiseSum f d ds (n + 1) x

theorem noiseSum_measurable (f : Int → ℝ) (l : List Int) :
    ∀ prev n, Measurable (noiseSum f prev l n) := by
  induction l with
  | nil => intro prev n; exact measurable_const
  | cons d l ih =>
    intro prev n
    exact ((measurable_pi_apply n).const_mul _).add (ih d (n + 1))

theorem noiseSum_congr (f : Int → ℝ) (l : List Int) : ∀ prev n (x y : ℕ → ℝ),
    (∀ k, k < l.length → x (n + k) = y (n + k)) → noiseSum f prev l n x = noiseSum f prev l n y := by
  induction l with
  | nil => intro prev n x y _; rfl
  | cons d l ih =>
    intro prev n x y h
    have h0 := h 0 (by simp)
    rw [add_zero] at h0
    rw [noiseSum, noiseSum, h0, ih d (n + 1) x y fun k hk => by
      have := h (k + 1) (by simpa using hk)
      rwa [show n + 1 + k = n + (k + 1) by ring]]

/-- The last date of a list, or the date before it. -/
def lastDate (prev : Int) (l : List Int) : Int := (prev :: l).getLast (List.cons_ne_nil _ _)

theorem lastDate_cons (prev d : Int) (l : List Int) : lastDate prev (d :: l) = lastDate d l := by
  rw [lastDate, lastDate, List.getLast_cons (List.cons_ne_nil _ _)]

theorem walk_brownian (x0 drift vol : ℝ) (x : ℕ → ℝ) (f : Int → ℝ) (l : List Int) :
    ∀ (prev : Int) (s : ℝ) (n : ℕ), (walk (brownian x0 drift vol x) f prev l (s, n)).1
      = s + drift * (f (lastDate prev l) - f prev) + vol * noiseSum f prev l n x := by
  induction l with
  | nil => intro prev s n; simp [walk, lastDate, noiseSum]
  | cons d l ih =>
    intro prev s n
    rw [walk, lastDate_cons, noiseSum]
    simp only [brownian] at ih ⊢
    rw [ih]
    ring

theorem le_lastDate (f : Int → ℝ) (l : List Int) : ∀ prev, (∀ a b, prev ≤ a → a < b → f a < f b) →
    (prev :: l).Pairwise (· < ·) → f prev ≤ f (lastDate prev l) := by
  induction l with
  | nil => intro prev _ _; exact le_rfl
  | cons d l ih =>
    intro prev hf hp
    rw [lastDate_cons]
    have hd : prev < d := (List.pairwise_cons.1 hp).1 d List.mem_cons_self
    exact (hf prev d le_rfl hd).le.trans
      (ih d (fun a b ha => hf a b (hd.le.trans ha)) (List.pairwise_cons.1 hp).2)

theorem noiseSum_law {ξ : ℕ → Ω → ℝ} (h : NormalDraws P ξ) (f : Int → ℝ) (l : List Int) :
    ∀ prev n, (∀ a b, prev ≤ a → a < b → f a < f b) → (prev :: l).Pairwise (· < ·) →
      P.map (fun ω => noiseSum f prev l n fun k => ξ k ω)
        = gaussianReal 0 (f (lastDate prev l) - f prev).toNNReal := by
  induction l with
  | nil =>
    intro prev n _ _
    simp only [noiseSum]
    rw [Measure.map_const, measure_univ, one_smul, lastDate, List.getLast_singleton, sub_self,
      Real.toNNReal_zero, gaussianReal_zero_var]
  | cons d l ih =>
    intro prev n hf hp
    have hd : prev < d := (List.pairwise_cons.1 hp).1 d List.mem_cons_self
    have hf' : ∀ a b, d ≤ a → a < b → f a < f b := fun a b ha => hf a b (hd.le.trans ha)
    have hfd := hf prev d le_rfl hd
    have hl := le_lastDate f l d hf' (List.pairwise_cons.1 hp).2
    have h1 : P.map (fun ω => √(f d - f prev) * ξ n ω) = gaussianReal 0 (f d - f prev).toNNReal := by
      have e : (fun ω => √(f d - f prev) * ξ n ω) = (fun z => √(f d - f prev) * z) ∘ ξ n := rfl
      rw [e, ← Measure.map_map (by fun_prop) (h.measurable n), h.law, gaussianReal_map_const_mul, mul_zero]
      congr 1
      rw [mul_one]
      apply NNReal.eq
      rw [Real.coe_toNNReal _ (by linarith)]
      exact Real.sq_sqrt (by linarith)
    have hi : IndepFun (fun ω => √(f d - f prev) * ξ n ω)
        (fun ω => noiseSum f d l (n + 1) fun k => ξ k ω) P := by
      refine indep_of_disjoint h (F := fun x => √(f d - f prev) * x n)
        (G := noiseSum f d l (n + 1)) ((measurable_pi_apply n).const_mul _)
        (noiseSum_measurable f l d (n + 1)) (T := {n}) (U := Finset.Ico (n + 1) (n + 1 + l.length)) ?_ ?_ ?_
      · rw [Finset.disjoint_singleton_left, Finset.mem_Ico]; omega
      · intro x y hxy
        rw [hxy n (Finset.mem_singleton_self n)]
      · intro x y hxy
        exact noiseSum_congr f l d (n + 1) x y fun k hk => hxy _ (by rw [Finset.mem_Ico]; omega)
    have := gaussianReal_add_gaussianReal_of_indepFun hi h1
      (ih d (n + 1) hf' (List.pairwise_cons.1 hp).2)
    rw [add_zero, ← Real.toNNReal_add (by linarith) (by linarith)] at this
    rw [lastDate_cons, show f (lastDate d l) - f prev = f d - f prev + (f (lastDate d l) - f d) by ring,
      ← this]
    rfl

/-! ### Splitting a path at a date -/

theorem walk_append {M : Type} (sim : SimModel S M) (f : Int → ℝ) (l₁ l₂ : List Int) :
    ∀ (prev : Int) (x : S × M), walk sim f prev (l₁ ++ l₂) x
      = walk sim f (lastDate prev l₁) l₂ (walk sim f prev l₁ x) := by
  induction l₁ with
  | nil => intro prev x; rfl
  | cons d l₁ ih => intro prev x; rw [List.cons_append, walk, walk, ih, lastDate_cons]

theorem filter_split (a b : Int) (hab : a ≤ b) (l : List Int) (hl : l.Pairwise (· < ·)) :
    (l.filter fun g => decide (g ≤ b))
      = (l.filter fun g => decide (g ≤ a)) ++ l.filter fun g => decide (a < g ∧ g ≤ b) := by
  induction l with
  | nil => rfl
  | cons d l ih =>
    have hd := (List.pairwise_cons.1 hl).1
    have ih := ih (List.pairwise_cons.1 hl).2
    by_cases h1 : d ≤ a
    · rw [List.filter_cons_of_pos (by simpa using h1.trans hab), List.filter_cons_of_pos (by simpa using h1),
        List.filter_cons_of_neg (by simpa using fun h => absurd h1 (not_le.2 h)), ih, List.cons_append]
    · have hnil : (l.filter fun g => decide (g ≤ a)) = [] := by
        rw [List.filter_eq_nil_iff]
        intro g hg
        have := hd g hg
        simp only [decide_eq_true_eq]; omega
      rw [List.filter_cons_of_neg (p := fun g => decide (g ≤ a)) (by simpa using h1), hnil, List.nil_append]
      refine List.filter_congr fun g hg => ?_
      have hag : a < g := by
        rcases List.mem_cons.1 hg with rfl | hg
        · omega
        · have := hd g hg; omega
      simp only [hag, true_and]

theorem lastDate_eq {prev a : Int} {l : List Int} (hp : (prev :: l).Pairwise (· < ·)) (ha : a ∈ prev :: l)
    (hmax : ∀ g ∈ prev :: l, g ≤ a) : lastDate prev l = a := by
  have hne : prev :: l ≠ [] := List.cons_ne_nil _ _
  have hle : (prev :: l).Pairwise (· ≤ ·) := hp.imp fun h => by omega
  have h1 := (getLast_max _ _ hle (List.getLast?_eq_some_getLast hne)).2 a ha
  have h2 := hmax _ (List.getLast_mem hne)
  exact le_antisymm h2 h1

theorem lastDate_filter {val a : Int} {later : List Int} (hp : (val :: later).Pairwise (· < ·))
    (ha : a ∈ val :: later) : lastDate val (later.filter fun g => decide (g ≤ a)) = a := by
  have hva : val ≤ a := by
    rcases List.mem_cons.1 ha with rfl | h
    · exact le_rfl
    · exact ((List.pairwise_cons.1 hp).1 a h).le
  refine lastDate_eq (hp.sublist (List.Sublist.cons_cons _ List.filter_sublist)) ?_ ?_
  · rcases List.mem_cons.1 ha with rfl | h
    · exact List.mem_cons_self
    · exact List.mem_cons_of_mem _ (List.mem_filter.2 ⟨h, by simp⟩)
  · intro g hg
    rcases List.mem_cons.1 hg with rfl | h
    · exact hva
    · simpa using (List.mem_filter.1 h).2

/-- The dates between `a` and `b`, after `a`. -/
theorem between_pairwise {val a b : Int} {later : List Int} (hp : (val :: later).Pairwise (· < ·)) :
    (a :: later.filter fun g => decide (a < g ∧ g ≤ b)).Pairwise (· < ·) := by
  refine List.pairwise_cons.2 ⟨fun g hg => ?_, (List.pairwise_cons.1 hp).2.sublist List.filter_sublist⟩
  have := (List.mem_filter.1 hg).2
  simp only [decide_eq_true_eq] at this
  exact this.1

theorem between_last {val a b : Int} {later : List Int} (hp : (val :: later).Pairwise (· < ·))
    (hab : a < b) (hb : b ∈ later) : lastDate a (later.filter fun g => decide (a < g ∧ g ≤ b)) = b := by
  refine lastDate_eq (between_pairwise hp) (List.mem_cons_of_mem _ (List.mem_filter.2 ⟨hb, by simpa using hab⟩)) ?_
  intro g hg
  rcases List.mem_cons.1 hg with rfl | h
  · exact hab.le
  · have := (List.mem_filter.1 h).2
    simp only [decide_eq_true_eq] at this
    exact this.2

/-- The step of the Brownian simulator. -/
noncomputable def bmStep (drift vol : ℝ) : ℝ → ℝ → ℝ → ℝ → ℝ :=
  fun z s _ dt => s + drift * dt + vol * √dt * z

/-- The step of the geometric simulator. -/
noncomputable def gbmStep (drift vol : ℝ) : ℝ → ℝ → ℝ → ℝ → ℝ :=
  fun z s _ dt => s * Real.exp ((drift - 1 / 2 * vol * vol) * dt + vol * √dt * z)

theorem brownian_eq (x0 drift vol : ℝ) (x : ℕ → ℝ) :
    brownian x0 drift vol x = drawSim x0 (bmStep drift vol) x := rfl

theorem geometric_eq (x0 drift vol : ℝ) (x : ℕ → ℝ) :
    geometric x0 drift vol x = drawSim x0 (gbmStep drift vol) x := rfl

theorem bmStep_measurable (drift vol t dt : ℝ) :
    Measurable fun p : ℝ × ℝ => bmStep drift vol p.1 p.2 t dt := by
  unfold bmStep; fun_prop

theorem gbmStep_measurable (drift vol t dt : ℝ) :
    Measurable fun p : ℝ × ℝ => gbmStep drift vol p.1 p.2 t dt := by
  unfold gbmStep; fun_prop

/-- The increment of a Brownian path between two grid dates. -/
theorem brownian_increment (x0 drift vol : ℝ) (x : ℕ → ℝ) (f : Int → ℝ) {val a b : Int} {later : List Int}
    (hp : (val :: later).Pairwise (· < ·)) (ha : a ∈ val :: later) (hb : b ∈ later) (hab : a < b) (n : ℕ) :
    stateAt (brownian x0 drift vol x) f val later n b - stateAt (brownian x0 drift vol x) f val later n a
      = drift * (f b - f a) + vol * noiseSum f a (later.filter fun g => decide (a < g ∧ g ≤ b))
        (n + (later.filter fun g => decide (g ≤ a)).length) x := by
  rw [stateAt, stateAt, filter_split a b hab.le later (List.pairwise_cons.1 hp).2, walk_append,
    lastDate_filter hp ha]
  have e : (walk (brownian x0 drift vol x) f val (later.filter fun g => decide (g ≤ a))
      ((brownian x0 drift vol x).initial n, n)) = ((walk (brownian x0 drift vol x) f val
        (later.filter fun g => decide (g ≤ a)) ((brownian x0 drift vol x).initial n, n)).1,
        n + (later.filter fun g => decide (g ≤ a)).length) := by
    apply Prod.ext
    · rfl
    · exact walk_position x0 (bmStep drift vol) x f _ val x0 n
  rw [e, walk_brownian, between_last hp hab hb]
  ring

end Verif
