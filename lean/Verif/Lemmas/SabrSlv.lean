import Verif.Model.SabrSlv
import Verif.Spec.SabrSlv
import Verif.Lemmas.TdSabrPath

/-!
# Bins, lookups and steps of the particle simulator
-/

namespace Verif

open Outcome Classical

/-- A state as a particle. -/
def SabrState.pair (s : SabrState) : ℝ × ℝ := (s.forward, s.vol)

/-- Consecutive pieces of length `c`. -/
def pieces (c : ℕ) : ℕ → List (ℝ × ℝ) → List (List (ℝ × ℝ))
  | 0, _ => []
  | fuel + 1, xs =>
    match xs with
    | [] => []
    | x :: l => (x :: l).take c :: pieces c fuel ((x :: l).drop c)

theorem pieces_spec {c : ℕ} (hc : 0 < c) : ∀ (fuel : ℕ) (xs : List (ℝ × ℝ)), xs.length ≤ fuel →
    (pieces c fuel xs).flatten = xs ∧ (∀ g ∈ pieces c fuel xs, g ≠ [] ∧ g.length ≤ c)
    ∧ (∀ i (hi : i + 1 < (pieces c fuel xs).length), (pieces c fuel xs)[i].length = c)
    ∧ (xs ≠ [] → ((pieces c fuel xs).length - 1) * c < xs.length)
    ∧ (xs ≠ [] → pieces c fuel xs ≠ [])
  | 0, xs, h => by
    have : xs = [] := List.length_eq_zero_iff.1 (by omega)
    subst this
    exact ⟨rfl, by simp [pieces], by simp [pieces], by simp, by simp⟩
  | fuel + 1, [], _ => ⟨rfl, by simp [pieces], by simp [pieces], by simp, by simp⟩
  | fuel + 1, x :: l, h => by
    have hl : ((x :: l).drop c).length ≤ fuel := by
      rw [List.length_drop]; simp only [List.length_cons] at *; omega
    obtain ⟨h1, h2, h3, h4, h5⟩ := pieces_spec hc fuel ((x :: l).drop c) hl
    refine ⟨?_, ?_, ?_, fun _ => ?_, fun _ => by simp [pieces]⟩
    · rw [pieces, List.flatten_cons, h1, List.take_append_drop]
    · intro g hg
      rw [pieces] at hg
      rcases List.mem_cons.1 hg with rfl | hg
      · refine ⟨?_, by rw [List.length_take]; omega⟩
        intro h0
        have := congrArg List.length h0
        rw [List.length_take] at this
        simp only [List.length_cons, List.length_nil] at this
        omega
      · exact h2 g hg
    · intro i hi
      simp only [pieces, List.length_cons] at hi
      rcases i with _ | i
      · simp only [pieces, List.getElem_cons_zero, List.length_take]
        have hne : (x :: l).drop c ≠ [] := by
          intro h0
          rw [h0] at hi
          cases fuel <;> simp [pieces] at hi
        have : 0 < ((x :: l).drop c).length := List.length_pos_of_ne_nil hne
        rw [List.length_drop] at this
        omega
      · simp only [pieces, List.getElem_cons_succ]
        exact h3 i (by omega)
    · rw [pieces, List.length_cons, Nat.add_sub_cancel]
      by_cases hne : (x :: l).drop c = []
      · rw [hne]
        cases fuel <;> simp [pieces]
      · have a := h4 hne
        have b := List.length_pos_of_ne_nil (h5 hne)
        rw [List.length_drop] at a
        obtain ⟨k, hk⟩ : ∃ k, (pieces c fuel ((x :: l).drop c)).length = k + 1 := ⟨_, (Nat.succ_pred_eq_of_pos b).symm⟩
        rw [hk] at a ⊢
        rw [Nat.add_sub_cancel] at a
        rw [Nat.succ_mul]
        omega

/-- The largest forward of a sorted group. -/
noncomputable def topF (g : List (ℝ × ℝ)) : ℝ := (g.getLastD (0, 0)).1

theorem getLastD_map {α β : Type*} (f : α → β) (l : List α) (a : α) :
    (l.map f).getLastD (f a) = f (l.getLastD a) := by
  induction l generalizing a with
  | nil => rfl
  | cons x l ih => rw [List.map_cons, List.getLastD_cons, List.getLastD_cons, ih]

theorem binLoop_eq (c : ℕ) : ∀ (fuel : ℕ) (xs : List (ℝ × ℝ)),
    binLoop c fuel (xs.map fun s => (s.1, s.2 * s.2))
      = ((pieces c fuel xs).map topF, (pieces c fuel xs).map meanSq)
  | 0, _ => rfl
  | fuel + 1, [] => rfl
  | fuel + 1, x :: l => by
    rw [binLoop, if_neg (by simp), ← List.map_take, ← List.map_drop, binLoop_eq c fuel, pieces]
    have e : (List.map (fun s : ℝ × ℝ => (s.1, s.2 * s.2)) ((x :: l).take c)).getLastD (0, 0)
        = ((((x :: l).take c).getLastD (0, 0)).1, (((x :: l).take c).getLastD (0, 0)).2
          * (((x :: l).take c).getLastD (0, 0)).2) := by
      have := getLastD_map (fun s : ℝ × ℝ => (s.1, s.2 * s.2)) ((x :: l).take c) (0, 0)
      simpa using this
    simp only [List.map_cons, e, topF, meanSq, List.map_map, List.length_map]
    refine Prod.ext rfl ?_
    simp only [List.cons.injEq, and_true]
    congr 2
    refine List.map_congr_left fun s _ => ?_
    simp [pow_two]

theorem sortByForward_sorted (xs : List (ℝ × ℝ)) : (sortByForward xs).Pairwise fun a b => a.1 ≤ b.1 := by
  have := List.pairwise_mergeSort (le := fun a b : ℝ × ℝ => decide (a.1 ≤ b.1))
    (fun a b c h1 h2 => by simp only [decide_eq_true_eq] at *; exact h1.trans h2)
    (fun a b => by simp only [Bool.or_eq_true, decide_eq_true_eq]; exact le_total _ _) xs
  exact this.imp fun h => by simpa using h

theorem le_topF {g : List (ℝ × ℝ)} (h : g.Pairwise fun a b => a.1 ≤ b.1) : ∀ s ∈ g, s.1 ≤ topF g := by
  induction g with
  | nil => simp
  | cons x l ih =>
    intro s hs
    rw [List.pairwise_cons] at h
    rw [topF, List.getLastD_cons]
    rcases l with _ | ⟨y, l⟩
    · simp at hs; rw [hs]; rfl
    · have e : ((y :: l).getLastD x).1 = topF (y :: l) := by
        rw [topF, List.getLastD_cons, List.getLastD_cons]
      rw [e]
      rcases List.mem_cons.1 hs with rfl | hs
      · exact (h.1 y (by simp)).trans (ih h.2 y (by simp))
      · exact ih h.2 s hs

theorem topF_mem {g : List (ℝ × ℝ)} (h : g ≠ []) : ∃ s ∈ g, s.1 = topF g := by
  refine ⟨g.getLast h, List.getLast_mem h, ?_⟩
  rw [topF, List.getLastD_eq_getLast?, List.getLast?_eq_some_getLast h]
  rfl

theorem flatten_pairwise {R : ℝ × ℝ → ℝ × ℝ → Prop} {gs : List (List (ℝ × ℝ))}
    (h : gs.flatten.Pairwise R) :
    (∀ g ∈ gs, g.Pairwise R) ∧ gs.Pairwise fun g h => ∀ s ∈ g, ∀ t ∈ h, R s t := by
  rw [List.pairwise_flatten] at h
  exact h

/-- The bins of a population. -/
theorem binVolSq_spec {states : List SabrState} {nBins : ℕ} (hs : states ≠ []) (hn : 0 < nBins) :
    ∃ groups, IsBinning (states.map SabrState.pair) nBins groups ∧ groups ≠ []
      ∧ (∀ g ∈ groups, g.Pairwise fun a b => a.1 ≤ b.1)
      ∧ binVolSq states nBins = .ok (groups.map topF, groups.map meanSq) := by
  set N := states.length with hN
  have hN0 : 0 < N := List.length_pos_of_ne_nil hs
  set c := (N + nBins - 1) / nBins with hc
  have hcN : N ≤ c * nBins := by
    have := Nat.div_add_mod (N + nBins - 1) nBins
    have h2 := Nat.mod_lt (N + nBins - 1) hn
    rw [← hc] at this
    rw [mul_comm]
    omega
  have hc0 : 0 < c := by
    rcases Nat.eq_zero_or_pos c with h | h
    · rw [h] at hcN; omega
    · exact h
  set xs := sortByForward (states.map SabrState.pair) with hxs
  have hlen : xs.length = N := by rw [hxs, sortByForward, List.length_mergeSort, List.length_map]
  obtain ⟨h1, h2, h3, h4, h5⟩ := pieces_spec hc0 N xs hlen.le
  have hne : xs ≠ [] := by
    intro h0; rw [h0] at hlen; simp at hlen; omega
  have hp := flatten_pairwise (R := fun a b => a.1 ≤ b.1) (gs := pieces c N xs)
    (by rw [h1]; exact sortByForward_sorted _)
  refine ⟨pieces c N xs, ⟨?_, fun g hg => (h2 g hg).1, ?_, ⟨c, h3, fun g hg => (h2 g hg).2⟩, hp.2⟩, h5 hne,
    hp.1, ?_⟩
  · rw [h1]; exact List.mergeSort_perm _ _
  · have := h4 hne
    rw [hlen] at this
    by_contra hcon
    have : nBins * c ≤ ((pieces c N xs).length - 1) * c := Nat.mul_le_mul_right _ (by omega)
    rw [mul_comm nBins] at this
    omega
  · rw [binVolSq, if_neg hn.ne']
    refine congrArg Outcome.ok ?_
    have e : xs.map (fun s => (s.1, s.2 * s.2))
        = sortByForward (states.map fun s => (s.forward, s.vol * s.vol)) := by
      rw [hxs, sortByForward, List.map_mergeSort (s := fun a b : ℝ × ℝ => decide (a.1 ≤ b.1))
        (fun a _ b _ => rfl), sortByForward, List.map_map]
      rfl
    rw [← binLoop_eq, e]

theorem lookupBin_spec {groups : List (List (ℝ × ℝ))} (hne : groups ≠ [])
    (hg : ∀ g ∈ groups, g ≠ []) (hs : ∀ g ∈ groups, g.Pairwise fun a b => a.1 ≤ b.1) (f : ℝ) :
    ∃ e, lookupBin f (groups.map topF) (groups.map meanSq) = .ok e ∧ IsBinMean groups f e := by
  have hlt : ∀ g ∈ groups, topF g < f → ∀ s ∈ g, s.1 < f := fun g hgm h s hsm =>
    (le_topF (hs g hgm) s hsm).trans_lt h
  unfold lookupBin
  cases hfi : (groups.map topF).findIdx? fun u => decide (f ≤ u) with
  | none =>
    rw [List.findIdx?_eq_none_iff] at hfi
    obtain ⟨g, hgl⟩ : ∃ g, groups.getLast? = some g := ⟨_, List.getLast?_eq_some_getLast hne⟩
    refine ⟨meanSq g, ?_, Or.inr ⟨fun g' hg' => hlt g' hg' ?_, g, hgl, rfl⟩⟩
    · simp only [List.getLast?_map, hgl]; rfl
    · have := hfi (topF g') (List.mem_map_of_mem hg')
      simpa using this
  | some i =>
    rw [List.findIdx?_eq_some_iff_getElem] at hfi
    obtain ⟨hi, h1, h2⟩ := hfi
    rw [List.length_map] at hi
    refine ⟨meanSq groups[i], ?_, Or.inl ⟨i, hi, ?_, ?_, rfl⟩⟩
    · simp only [List.getElem?_map, List.getElem?_eq_getElem hi]; rfl
    · obtain ⟨s, hsm, hst⟩ := topF_mem (hg _ (List.getElem_mem hi))
      refine ⟨s, hsm, ?_⟩
      rw [hst]
      simpa using h1
    · intro j hj
      have := h2 j hj
      refine hlt _ (List.getElem_mem _) ?_
      simpa using this

theorem liftF_pos (f : ℝ) : 0 < liftF f := lt_of_lt_of_le (by norm_num) (le_max_right _ _)

theorem slv_move {m : SlvSim} {q : Sabr} {bins : List ℝ × List ℝ} {tMid dt x e : ℝ} {s : SabrState}
    (hx : m.dupire.localVariance tMid (liftF s.forward) = .ok x) (hx0 : 0 ≤ x)
    (he : lookupBin (liftF s.forward) bins.1 bins.2 = .ok e) (hv : 0 ≤ s.vol) (z : Fin 2 → ℝ) :
    m.move q bins tMid dt z s
      = .ok ⟨(slvStep x e q.beta q.rho q.nu dt s.pair z).1, (slvStep x e q.beta q.rho q.nu dt s.pair z).2⟩ := by
  have hf := liftF_pos s.forward
  have e1 : liftF s.forward ^ (q.beta - 1) * liftF s.forward ^ (q.beta - 1)
      = liftF s.forward ^ (2 * q.beta - 2) := by
    rw [← Real.rpow_add hf]; congr 1; ring
  have hd : 0 < max (e * liftF s.forward ^ (2 * q.beta - 2)) (1 / 10 ^ 12) :=
    lt_of_lt_of_le (by norm_num) (le_max_right _ _)
  unfold SlvSim.move
  change (do
    let lvVar ← m.dupire.localVariance tMid (liftF s.forward)
    let eVol2 ← lookupBin (liftF s.forward) bins.1 bins.2
    Outcome.ok (⟨max (liftF s.forward + √(max (lvVar / max (eVol2 * (liftF s.forward ^ (q.beta - 1)
      * liftF s.forward ^ (q.beta - 1))) (1 / 10 ^ 12)) 0) * max s.vol 0 * liftF s.forward ^ q.beta
      * (√dt * z 0)) 0, max s.vol 0 * Real.exp (-0.5 * q.nu * q.nu * dt
      + q.nu * (√dt * (q.rho * z 0 + √(1 - q.rho * q.rho) * z 1)))⟩ : SabrState)) = _
  rw [hx, ok_bind, he, ok_bind, e1, max_eq_left (div_nonneg hx0 hd.le), max_eq_left hv]
  refine congrArg Outcome.ok ?_
  rw [SabrState.mk.injEq]
  refine ⟨rfl, ?_⟩
  simp only [slvStep, SabrState.pair]
  congr 2
  rw [pow_two q.rho]
  ring

theorem slvStep_nonneg (x e β r v dt : ℝ) (s : ℝ × ℝ) (z : Fin 2 → ℝ) :
    0 ≤ (slvStep x e β r v dt s z).1 := le_max_right _ _

theorem slv_moveAll {m : SlvSim} {q : Sabr} {groups : List (List (ℝ × ℝ))} {tMid dt : ℝ}
    (hx : ∀ f, ∃ x, m.dupire.localVariance tMid f = .ok x ∧ 0 ≤ x) (hne : groups ≠ [])
    (hg : ∀ g ∈ groups, g ≠ []) (hs : ∀ g ∈ groups, g.Pairwise fun a b => a.1 ≤ b.1)
    (draws : ℕ → Fin 2 → ℝ) : ∀ (states : List SabrState) (k : ℕ), (∀ s ∈ states, 0 < s.vol) →
    ∃ l, m.moveAll q (groups.map topF, groups.map meanSq) tMid dt draws k states = .ok l
      ∧ l.length = states.length ∧ (∀ s ∈ l, 0 ≤ s.forward ∧ 0 < s.vol)
      ∧ ∀ i s, states[i]? = some s → ∃ x e, m.dupire.localVariance tMid (liftF s.forward) = .ok x
        ∧ IsBinMean groups (liftF s.forward) e
        ∧ (l[i]?).map SabrState.pair = some (slvStep x e q.beta q.rho q.nu dt s.pair (draws (k + i)))
  | [], k, _ => ⟨[], rfl, rfl, by simp, by simp⟩
  | s :: ss, k, hv => by
    obtain ⟨x, hx1, hx0⟩ := hx (liftF s.forward)
    obtain ⟨e, he, hb⟩ := lookupBin_spec hne hg hs (liftF s.forward)
    obtain ⟨l, h1, h2, h3, h4⟩ := slv_moveAll (q := q) (dt := dt) hx hne hg hs draws ss (k + 1)
      fun t ht => hv t (by simp [ht])
    have hs0 := hv s (by simp)
    refine ⟨⟨(slvStep x e q.beta q.rho q.nu dt s.pair (draws k)).1,
        (slvStep x e q.beta q.rho q.nu dt s.pair (draws k)).2⟩ :: l, ?_, ?_, ?_, ?_⟩
    · rw [SlvSim.moveAll, slv_move hx1 hx0 he hs0.le, ok_bind, h1, ok_bind]
    · simp [h2]
    · intro t ht
      rcases List.mem_cons.1 ht with rfl | ht
      · exact ⟨slvStep_nonneg x e q.beta q.rho q.nu dt s.pair (draws k), mul_pos hs0 (Real.exp_pos _)⟩
      · exact h3 t ht
    · rintro (_ | i) t ht
      · simp only [List.getElem?_cons_zero, Option.some.injEq] at ht
        subst ht
        exact ⟨x, e, hx1, hb, rfl⟩
      · rw [List.getElem?_cons_succ] at ht
        obtain ⟨x', e', a, b, c⟩ := h4 i t ht
        refine ⟨x', e', a, b, ?_⟩
        rw [List.getElem?_cons_succ, c, show k + 1 + i = k + (i + 1) by omega]

theorem slv_stepLoop {m : SlvSim} {L : ℝ → ℝ → ℝ}
    (hx : ∀ t f, m.dupire.localVariance t f = .ok (L t f) ∧ 0 ≤ L t f)
    (hn : 0 < m.nBins) {dt : ℝ} {draws : ℕ → Fin 2 → ℝ} {M : ℕ} (hM : 0 < M) :
    ∀ (n k : ℕ) (t : ℝ) (states : List SabrState), states.length = M → (∀ s ∈ states, 0 < s.vol) →
    ∀ q : ℕ → Sabr, (∀ j < n, m.params.at (t + ((j : ℝ) + 1 / 2) * dt) = .ok (q j)) →
    ∃ (l : List SabrState) (P : ℕ → List (ℝ × ℝ)), P 0 = states.map SabrState.pair
      ∧ m.stepLoop dt draws n k t states = .ok l ∧ l.map SabrState.pair = P n
      ∧ (0 < n → ∀ s ∈ l, 0 ≤ s.forward) ∧ (∀ s ∈ l, 0 < s.vol)
      ∧ ∀ j < n, SlvAdvance (L (t + ((j : ℝ) + 1 / 2) * dt)) m.nBins (q j).beta (q j).rho (q j).nu dt
          (fun i => draws (k + j * M + i)) (P j) (P (j + 1))
  | 0, k, t, states, _, hv, _, _ => ⟨states, fun _ => states.map SabrState.pair, rfl, rfl, rfl,
      fun h => absurd h (lt_irrefl 0), hv, by simp⟩
  | n + 1, k, t, states, hl, hv, q, hq => by
    have hne : states ≠ [] := by intro h; rw [h] at hl; simp at hl; omega
    obtain ⟨groups, g1, g2, g3, g4⟩ := binVolSq_spec hne hn
    have hq0 := hq 0 (by omega)
    rw [Nat.cast_zero, zero_add] at hq0
    obtain ⟨l, h1, h2, h3, h4⟩ := slv_moveAll (m := m) (q := q 0) (tMid := t + 1 / 2 * dt) (dt := dt)
      (fun f => ⟨_, hx _ f⟩) g2 g1.nonempty g3 draws states k hv
    have hcast : ∀ j : ℕ, t + dt + ((j : ℝ) + 1 / 2) * dt = t + (((j + 1 : ℕ) : ℝ) + 1 / 2) * dt := by
      intro j; push_cast; ring
    obtain ⟨l', P, p1, p2, p3, p4, p5, p6⟩ := slv_stepLoop hx hn hM n (k + M) (t + dt) l (h2.trans hl)
      (fun s hs => (h3 s hs).2) (fun j => q (j + 1)) fun j hj => by
        rw [hcast]; exact hq (j + 1) (by omega)
    refine ⟨l', fun j => Nat.casesOn j (states.map SabrState.pair) P, rfl, ?_, p3, fun _ => ?_, p5, ?_⟩
    · rw [SlvSim.stepLoop]
      have e : t + 0.5 * dt = t + 1 / 2 * dt := by norm_num
      rw [e, hq0, ok_bind, g4, ok_bind, h1, ok_bind, hl]
      exact p2
    · rcases n with _ | n
      · rw [SlvSim.stepLoop] at p2
        injection p2 with p2
        subst p2
        exact fun s hs => (h3 s hs).1
      · exact p4 (by omega)
    · rintro (_ | j) hj
      · rw [Nat.cast_zero, zero_add]
        change SlvAdvance _ _ _ _ _ _ _ (states.map SabrState.pair) (P 0)
        rw [p1]
        refine ⟨by simp [h2], groups, g1, fun i s hs => ?_⟩
        rw [List.getElem?_map, Option.map_eq_some_iff] at hs
        obtain ⟨s', hs', rfl⟩ := hs
        obtain ⟨x, e, a, b, c⟩ := h4 i s' hs'
        rw [(hx _ _).1] at a
        injection a with a
        subst a
        exact ⟨e, b, by rw [List.getElem?_map, c, Nat.zero_mul, Nat.add_zero]; rfl⟩
      · have b := p6 j (by omega)
        rw [hcast] at b
        have e : (fun i => draws (k + (j + 1) * M + i)) = fun i => draws (k + M + j * M + i) := by
          funext i; congr 1; ring
        rw [e]
        exact b

theorem slv_stepLoop_panic {m : SlvSim} {L : ℝ → ℝ → ℝ}
    (hx : ∀ t f, m.dupire.localVariance t f = .ok (L t f) ∧ 0 ≤ L t f)
    (hn : 0 < m.nBins) {dt : ℝ} {draws : ℕ → Fin 2 → ℝ}
    (hat : ∀ t, (∃ q, m.params.at t = .ok q) ∨ m.params.at t = .panic) :
    ∀ (n k : ℕ) (t : ℝ) (states : List SabrState), states ≠ [] → (∀ s ∈ states, 0 < s.vol) →
    (∃ j < n, m.params.at (t + ((j : ℝ) + 1 / 2) * dt) = .panic) →
    m.stepLoop dt draws n k t states = .panic
  | 0, k, t, states, _, _, h => by obtain ⟨j, h, -⟩ := h; omega
  | n + 1, k, t, states, hne, hv, h => by
    have e : t + 0.5 * dt = t + 1 / 2 * dt := by norm_num
    rw [SlvSim.stepLoop, e]
    rcases hat (t + 1 / 2 * dt) with ⟨q, hq⟩ | hq
    swap; · rw [hq]; rfl
    obtain ⟨groups, g1, g2, g3, g4⟩ := binVolSq_spec hne hn
    obtain ⟨l, h1, h2, h3, h4⟩ := slv_moveAll (m := m) (q := q) (tMid := t + 1 / 2 * dt) (dt := dt)
      (fun f => ⟨_, hx _ f⟩) g2 g1.nonempty g3 draws states k hv
    rw [hq, ok_bind, g4, ok_bind, h1, ok_bind]
    refine slv_stepLoop_panic hx hn hat n _ _ l ?_ (fun s hs => (h3 s hs).2) ?_
    · intro h0
      rw [h0] at h2
      exact hne (List.length_eq_zero_iff.1 h2.symm)
    · obtain ⟨j, hj, hp⟩ := h
      rcases j with _ | j
      · rw [Nat.cast_zero, zero_add, hq] at hp
        cases hp
      · refine ⟨j, by omega, ?_⟩
        rw [← hp]
        congr 1
        push_cast; ring

end Verif
