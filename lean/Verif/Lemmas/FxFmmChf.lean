import Verif.Lemmas.FxFmm

/-! # The segments and the components of the FX-FMM1 characteristic function -/

namespace Verif

open Outcome Classical MeasureTheory

/-! ## The boundaries -/

theorem fmmTauLoop_eq (dates : List ℝ) (T : ℝ) (ks : List ℕ) :
    fmmTauLoop dates T ks = tauLoop dates T ks := by
  induction ks with
  | nil => rfl
  | cons k ks ih => rw [fmmTauLoop, tauLoop, ih]

theorem fmmTauBoundaries_eq (q : FmmTenor) (T : ℝ) :
    fmmTauBoundaries q T = tauBoundaries q.toLibor T := by
  rw [fmmTauBoundaries, tauBoundaries, fmmTauLoop_eq]
  rfl

theorem fmmTauBoundaries_mem {q : FmmTenor} (h : q.Ordered) {T : ℝ} {L : List ℝ}
    (hL : fmmTauBoundaries q T = .ok L) : ∀ b ∈ L, CutPoint q T b := by
  rw [fmmTauBoundaries_eq, tauBoundaries, if_neg (show ¬ q.toLibor.n = 0 from by
    have := h.1; change ¬ q.m = 0; omega), tauLoop_ok h.libor T _ (by simp), ok_bind] at hL
  set l := (((List.range q.toLibor.n).reverse).map fun k => T - q.toLibor.T k).filter
    fun b => decide (0 < b) with hl
  have hmem : ∀ b ∈ l, CutPoint q T b := by
    intro b hb
    simp only [hl, List.mem_filter, List.mem_map, List.mem_reverse, List.mem_range] at hb
    obtain ⟨⟨k, hk, rfl⟩, -⟩ := hb
    exact .inr (.inr ⟨k, hk, rfl⟩)
  have happ : ∀ b ∈ l ++ [T], CutPoint q T b := by
    intro b hb
    rcases List.mem_append.1 hb with hb | hb
    · exact hmem b hb
    · exact .inr (.inl (List.mem_singleton.1 hb))
  revert hL
  generalize l.getLast? = o
  intro hL
  cases o with
  | none => injection hL with hL; rw [← hL]; exact happ
  | some x =>
    dsimp only at hL
    split at hL
    · injection hL with hL; rw [← hL]; exact happ
    · injection hL with hL; rw [← hL]; exact hmem

/-! ## The segments -/

/-- What a segment has to carry. -/
def SubOk (p : FmmParams) (T : ℝ) (n : ℕ) (s : Segment) : Prop :=
  1 ≤ s.startIdx ∧ s.startIdx = p.tenor.etaN (T - (s.tau - s.length / 2))
    ∧ s.ad = triForm p.domestic.rateCorr
        (wVal p.domestic p.tenor (T - (s.tau - s.length / 2))) s.startIdx p.tenor.m
    ∧ s.af = triForm p.foreign.rateCorr
        (wVal p.foreign p.tenor (T - (s.tau - s.length / 2))) s.startIdx p.tenor.m
    ∧ 0 < s.length ∧ ∃ a b, CutInterval p.tenor T a b ∧ n * s.length = b - a
      ∧ a ≤ s.tau - s.length ∧ s.tau ≤ b

theorem chunkLoop_ok {p : FmmParams} (h : p.tenor.Ordered) (hv : p.Valid) {T a b : ℝ} {n : ℕ}
    (hc : CutInterval p.tenor T a b) (k : ℕ) : ∀ i, i + k = n → 0 < n →
      ∃ chunks, chunkLoop p T a b n (List.range' i k) = .ok chunks ∧ chunks.length = k
        ∧ (∀ rest, Tiles T b rest → Tiles T (a + i * ((b - a) / n)) (chunks ++ rest))
        ∧ ∀ s ∈ chunks, SubOk p T n s := by
  obtain ⟨hd, hf, -⟩ := hv
  induction k with
  | zero =>
    intro i hi hn
    refine ⟨[], rfl, rfl, fun rest hr => ?_, by simp⟩
    have hn' : (n : ℝ) ≠ 0 := by exact_mod_cast hn.ne'
    have : a + i * ((b - a) / n) = b := by
      have : (i : ℝ) = n := by exact_mod_cast (show i = n by omega)
      rw [this]; field_simp; ring
    rw [this]; exact hr
  | succ k ih =>
    intro i hi hn
    obtain ⟨chunks, h1, h2, h3, h4⟩ := ih (i + 1) (by omega) hn
    have hn' : (0 : ℝ) < n := by exact_mod_cast hn
    have hab := hc.2.2.2.1
    have hh : 0 < (b - a) / n := div_pos (by linarith) hn'
    have hin : ((i : ℝ) + 1) ≤ n := by exact_mod_cast (show i + 1 ≤ n by omega)
    have hnh : (n : ℝ) * ((b - a) / n) = b - a := by field_simp
    have hhi : (if i + 1 = n then b else a + i * ((b - a) / n) + (b - a) / n)
        = a + ((i + 1 : ℕ) : ℝ) * ((b - a) / n) := by
      split
      · rename_i he
        rw [he, hnh]; ring
      · push_cast; ring
    have hmid : T - 0.5 * (a + i * ((b - a) / n) + (a + ((i + 1 : ℕ) : ℝ) * ((b - a) / n)))
        = T - (a + ((i + 1 : ℕ) : ℝ) * ((b - a) / n)
          - (a + ((i + 1 : ℕ) : ℝ) * ((b - a) / n) - (a + i * ((b - a) / n))) / 2) := by
      norm_num; ring
    set lo := a + i * ((b - a) / n) with hlo
    set hi' := a + ((i + 1 : ℕ) : ℝ) * ((b - a) / n) with hhi'
    have hlen : hi' - lo = (b - a) / n := by rw [hhi', hlo]; push_cast; ring
    set t := T - (hi' - (hi' - lo) / 2) with ht
    obtain ⟨e1, e2, e3, -, -⟩ := FmmTenor.eta_spec h t
    have ha := fmmASide_eq (l := p.domestic) h hd.1 hd.2.1 hd.2.2.1 t e2
    have hb := fmmASide_eq (l := p.foreign) h hf.1 hf.2.1 hf.2.2.1 t e2
    refine ⟨⟨hi', hi' - lo, p.tenor.etaN t,
      triForm p.domestic.rateCorr (wVal p.domestic p.tenor t) (p.tenor.etaN t) p.tenor.m,
      triForm p.foreign.rateCorr (wVal p.foreign p.tenor t) (p.tenor.etaN t) p.tenor.m⟩ :: chunks,
      ?_, by rw [List.length_cons, h2], ?_, ?_⟩
    · rw [List.range'_succ, chunkLoop]
      dsimp only
      rw [hhi, ← hlo, hmid, e1, ok_bind, min_eq_left e3, fmmAD, ha, ok_bind, fmmAF, hb, ok_bind,
        h1, ok_bind]
    · intro rest hr
      refine ⟨?_, rfl, h3 rest hr⟩
      change lo < hi'
      linarith
    · intro s hs
      rcases List.mem_cons.1 hs with rfl | hs
      · refine ⟨e2, rfl, rfl, rfl, ?_, a, b, hc, ?_, ?_, ?_⟩
        · change 0 < hi' - lo
          rw [hlen]; exact hh
        · change (n : ℝ) * (hi' - lo) = b - a
          rw [hlen, hnh]
        · change a ≤ hi' - (hi' - lo)
          rw [sub_sub_cancel, hlo]
          have : 0 ≤ (i : ℝ) * ((b - a) / n) := by positivity
          linarith
        · change hi' ≤ b
          rw [hhi']
          push_cast
          nlinarith
      · exact h4 s hs

theorem subLoop_ok {p : FmmParams} (h : p.tenor.Ordered) (hv : p.Valid) {T : ℝ} {n : ℕ} (hn : 0 < n)
    (l : List ℝ) :
    ∀ prev, 0 ≤ prev → CutPoint p.tenor T prev → (prev :: (l ++ [T])).Pairwise (· < ·) →
      (∀ b ∈ l ++ [T], CutPoint p.tenor T b) →
      (∀ k < p.tenor.m, prev < T - p.tenor.T k → T - p.tenor.T k ∈ l ++ [T]) →
      ∃ segs, subLoop p T n prev (l ++ [T]) = .ok segs ∧ Tiles T prev segs
        ∧ segs.length = n * (l.length + 1) ∧ ∀ s ∈ segs, SubOk p T n s := by
  -- one step, shared by the last boundary and the others
  have step : ∀ prev b : ℝ, ∀ rest : List ℝ, CutInterval p.tenor T prev b →
      ∀ segs, subLoop p T n b rest = .ok segs → Tiles T b segs → (∀ s ∈ segs, SubOk p T n s) →
      ∃ segs', subLoop p T n prev (b :: rest) = .ok segs' ∧ Tiles T prev segs'
        ∧ segs'.length = n + segs.length ∧ ∀ s ∈ segs', SubOk p T n s := by
    intro prev b rest hc segs hs ht hall
    obtain ⟨chunks, h1, h2, h3, h4⟩ := chunkLoop_ok h hv hc n 0 (by omega) hn
    refine ⟨chunks ++ segs, ?_, ?_, by rw [List.length_append, h2], ?_⟩
    · rw [subLoop, if_neg (by linarith [hc.2.2.2.1]), List.range_eq_range', h1, ok_bind, hs, ok_bind]
    · have := h3 segs ht
      simpa using this
    · intro s hs'
      rcases List.mem_append.1 hs' with hs' | hs'
      · exact h4 s hs'
      · exact hall s hs'
  induction l with
  | nil =>
    intro prev h0 hcp hpw hcut hgap
    have hpT : prev < T := by simpa using hpw
    obtain ⟨segs', s1, s2, s3, s4⟩ := step prev T [] ⟨hcp, .inr (.inl rfl), h0, hpT, le_rfl,
      fun k hk hlt => by
        have := hgap k hk hlt.1
        rw [List.nil_append, List.mem_singleton] at this
        exact hlt.2.ne this⟩ [] rfl rfl (by simp)
    exact ⟨segs', s1, s2, by simpa using s3, s4⟩
  | cons b l ih =>
    intro prev h0 hcp hpw hcut hgap
    rw [List.cons_append, List.pairwise_cons] at hpw
    obtain ⟨hp1, hp2⟩ := hpw
    have hpb : prev < b := hp1 b List.mem_cons_self
    have hbl := (List.pairwise_cons.1 hp2).1
    have hcb := hcut b List.mem_cons_self
    obtain ⟨segs, hs1, hs2, hs3, hs4⟩ := ih b (by linarith) hcb hp2
      (fun x hx => hcut x (List.mem_cons_of_mem _ hx)) (fun k hk hlt => by
      have := hgap k hk (hpb.trans hlt)
      rw [List.cons_append, List.mem_cons] at this
      rcases this with h | h
      · exact absurd h hlt.ne'
      · exact h)
    obtain ⟨segs', s1, s2, s3, s4⟩ := step prev b (l ++ [T]) ⟨hcp, hcb, h0, hpb,
      (hbl T (List.mem_append_right _ (List.mem_singleton.2 rfl))).le, fun k hk hlt => by
        have := hgap k hk hlt.1
        rw [List.cons_append, List.mem_cons] at this
        rcases this with h | h
        · exact hlt.2.ne h
        · exact absurd hlt.2 (not_lt.2 (hbl _ h).le)⟩ segs hs1 hs2 hs4
    refine ⟨segs', s1, s2, ?_, s4⟩
    rw [s3, hs3, List.length_cons]; ring

/-- The evaluator built. -/
noncomputable def fmmBuilt (p : FmmParams) (T : ℝ) (segs : List Segment) (n m : ℕ) : FmmChf :=
  { params := p, expiry := T, subSegments := segs,
    psiBaseD := (List.range p.tenor.m).map fun j => baseVal p.domestic p.tenor (j + 1),
    psiBaseF := (List.range p.tenor.m).map fun j => baseVal p.foreign p.tenor (j + 1),
    phiSigma := p.heston, phiD := p.domestic.cir, phiF := p.foreign.cir, nSub := n,
    nSimpson := 2 * m }

theorem withResolution_ok {p : FmmParams} (h : p.tenor.Ordered) (hv : p.Valid)
    (h0 : p.tenor.T 0 = 0 ∨ 1 / 10 ^ 12 < p.tenor.T 0) {T : ℝ} (hT : 0 < T)
    {n m : ℕ} (hn : 0 < n) (hm : 0 < m) :
    ∃ segs, FmmChf.withResolution p T n (2 * m) = .ok (fmmBuilt p T segs n m) ∧ Tiles T 0 segs
      ∧ ∀ s ∈ segs, SubOk p T n s := by
  obtain ⟨l, hl, hpw, hpos, hmem⟩ := tauBoundaries_ok h.libor h.1 hT h0
  rw [← fmmTauBoundaries_eq] at hl
  obtain ⟨segs, h1, h2, -, h3⟩ := subLoop_ok h hv hn l 0 le_rfl (.inl rfl)
    (List.pairwise_cons.2 ⟨hpos, hpw⟩) (fmmTauBoundaries_mem h hl)
    (fun k hk hlt => hmem k hk (show p.tenor.T k < T by linarith))
  refine ⟨segs, ?_, h2, h3⟩
  rw [FmmChf.withResolution, if_pos ⟨hT, hn, ⟨by omega, by omega⟩, hv⟩, hl, ok_bind, h1, ok_bind,
    psiBase_ok h hv.1.1, ok_bind, psiBase_ok h hv.2.1.1, ok_bind]
  rfl

theorem fmmBuilt_cached (p : FmmParams) (T : ℝ) (segs : List Segment) (n m : ℕ) :
    Cached (fmmBuilt p T segs n m) := ⟨rfl, rfl, rfl, rfl, rfl⟩

/-- Up to the last tenor date the live rates do not change within a segment. -/
theorem subOk_start {p : FmmParams} (h : p.tenor.Ordered) {T : ℝ} {n : ℕ} {s : Segment}
    (hs : SubOk p T n s) (hT : T ≤ p.tenor.T p.tenor.m) {t : ℝ} (h1 : s.tau - s.length < t)
    (h2 : t < s.tau) : p.tenor.etaN (T - t) = s.startIdx := by
  obtain ⟨s1, s2, -, -, s5, a, b, ⟨-, -, ha0, hab, hbT, hgap⟩, -, ha, hb⟩ := hs
  obtain ⟨-, m1, m2, m3, m4⟩ := FmmTenor.eta_spec h (T - (s.tau - s.length / 2))
  rw [← s2] at m1 m2 m3 m4
  have hle : s.startIdx ≤ p.tenor.m := by
    by_contra hc
    have := m3 p.tenor.m h.1 (by omega)
    linarith
  refine FmmTenor.etaN_unique h m1 m2 (fun j hj1 hj2 => ?_) fun hj => ?_
  · have k1 := m3 j hj1 hj2
    by_contra hc
    exact hgap j (by omega) ⟨by linarith, by linarith⟩
  · have k1 := m4 hj
    rcases hj.eq_or_lt with he | hlt
    · rw [he]; linarith
    · by_contra hc
      exact hgap _ hlt ⟨by linarith, by linarith⟩

/-! ## The Simpson sums -/

theorem simpsonInt_eq {c : FmmChf} (h : c.params.tenor.Ordered) (hv : c.params.Valid)
    (hk : 0 < c.params.heston.kappa) (hca : Cached c) (a b : ℝ) {start m : ℕ} (hs : 1 ≤ start)
    (hm : 0 < m) :
    c.simpsonInt a b start (2 * m) = .ok (simpsonOn m a b fun s =>
      fmmCross c.params (c.expiry - s) (phiOf c.params.heston (c.expiry - s))
        (phiOf c.params.domestic.cir (c.expiry - s))
        (phiOf c.params.foreign.cir (c.expiry - s)) start) := by
  set f : ℝ → ℝ := fun s => fmmCross c.params (c.expiry - s) (phiOf c.params.heston (c.expiry - s))
        (phiOf c.params.domestic.cir (c.expiry - s))
        (phiOf c.params.foreign.cir (c.expiry - s)) start with hf
  have hH : ((2 * m : ℕ) : ℝ) = 2 * m := by push_cast; ring
  rw [FmmChf.simpsonInt]
  dsimp only
  rw [foldlM_okR (g := fun k : ℕ => simpsonWeight (2 * m) k * f (a + k * ((b - a) / (2 * m : ℕ)))),
    ok_bind, zero_add]
  · congr 1
    have hw := weighted_sum (fun s => ((f (a + s) : ℝ) : ℂ)) ((b - a) / (2 * m)) m hm
    have hw' : ((List.range (2 * m + 1)).map (fun k : ℕ => simpsonWeight (2 * m) k
          * f (a + k * ((b - a) / (2 * m))))).sum
        = ∑ j ∈ Finset.range m, (f (a + (2 * j : ℕ) * ((b - a) / (2 * m)))
          + 4 * f (a + (2 * j + 1 : ℕ) * ((b - a) / (2 * m)))
          + f (a + (2 * j + 2 : ℕ) * ((b - a) / (2 * m)))) := by
      apply Complex.ofReal_injective
      have e : ∀ l : List ℕ, ((((l.map (fun k : ℕ => simpsonWeight (2 * m) k
          * f (a + k * ((b - a) / (2 * m))))).sum : ℝ)) : ℂ)
          = (l.map (fun k : ℕ => (simpsonWeight (2 * m) k : ℂ)
            * ((f (a + k * ((b - a) / (2 * m))) : ℝ) : ℂ))).sum := by
        intro l
        induction l with
        | nil => simp
        | cons k ks ih => rw [List.map_cons, List.map_cons, List.sum_cons, List.sum_cons, ← ih]; push_cast; ring
      rw [e, hw]
      push_cast
      rfl
    rw [hH, hw', simpsonOn, Finset.sum_mul, Finset.sum_div]
    exact Finset.sum_congr rfl fun j _ => by ring
  · intro acc k _
    rw [fAt_eq h hv hk hca _ hs, ok_bind]

/-- The Simpson sums of all segments. -/
noncomputable def fmmSum (p : FmmParams) (T : ℝ) (m : ℕ) (segs : List Segment) : ℝ :=
  (segs.map fun s => simpsonOn m (s.tau - s.length) s.tau fun t =>
    fmmCross p (T - t) (phiOf p.heston (T - t)) (phiOf p.domestic.cir (T - t))
      (phiOf p.foreign.cir (T - t)) s.startIdx).sum

theorem fmmPass_fold {p : FmmParams} (h : p.tenor.Ordered) (hv : p.Valid) (hk : 0 < p.heston.kappa)
    (T : ℝ) (qsegs : List Segment) {n m : ℕ} (hm : 0 < m) (u : ℂ) (segs : List Segment) :
    ∀ st : ChfState, Tiles T st.tauPrev segs → (∀ s ∈ segs, 1 ≤ s.startIdx) →
      segs.foldlM (FmmChf.pass (fmmBuilt p T qsegs n m) u) st = .ok
        ⟨(dFold u p.domestic.lambda p.domestic.eta p.domestic.v0 Segment.ad (st.dd, 0) segs).1,
         (dFold u p.foreign.lambda p.foreign.eta p.foreign.v0 Segment.af (st.df, 0) segs).1,
         st.a + (hestonAIncrement u p.heston.kappa p.heston.theta p.heston.gamma
              p.correlations.xiSigma st.tauPrev T
            + (dFold u p.domestic.lambda p.domestic.eta p.domestic.v0 Segment.ad (st.dd, 0) segs).2
            + (dFold u p.foreign.lambda p.foreign.eta p.foreign.v0 Segment.af (st.df, 0) segs).2
            + chfQ u / 2 * (fmmSum p T m segs : ℝ)), T⟩ := by
  induction segs with
  | nil =>
    intro st ht _
    have ht : st.tauPrev = T := ht
    rw [List.foldlM_nil]
    change Outcome.ok st = _
    congr 1
    cases st
    dsimp only at ht
    subst ht
    simp [dFold, fmmSum, hestonAIncrement]
  | cons s rest ih =>
    intro st ht hs1
    obtain ⟨t1, t2, t3⟩ := ht
    have hst : s.tau - s.length = st.tauPrev := by rw [t2]; ring
    have hsi := simpsonInt_eq (c := fmmBuilt p T qsegs n m) h hv hk (fmmBuilt_cached _ _ _ _ _)
      st.tauPrev s.tau (hs1 s List.mem_cons_self) hm
    have hmax : max (2 * m) 2 = 2 * m := max_eq_left (by omega)
    have hpass : FmmChf.pass (fmmBuilt p T qsegs n m) u st s = .ok
        ⟨(advanceD u p.domestic.lambda p.domestic.eta s.ad p.domestic.v0 st.dd s.length).1,
         (advanceD u p.foreign.lambda p.foreign.eta s.af p.foreign.v0 st.df s.length).1,
         st.a + (hestonAIncrement u p.heston.kappa p.heston.theta p.heston.gamma
              p.correlations.xiSigma st.tauPrev s.tau
            + (advanceD u p.domestic.lambda p.domestic.eta s.ad p.domestic.v0 st.dd s.length).2
            + (advanceD u p.foreign.lambda p.foreign.eta s.af p.foreign.v0 st.df s.length).2
            + -(1 / 2 : ℂ) * (u * u + Complex.I * u) * ((simpsonOn m st.tauPrev s.tau (fun t =>
              fmmCross p (T - t) (phiOf p.heston (T - t)) (phiOf p.domestic.cir (T - t))
                (phiOf p.foreign.cir (T - t)) s.startIdx) : ℝ) : ℂ)), s.tau⟩ := by
      rw [FmmChf.pass]
      dsimp only
      rw [show max (fmmBuilt p T qsegs n m).nSimpson 2 = 2 * m from hmax, hsi, ok_bind]
      rfl
    rw [List.foldlM_cons, hpass, ok_bind,
      ih ⟨_, _, _, s.tau⟩ t3 fun s' hs' => hs1 s' (List.mem_cons_of_mem _ hs')]
    dsimp only
    have e : ∀ (l e v : ℝ) (a : Segment → ℝ) (d : ℂ), dFold u l e v a (d, 0) (s :: rest)
        = ((dFold u l e v a ((advanceD u l e (a s) v d s.length).1, 0) rest).1,
          (advanceD u l e (a s) v d s.length).2
            + (dFold u l e v a ((advanceD u l e (a s) v d s.length).1, 0) rest).2) := by
      intro l e v a d
      have : dFold u l e v a (d, 0) (s :: rest)
          = dFold u l e v a ((advanceD u l e (a s) v d s.length).1,
            0 + (advanceD u l e (a s) v d s.length).2) rest := rfl
      rw [this, zero_add, dFold_acc]
    rw [e, e]
    congr 2
    have hS : fmmSum p T m (s :: rest) = simpsonOn m st.tauPrev s.tau (fun t =>
        fmmCross p (T - t) (phiOf p.heston (T - t)) (phiOf p.domestic.cir (T - t))
          (phiOf p.foreign.cir (T - t)) s.startIdx) + fmmSum p T m rest := by
      rw [fmmSum, List.map_cons, List.sum_cons, hst]; rfl
    rw [hS, chfQ_eq, hestonAIncrement, hestonAIncrement, hestonAIncrement]
    push_cast
    ring

theorem rateDiscounts_ok {p : FmmParams} (h : p.tenor.Ordered)
    (hR : ∀ k, 1 ≤ k → k ≤ p.tenor.m → 0 < 1 + (p.tenor.T k - p.tenor.T (k - 1)) * p.tenor.R k)
    (T : ℝ) : ∃ P, rateDiscounts p T = .ok (P, P) ∧ 0 < P :=
  liborDiscounts_ok (p := ⟨p.fx0, p.heston, p.tenor.toLibor, ⟨[], [], 0, 0, 0, []⟩,
    ⟨[], [], 0, 0, 0, []⟩, ⟨0, [], [], []⟩⟩) h.libor h.1 hR T

end Verif
