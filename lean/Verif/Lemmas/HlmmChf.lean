import Verif.Lemmas.HlmmRiccati
import Verif.Lemmas.HlmmTenor
import Mathlib.Topology.ContinuousOn

/-! # The segments and the components of the FX-HLMM1 characteristic function -/

namespace Verif

open Outcome Classical MeasureTheory

/-! ## The boundaries -/

theorem tauLoop_ok {q : LiborTenor} (h : q.Ordered) (T : ℝ) (ks : List ℕ) (hk : ∀ k ∈ ks, k < q.n) :
    tauLoop q.dates T ks
      = .ok ((ks.map fun k => T - q.T k).filter fun b => decide (0 < b)) := by
  induction ks with
  | nil => rfl
  | cons k ks ih =>
    have hl := h.1
    have hkn := hk k List.mem_cons_self
    have h0 := h.nonneg hkn.le
    rw [tauLoop, unwrap_getD _ _ (by omega) 0, ok_bind,
      ih fun j hj => hk j (List.mem_cons_of_mem _ hj), ok_bind]
    dsimp only
    rw [List.map_cons, List.filter_cons]
    change Outcome.ok (if 0 < T - q.T k ∧ T - q.T k < T + 1 / 10 ^ 12 then _ else _) = _
    by_cases hp : 0 < T - q.T k
    · rw [if_pos ⟨hp, by linarith [show (0 : ℝ) < 1 / 10 ^ 12 by positivity]⟩,
        if_pos (by simpa using hp)]
      rfl
    · rw [if_neg fun hc => hp hc.1, if_neg (by simpa using hp)]

/-- The boundaries increase, end at the expiry and contain the reflected tenor dates. -/
theorem tauBoundaries_ok {q : LiborTenor} (h : q.Ordered) (hn : 0 < q.n) {T : ℝ} (hT : 0 < T)
    (h0 : q.T 0 = 0 ∨ 1 / 10 ^ 12 < q.T 0) :
    ∃ l : List ℝ, tauBoundaries q T = .ok (l ++ [T]) ∧ (l ++ [T]).Pairwise (· < ·)
      ∧ (∀ b ∈ l ++ [T], 0 < b) ∧ ∀ k < q.n, q.T k < T → T - q.T k ∈ l ++ [T] := by
  obtain ⟨n, hn'⟩ : ∃ n, q.n = n + 1 := ⟨q.n - 1, by omega⟩
  have hT0 := h.2.1
  set l := (((List.range q.n).reverse).map fun k => T - q.T k).filter fun b => decide (0 < b) with hl
  have hmem : ∀ b, b ∈ l ↔ ∃ k < q.n, b = T - q.T k ∧ q.T k < T := by
    intro b
    simp only [hl, List.mem_filter, List.mem_map, List.mem_reverse, List.mem_range,
      decide_eq_true_eq]
    constructor
    · rintro ⟨⟨k, hk, rfl⟩, hb⟩
      exact ⟨k, hk, rfl, by linarith⟩
    · rintro ⟨k, hk, rfl, hb⟩
      exact ⟨⟨k, hk, rfl⟩, by linarith⟩
  have hpw : l.Pairwise (· < ·) := by
    apply List.Pairwise.filter
    rw [List.pairwise_map, List.pairwise_reverse]
    have := (List.pairwise_lt_range (n := q.n))
    refine List.Pairwise.imp_of_mem ?_ this
    intro a b ha hb hab
    rw [List.mem_range] at ha hb
    have := h.strict hab hb.le
    linarith
  have hB : tauBoundaries q T = (match l.getLast? with
      | none => .ok (l ++ [T])
      | some x => .ok (if 1 / 10 ^ 12 < |x - T| then l ++ [T] else l)) := by
    rw [tauBoundaries, if_neg (by omega), tauLoop_ok h T _ (by simp), ok_bind, ← hl]
    generalize l.getLast? = o
    cases o <;> rfl
  have happ : ∀ l' : List ℝ, (∀ b ∈ l', b < T) → l'.Pairwise (· < ·) →
      (l' ++ [T]).Pairwise (· < ·) := by
    intro l' hb hp
    rw [List.pairwise_append]
    exact ⟨hp, by simp, fun a ha b hb' => by rw [List.mem_singleton.1 hb']; exact hb a ha⟩
  by_cases hlt : q.T 0 < T
  · -- the last boundary comes from `T₀`
    have hlast : ∃ l', l = l' ++ [T - q.T 0] := by
      refine ⟨(((List.range n).reverse).map fun k => T - q.T (k + 1)).filter
        fun b => decide (0 < b), ?_⟩
      rw [hl, hn', List.range_succ_eq_map, List.reverse_cons, List.map_append, List.filter_append,
        ← List.map_reverse, List.map_map]
      congr 1
      simp [hlt]
    obtain ⟨l', hl'⟩ := hlast
    rcases h0 with h0 | h0
    · refine ⟨l', ?_, ?_, ?_, ?_⟩
      · rw [hB, hl', List.getLast?_concat]
        dsimp only
        rw [if_neg, h0, sub_zero]
        rw [h0]; simp
      · rw [hl', h0, sub_zero] at hpw; exact hpw
      · intro b hb
        have : b ∈ l := by rw [hl', h0, sub_zero]; exact hb
        obtain ⟨k, -, rfl, hk⟩ := (hmem b).1 this
        linarith
      · intro k hk hkT
        have : T - q.T k ∈ l := (hmem _).2 ⟨k, hk, rfl, hkT⟩
        rw [hl', h0, sub_zero] at this; exact this
    · refine ⟨l, ?_, ?_, ?_, ?_⟩
      · rw [hB, hl', List.getLast?_concat]
        dsimp only
        rw [if_pos]
        rw [show T - q.T 0 - T = -q.T 0 by ring, abs_neg, abs_of_nonneg hT0]
        exact h0
      · refine happ l (fun b hb => ?_) hpw
        obtain ⟨k, hk, rfl, -⟩ := (hmem b).1 hb
        have := h.mono (Nat.zero_le k) hk.le
        linarith [show (0 : ℝ) < 1 / 10 ^ 12 by positivity]
      · intro b hb
        rcases List.mem_append.1 hb with hb | hb
        · obtain ⟨k, -, rfl, hk⟩ := (hmem b).1 hb
          linarith
        · rw [List.mem_singleton.1 hb]; exact hT
      · intro k hk hkT
        exact List.mem_append_left _ ((hmem _).2 ⟨k, hk, rfl, hkT⟩)
  · have hnil : l = [] := by
      rw [List.eq_nil_iff_forall_not_mem]
      intro b hb
      obtain ⟨k, hk, -, hkT⟩ := (hmem b).1 hb
      exact hlt ((h.mono (Nat.zero_le k) hk.le).trans_lt hkT)
    refine ⟨[], ?_, by simp, by simpa using hT, ?_⟩
    · rw [hB, hnil]; rfl
    · intro k hk hkT
      exact absurd ((h.mono (Nat.zero_le k) hk.le).trans_lt hkT) hlt

/-! ## The segments -/

/-- What a segment has to carry. -/
def SegmentOk (p : HlmmParams) (T : ℝ) (s : Segment) : Prop :=
  1 ≤ s.startIdx ∧ 0 < s.length ∧ 0 ≤ s.tau - s.length ∧ s.tau ≤ T
    ∧ (∀ t, s.tau - s.length < t → t < s.tau → p.tenor.m (T - t) + 1 = s.startIdx)
    ∧ s.ad = triForm p.domestic.liborCorr (psiVal p.domestic p.tenor) s.startIdx p.tenor.n
    ∧ s.af = triForm p.foreign.liborCorr (psiVal p.foreign p.tenor) s.startIdx p.tenor.n

theorem segmentLoop_ok {p : HlmmParams} (h : p.tenor.Ordered) (hv : p.Valid) {T : ℝ} (l : List ℝ) :
    ∀ prev, 0 ≤ prev → (prev :: (l ++ [T])).Pairwise (· < ·) →
      (∀ k < p.tenor.n, prev < T - p.tenor.T k → T - p.tenor.T k ∈ l ++ [T]) →
      ∃ segs, segmentLoop p T prev (l ++ [T]) = .ok segs ∧ Tiles T prev segs
        ∧ ∀ s ∈ segs, SegmentOk p T s := by
  -- one step, shared by the last boundary and the others
  have step : ∀ prev b : ℝ, ∀ rest : List ℝ, 0 ≤ prev → prev < b → b ≤ T →
      (∀ k < p.tenor.n, prev < T - p.tenor.T k → b ≤ T - p.tenor.T k) →
      ∀ segs, segmentLoop p T b rest = .ok segs → ∃ s, segmentLoop p T prev (b :: rest) = .ok (s :: segs)
        ∧ s.tau = b ∧ s.length = b - prev ∧ SegmentOk p T s := by
    intro prev b rest h0 hpb hbT hgap segs hsegs
    obtain ⟨hd, hf, -⟩ := hv
    have ha := computeASide_eq (l := p.domestic) h hd.1 hd.2.2.1 hd.2.2.2.1
      (a := p.tenor.m (T - 0.5 * (prev + b)) + 1) (by omega)
    have hb := computeASide_eq (l := p.foreign) h hf.1 hf.2.2.1 hf.2.2.2.1
      (a := p.tenor.m (T - 0.5 * (prev + b)) + 1) (by omega)
    refine ⟨⟨b, b - prev, p.tenor.m (T - 0.5 * (prev + b)) + 1,
      triForm p.domestic.liborCorr (psiVal p.domestic p.tenor)
        (p.tenor.m (T - 0.5 * (prev + b)) + 1) p.tenor.n,
      triForm p.foreign.liborCorr (psiVal p.foreign p.tenor)
        (p.tenor.m (T - 0.5 * (prev + b)) + 1) p.tenor.n⟩, ?_, ?_⟩
    · rw [segmentLoop, if_neg (by linarith)]
      dsimp only
      rw [computeAD, ha, ok_bind, computeAF, hb, ok_bind, hsegs, ok_bind]
    · refine ⟨rfl, rfl, by dsimp only; omega, by dsimp only; linarith, by dsimp only; linarith, hbT, ?_, rfl, rfl⟩
      dsimp only
      intro t ht1 ht2
      congr 1
      obtain ⟨m1, m2, m3⟩ := LiborTenor.m_spec h (T - 0.5 * (prev + b))
      refine LiborTenor.m_unique h m1 (fun i hi => ?_) fun hm => ?_
      · have h1 := m2 i hi
        by_contra hc
        have := hgap i (by omega) (by norm_num at h1 ht1 ⊢; linarith)
        norm_num at h1 ht1 hc
        linarith
      · have h1 := m3 hm
        by_contra hc
        norm_num at h1 ht1 hc
        have := hgap _ hm
        by_cases hg : prev < T - p.tenor.T (p.tenor.m (T - 0.5 * (prev + b)))
        · have := this hg
          norm_num at this
          linarith
        · norm_num at hg
          linarith
  induction l with
  | nil =>
    intro prev h0 hpw hgap
    have hpT : prev < T := by simpa using hpw
    obtain ⟨s, hs, h1, h2, h3⟩ := step prev T [] h0 hpT le_rfl (fun k hk hlt => by
      have := hgap k hk hlt
      rw [List.nil_append, List.mem_singleton] at this
      exact this.ge) [] rfl
    refine ⟨[s], hs, ⟨by rw [h1]; exact hpT, by rw [h1, h2], h1⟩, ?_⟩
    intro s' hs'
    rw [List.mem_singleton.1 hs']; exact h3
  | cons b l ih =>
    intro prev h0 hpw hgap
    rw [List.cons_append, List.pairwise_cons] at hpw
    obtain ⟨hp1, hp2⟩ := hpw
    have hpb : prev < b := hp1 b List.mem_cons_self
    have hbl := (List.pairwise_cons.1 hp2).1
    obtain ⟨segs, hs1, hs2, hs3⟩ := ih b (by linarith) hp2 (fun k hk hlt => by
      have := hgap k hk (hpb.trans hlt)
      rw [List.cons_append, List.mem_cons] at this
      rcases this with h | h
      · exact absurd h hlt.ne'
      · exact h)
    obtain ⟨s, hs, h1, h2, h3⟩ := step prev b (l ++ [T]) h0 hpb
      (hbl T (List.mem_append_right _ (List.mem_singleton.2 rfl))).le (fun k hk hlt => by
        have := hgap k hk hlt
        rw [List.cons_append, List.mem_cons] at this
        rcases this with h | h
        · exact h.ge
        · exact (hbl _ h).le) segs hs1
    refine ⟨s :: segs, hs, ⟨by rw [h1]; exact hpb, by rw [h1, h2], by rw [h1]; exact hs2⟩, ?_⟩
    intro s' hs'
    rcases List.mem_cons.1 hs' with rfl | hs'
    · exact h3
    · exact hs3 s' hs'

theorem withSimpsonSteps_segments {p : HlmmParams} (h : p.tenor.Ordered) (hv : p.Valid)
    (hn : 0 < p.tenor.n) (h0 : p.tenor.T 0 = 0 ∨ 1 / 10 ^ 12 < p.tenor.T 0) {T : ℝ} (hT : 0 < T)
    {m : ℕ} (hm : 0 < m) :
    ∃ segs, HlmmChf.withSimpsonSteps p T (2 * m) = .ok ⟨p, T, segs, 2 * m⟩ ∧ Tiles T 0 segs
      ∧ ∀ s ∈ segs, SegmentOk p T s := by
  obtain ⟨l, hl, hpw, hpos, hmem⟩ := tauBoundaries_ok h hn hT h0
  obtain ⟨segs, h1, h2, h3⟩ := segmentLoop_ok h hv l 0 le_rfl
    (List.pairwise_cons.2 ⟨hpos, hpw⟩) (fun k hk hlt => hmem k hk (by linarith))
  refine ⟨segs, ?_, h2, h3⟩
  rw [HlmmChf.withSimpsonSteps, if_pos ⟨⟨by omega, by omega⟩, hT, hv⟩, hl, ok_bind, h1, ok_bind]

/-! ## The Simpson sums -/

theorem simpsonF_eq {p : HlmmParams} (h : p.tenor.Ordered) (hv : p.Valid) (hk : 0 < p.heston.kappa)
    (T a b : ℝ) {start m : ℕ} (hs : 1 ≤ start) (hm : 0 < m) :
    simpsonF p T a b start (2 * m) = .ok (simpsonOn m a b fun s =>
      crossForm p (phiOf p.heston (T - s)) (phiOf p.domestic.cir (T - s))
        (phiOf p.foreign.cir (T - s)) start) := by
  set f : ℝ → ℝ := fun s => crossForm p (phiOf p.heston (T - s)) (phiOf p.domestic.cir (T - s))
        (phiOf p.foreign.cir (T - s)) start with hf
  have hH : ((2 * m : ℕ) : ℝ) = 2 * m := by push_cast; ring
  rw [simpsonF]
  dsimp only
  rw [foldlM_okR (g := fun k : ℕ => simpsonWeight (2 * m) k * f (a + k * ((b - a) / (2 * m : ℕ)))),
    ok_bind, zero_add]
  · congr 1
    have hw := weighted_sum (fun s => ((f (a + s) : ℝ) : ℂ)) ((b - a) / (2 * m)) m hm
    have hw' : ((List.range (2 * m + 1)).map (fun k : ℕ => simpsonWeight (2 * m) k
          * f (a + k * ((b - a) / (2 * m))))).sum
        = ∑ j ∈ Finset.range m, (f (a + (2 * j : ℕ) * ((b - a) / (2 * m)))
          + 4 * f (a + (2 * j + 1 : ℕ) * ((b - a) / (2 * m)))
          + f (a + (2 * j + 2 : ℕ) * ((b - a) / (2 * m)))) := by
      apply Complex.ofReal_injective
      have e : ∀ l : List ℕ, ((((l.map (fun k : ℕ => simpsonWeight (2 * m) k
          * f (a + k * ((b - a) / (2 * m))))).sum : ℝ)) : ℂ)
          = (l.map (fun k : ℕ => (simpsonWeight (2 * m) k : ℂ)
            * ((f (a + k * ((b - a) / (2 * m))) : ℝ) : ℂ))).sum := by
        intro l
        induction l with
        | nil => simp
        | cons k ks ih => rw [List.map_cons, List.map_cons, List.sum_cons, List.sum_cons, ← ih]; push_cast; ring
      rw [e, hw]
      push_cast
      rfl
    rw [hH, hw', simpsonOn, Finset.sum_mul, Finset.sum_div]
    exact Finset.sum_congr rfl fun j _ => by ring
  · intro acc k _
    rw [computeF_eq h hv hk _ hs, ok_bind]

/-! ## The fold over the segments -/

/-- The fold of one currency. -/
noncomputable def dFold (u : ℂ) (lambda eta v0 : ℝ) (a : Segment → ℝ) (st : ℂ × ℂ)
    (segs : List Segment) : ℂ × ℂ :=
  segs.foldl (fun st s => ((advanceD u lambda eta (a s) v0 st.1 s.length).1,
    st.2 + (advanceD u lambda eta (a s) v0 st.1 s.length).2)) st

theorem dFold_acc (u : ℂ) (lambda eta v0 : ℝ) (a : Segment → ℝ) (segs : List Segment) (d x : ℂ) :
    dFold u lambda eta v0 a (d, x) segs
      = ((dFold u lambda eta v0 a (d, 0) segs).1, x + (dFold u lambda eta v0 a (d, 0) segs).2) := by
  induction segs generalizing d x with
  | nil => simp [dFold]
  | cons s rest ih =>
    have e : ∀ st, dFold u lambda eta v0 a st (s :: rest)
        = dFold u lambda eta v0 a ((advanceD u lambda eta (a s) v0 st.1 s.length).1,
          st.2 + (advanceD u lambda eta (a s) v0 st.1 s.length).2) rest := fun _ => rfl
    rw [e, e, ih]
    dsimp only
    rw [ih _ (0 + _)]
    refine Prod.ext rfl ?_
    dsimp only
    ring

/-- The Simpson sums of all segments. -/
noncomputable def fSum (p : HlmmParams) (T : ℝ) (m : ℕ) (segs : List Segment) : ℝ :=
  (segs.map fun s => simpsonOn m (s.tau - s.length) s.tau fun t =>
    crossForm p (phiOf p.heston (T - t)) (phiOf p.domestic.cir (T - t))
      (phiOf p.foreign.cir (T - t)) s.startIdx).sum

theorem pass_fold {p : HlmmParams} (h : p.tenor.Ordered) (hv : p.Valid) (hk : 0 < p.heston.kappa)
    (T : ℝ) (qsegs : List Segment) {m : ℕ} (hm : 0 < m) (u : ℂ) (segs : List Segment) :
    ∀ st : ChfState, Tiles T st.tauPrev segs → (∀ s ∈ segs, 1 ≤ s.startIdx) →
      segs.foldlM (HlmmChf.pass ⟨p, T, qsegs, 2 * m⟩ u) st = .ok
        ⟨(dFold u p.domestic.lambda p.domestic.eta p.domestic.v0 Segment.ad (st.dd, 0) segs).1,
         (dFold u p.foreign.lambda p.foreign.eta p.foreign.v0 Segment.af (st.df, 0) segs).1,
         st.a + (hestonAIncrement u p.heston.kappa p.heston.theta p.heston.gamma
              p.correlations.xiSigma st.tauPrev T
            + (dFold u p.domestic.lambda p.domestic.eta p.domestic.v0 Segment.ad (st.dd, 0) segs).2
            + (dFold u p.foreign.lambda p.foreign.eta p.foreign.v0 Segment.af (st.df, 0) segs).2
            + chfQ u / 2 * (fSum p T m segs : ℝ)), T⟩ := by
  induction segs with
  | nil =>
    intro st ht _
    have ht : st.tauPrev = T := ht
    rw [List.foldlM_nil]
    change Outcome.ok st = _
    congr 1
    cases st
    dsimp only at ht
    subst ht
    simp [dFold, fSum, hestonAIncrement]
  | cons s rest ih =>
    intro st ht hs1
    obtain ⟨t1, t2, t3⟩ := ht
    have hst : s.tau - s.length = st.tauPrev := by rw [t2]; ring
    have hpass : HlmmChf.pass ⟨p, T, qsegs, 2 * m⟩ u st s = .ok
        ⟨(advanceD u p.domestic.lambda p.domestic.eta s.ad p.domestic.v0 st.dd s.length).1,
         (advanceD u p.foreign.lambda p.foreign.eta s.af p.foreign.v0 st.df s.length).1,
         st.a + (hestonAIncrement u p.heston.kappa p.heston.theta p.heston.gamma
              p.correlations.xiSigma st.tauPrev s.tau
            + (advanceD u p.domestic.lambda p.domestic.eta s.ad p.domestic.v0 st.dd s.length).2
            + (advanceD u p.foreign.lambda p.foreign.eta s.af p.foreign.v0 st.df s.length).2
            + -(1 / 2 : ℂ) * (u * u + Complex.I * u) * ((simpsonOn m st.tauPrev s.tau (fun t =>
              crossForm p (phiOf p.heston (T - t)) (phiOf p.domestic.cir (T - t))
                (phiOf p.foreign.cir (T - t)) s.startIdx) : ℝ) : ℂ)), s.tau⟩ := by
      rw [HlmmChf.pass]
      dsimp only
      rw [simpsonF_eq h hv hk T _ _ (hs1 s List.mem_cons_self) hm, ok_bind]
    rw [List.foldlM_cons, hpass, ok_bind,
      ih ⟨_, _, _, s.tau⟩ t3 fun s' hs' => hs1 s' (List.mem_cons_of_mem _ hs')]
    have ed : ∀ (l e v : ℝ) (a : Segment → ℝ) (d : ℂ), dFold u l e v a (d, 0) (s :: rest)
        = ((dFold u l e v a ((advanceD u l e (a s) v d s.length).1, 0) rest).1,
          (advanceD u l e (a s) v d s.length).2
            + (dFold u l e v a ((advanceD u l e (a s) v d s.length).1, 0) rest).2) := by
      intro l e v a d
      have : dFold u l e v a (d, 0) (s :: rest)
        = dFold u l e v a ((advanceD u l e (a s) v d s.length).1,
          0 + (advanceD u l e (a s) v d s.length).2) rest := rfl
      rw [this, dFold_acc, zero_add]
    rw [ed, ed]
    dsimp only
    congr 2
    have ef : fSum p T m (s :: rest) = simpsonOn m st.tauPrev s.tau (fun t =>
              crossForm p (phiOf p.heston (T - t)) (phiOf p.domestic.cir (T - t))
                (phiOf p.foreign.cir (T - t)) s.startIdx) + fSum p T m rest := by
      rw [fSum, List.map_cons, List.sum_cons, hst]; rfl
    rw [ef, chfQ_eq]
    simp only [hestonAIncrement]
    push_cast
    ring

/-! ## The piecewise solution -/

theorem advanceD_real {lambda eta aj v0 : ℝ} (hl : 0 < lambda) (he : eta ≠ 0) (ha : 0 ≤ aj) (u : ℝ)
    {dp : ℂ} (hdp : dp.re ≤ 0) {s : ℝ} (hs : 0 ≤ s) :
    advanceD u lambda eta aj v0 dp s = (advPath lambda eta aj u dp s,
      ((lambda * v0 : ℝ) : ℂ) * ∫ t in (0 : ℝ)..s, advPath lambda eta aj u dp t) := by
  obtain ⟨-, h2, -, h4⟩ := adv_regular (eta := eta) hl ha u hdp
  rw [advanceD_eq he h2 h4 hs, advAnti_integral hl he ha u hdp hs]

theorem tiles_le {T : ℝ} (segs : List Segment) : ∀ prev, Tiles T prev segs → prev ≤ T := by
  induction segs with
  | nil => intro prev h; exact le_of_eq h
  | cons s rest ih => intro prev h; exact h.1.le.trans (ih _ h.2.2)

theorem tiles_mem {T : ℝ} (segs : List Segment) :
    ∀ prev, Tiles T prev segs → ∀ s ∈ segs, prev ≤ s.tau - s.length := by
  induction segs with
  | nil => intro prev _ s hs; cases hs
  | cons a rest ih =>
    intro prev h s hs
    rcases List.mem_cons.1 hs with rfl | hs
    · rw [h.2.1]; linarith
    · exact h.1.le.trans (ih _ h.2.2 s hs)

theorem path_exists {lambda eta v0 : ℝ} (hl : 0 < lambda) (he : eta ≠ 0) (a : Segment → ℝ) (u : ℝ)
    {T : ℝ} (segs : List Segment) :
    ∀ (prev : ℝ) (dp : ℂ), Tiles T prev segs → dp.re ≤ 0 → (∀ s ∈ segs, 0 ≤ a s) →
      ∃ D : ℝ → ℂ, D prev = dp ∧ ContinuousOn D (Set.Icc prev T)
        ∧ (∀ t ∈ Set.Icc prev T, (D t).re ≤ 0)
        ∧ (∀ s ∈ segs, ∀ t ∈ Set.Ioo (s.tau - s.length) s.tau,
          HasDerivAt D (a s * chfQ u / 2 - lambda * D t + ((eta ^ 2 : ℝ) : ℂ) / 2 * D t ^ 2) t)
        ∧ dFold u lambda eta v0 a (dp, 0) segs
          = (D T, ((lambda * v0 : ℝ) : ℂ) * ∫ t in prev..T, D t) := by
  induction segs with
  | nil =>
    intro prev dp ht hdp _
    have ht : prev = T := ht
    subst ht
    refine ⟨fun _ => dp, rfl, continuousOn_const, fun _ _ => hdp, fun s hs => absurd hs List.not_mem_nil, ?_⟩
    simp [dFold]
  | cons s rest ih =>
    intro prev dp ht hdp ha
    obtain ⟨t1, t2, t3⟩ := ht
    have has := ha s List.mem_cons_self
    have hlen : 0 ≤ s.length := by rw [t2]; linarith
    set P := advPath lambda eta (a s) u dp with hP
    have hPr := advPath_re_nonpos (eta := eta) hl has u hdp (s := s.length) hlen
    obtain ⟨E, e1, e2, e3, e4, e5⟩ := ih s.tau (P s.length) t3 hPr
      fun s' hs' => ha s' (List.mem_cons_of_mem _ hs')
    set D : ℝ → ℂ := fun t => if t ≤ s.tau then P (t - prev) else E t with hD
    have hsT : s.tau ≤ T := tiles_le _ _ t3
    have hD1 : ∀ t ≤ s.tau, D t = P (t - prev) := fun t h => if_pos h
    have hD2 : ∀ t, s.tau ≤ t → D t = E t := by
      intro t h
      rcases h.eq_or_lt with rfl | h
      · rw [hD1 _ le_rfl, e1, t2]
      · exact if_neg (not_le.2 h)
    have hc1 : ContinuousOn D (Set.Icc prev s.tau) := by
      have : ContinuousOn (fun t => P (t - prev)) (Set.Icc prev s.tau) := by
        refine (continuousOn_advPath hl has u hdp).comp
          ((continuous_id.sub continuous_const).continuousOn) ?_
        intro t ht
        exact sub_nonneg.2 ht.1
      exact this.congr fun t ht => hD1 t ht.2
    have hc2 : ContinuousOn D (Set.Icc s.tau T) := e2.congr fun t ht => hD2 t ht.1
    have hc : ContinuousOn D (Set.Icc prev T) := by
      rw [← Set.Icc_union_Icc_eq_Icc t1.le hsT]
      exact hc1.union_of_isClosed hc2 isClosed_Icc isClosed_Icc
    refine ⟨D, by rw [hD1 _ t1.le, sub_self]; exact advPath_zero _ _ _ _ _, hc, ?_, ?_, ?_⟩
    · intro t ht
      rcases le_total t s.tau with h | h
      · rw [hD1 t h]
        exact advPath_re_nonpos hl has u hdp (sub_nonneg.2 ht.1)
      · rw [hD2 t h]; exact e3 t ⟨h, ht.2⟩
    · intro s' hs' t ht
      rcases List.mem_cons.1 hs' with rfl | hs'
      · have hprev : s'.tau - s'.length = prev := by rw [t2]; ring
        rw [hprev] at ht
        have hd := (hasDerivAt_advPath (eta := eta) hl has u hdp (s := t - prev)
          (sub_nonneg.2 ht.1.le)).comp_sub_const t prev
        rw [hD1 t ht.2.le, sq eta]
        refine hd.congr_of_eventuallyEq ?_
        filter_upwards [gt_mem_nhds ht.2] with y hy
        exact hD1 y hy.le
      · have hlt : s.tau < t := (tiles_mem _ _ t3 s' hs').trans_lt ht.1
        have hd := e4 s' hs' t ht
        rw [hD2 t hlt.le]
        refine hd.congr_of_eventuallyEq ?_
        filter_upwards [lt_mem_nhds hlt] with y hy
        exact hD2 y hy.le
    · have hst : dFold u lambda eta v0 a (dp, 0) (s :: rest)
        = dFold u lambda eta v0 a ((advanceD u lambda eta (a s) v0 dp s.length).1,
          0 + (advanceD u lambda eta (a s) v0 dp s.length).2) rest := rfl
      rw [hst, dFold_acc, zero_add, advanceD_real hl he has u hdp hlen]
      dsimp only
      rw [← hP, e5]
      refine Prod.ext (by rw [hD2 T hsT]) ?_
      dsimp only
      have i1 : IntervalIntegrable D volume prev s.tau :=
        (hc1.mono (by rw [Set.uIcc_of_le t1.le])).intervalIntegrable
      have i2 : IntervalIntegrable D volume s.tau T :=
        (hc2.mono (by rw [Set.uIcc_of_le hsT])).intervalIntegrable
      rw [← intervalIntegral.integral_add_adjacent_intervals i1 i2, mul_add]
      congr 2
      · have : (∫ t in prev..s.tau, D t) = ∫ t in prev..s.tau, P (t - prev) := by
          apply intervalIntegral.integral_congr
          intro t ht
          rw [Set.uIcc_of_le t1.le] at ht
          exact hD1 t ht.2
        rw [this, intervalIntegral.integral_comp_sub_right (fun t => P t) prev, sub_self, t2]
      · apply intervalIntegral.integral_congr
        intro t ht
        rw [Set.uIcc_of_le hsT] at ht
        exact (hD2 t ht.1).symm

/-! ## The discount factors -/

theorem liborProduct_pos {q : LiborTenor} (h : q.Ordered)
    (hL : ∀ k, 1 ≤ k → k ≤ q.n → 0 < 1 + (q.T k - q.T (k - 1)) * q.L k) :
    ∃ P, liborProduct q = .ok P ∧ 0 < P := by
  unfold liborProduct
  suffices H : ∀ (l : List ℕ) (acc : ℝ), 0 < acc → (∀ k ∈ l, 1 ≤ k ∧ k ≤ q.n) →
      ∃ P, l.foldlM (fun (acc : ℝ) (k : ℕ) => do
        let tau ← q.tau k
        let l ← at1 q.libors k
        Outcome.ok (acc / (1 + tau * l))) acc = .ok P ∧ 0 < P from
    H _ 1 one_pos fun k hk => by rw [List.mem_range'_1] at hk; omega
  intro l
  induction l with
  | nil => intro acc ha _; exact ⟨acc, rfl, ha⟩
  | cons k ks ih =>
    intro acc ha hk
    obtain ⟨h1, h2⟩ := hk k List.mem_cons_self
    rw [List.foldlM_cons, LiborTenor.tau_ok h h1 h2, ok_bind, at1_ok _ k h1 h2 0, ok_bind, ok_bind]
    exact ih _ (div_pos ha (hL k h1 h2)) fun j hj => hk j (List.mem_cons_of_mem _ hj)

theorem liborDiscounts_ok {p : HlmmParams} (h : p.tenor.Ordered) (hn : 0 < p.tenor.n)
    (hL : ∀ k, 1 ≤ k → k ≤ p.tenor.n → 0 < 1 + (p.tenor.T k - p.tenor.T (k - 1)) * p.tenor.L k)
    (T : ℝ) : ∃ P, liborDiscounts p T = .ok (P, P) ∧ 0 < P := by
  obtain ⟨P, hP, hpos⟩ := liborProduct_pos h hL
  have hl := h.1
  rw [liborDiscounts, unwrap_getD _ _ (by omega) 0, ok_bind, hP, ok_bind]
  by_cases hc : p.tenor.dates.getD p.tenor.n 0 + 1 / 10 ^ 12 < T
  · rw [if_pos hc, at1_ok p.tenor.libors p.tenor.n hn le_rfl 0, ok_bind]
    exact ⟨_, rfl, mul_pos hpos (Real.exp_pos _)⟩
  · rw [if_neg hc]
    exact ⟨P, rfl, hpos⟩

end Verif
