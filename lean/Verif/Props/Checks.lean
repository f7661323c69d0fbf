import Verif.Spec.Checks
import Verif.Lemmas.HlmmTenor
import Verif.Model.FxFmm
import Verif.Model.TdSabr
import Verif.Model.ShortRate
import Verif.Model.Normal
import Verif.Props.FxVol
import Verif.Lemmas.TdSabrPath
import Mathlib.Tactic.Linarith
import Mathlib.Data.List.GetD

/-! # C87: input that is not accepted -/

namespace Verif
open Outcome Classical

theorem stops_ite {α : Type} {c d : Prop} [Decidable c] (h : d ↔ c) {v : α} :
    StopsUnless (if c then .ok v else .panic) d v := by
  refine ⟨fun hd => if_pos (h.1 hd), fun hd => if_neg fun hc => hd (h.2 hc)⟩

/-! ## Schedules, tenors, models -/

/-- A schedule is accepted exactly when its knots start at zero and increase, with one value per
interval. -/
theorem C87_schedule (ks vs : List ℝ) :
    StopsUnless (PieceConst.new ks vs) (ScheduleShape ks vs) ⟨ks, vs⟩ := by
  have hh : (∀ k ∈ ks.head?, |k| < 1 / 10 ^ 15) ↔ |ks.headD 0| < 1 / 10 ^ 15 := by
    cases ks <;> simp
  have hp : ks.Pairwise (· < ·) ↔ ks.IsChain (· < ·) := List.isChain_iff_pairwise.symm
  unfold ScheduleShape PieceConst.new
  rw [hh, hp]
  by_cases h1 : 2 ≤ ks.length
  swap
  · rw [if_neg h1]; exact ⟨fun h => absurd h.1 h1, fun _ => rfl⟩
  by_cases h2 : vs.length + 1 = ks.length
  swap
  · rw [if_pos h1, if_neg h2]; exact ⟨fun h => absurd h.2.1 h2, fun _ => rfl⟩
  by_cases h3 : |ks.headD 0| < 1 / 10 ^ 15
  swap
  · rw [if_pos h1, if_pos h2, if_neg h3]; exact ⟨fun h => absurd h.2.2.1 h3, fun _ => rfl⟩
  rw [if_pos h1, if_pos h2, if_pos h3]
  exact stops_ite ⟨fun h => h.2.2.2, fun h => ⟨h1, h2, h3, h⟩⟩

/-- A schedule with two pieces; the same with its knots exchanged. -/
example : PieceConst.new [0, 1, 2] [0.2, 0.3] = .ok ⟨[0, 1, 2], [0.2, 0.3]⟩
    ∧ PieceConst.new [0, 2, 1] [0.2, 0.3] = .panic := by
  refine ⟨(C87_schedule _ _).1 ?_, (C87_schedule _ _).2 ?_⟩
  · refine ⟨by simp, by simp, by simp, by norm_num⟩
  · rintro ⟨-, -, -, h⟩; norm_num at h

theorem tenorShape_iff (dates rates : List ℝ) : TenorShape dates rates ↔
    dates.length = rates.length + 1 ∧ (∃ d, dates[0]? = some d ∧ 0 ≤ d) ∧ increasingDates dates := by
  unfold TenorShape
  have hp : dates.Pairwise (· < ·) ↔ increasingDates dates := by
    rw [← List.isChain_iff_pairwise]
    induction dates with
    | nil => simp [increasingDates]
    | cons a l ih =>
      cases l with
      | nil => simp [increasingDates]
      | cons b l => rw [List.isChain_cons_cons, increasingDates, ih]
  rw [hp]
  refine and_congr_right fun hl => ?_
  refine and_congr_left fun _ => ?_
  cases dates with
  | nil => simp at hl
  | cons a l => simp

/-- Tenors are accepted exactly when the dates increase from a non-negative one and there is one
rate per period; a forward-market tenor needs a period. -/
theorem C87_tenors (dates rates : List ℝ) :
    StopsUnless (LiborTenor.new dates rates) (TenorShape dates rates) ⟨dates, rates⟩
    ∧ StopsUnless (FmmTenor.new dates rates) (rates ≠ [] ∧ TenorShape dates rates)
        ⟨dates, rates⟩ := by
  unfold LiborTenor.new FmmTenor.new
  refine ⟨stops_ite (tenorShape_iff _ _), stops_ite ?_⟩
  rw [tenorShape_iff]
  constructor
  · rintro ⟨h1, h2, h3⟩
    have := List.length_pos_iff.2 h1
    exact ⟨by omega, h2, h3⟩
  · rintro ⟨h1, h2, h3⟩
    refine ⟨fun hr => ?_, h2, h3⟩
    rw [hr] at h2
    simp at h2
    omega

example : FmmTenor.new [0, 1, 2] [0.03, 0.04] = .ok ⟨[0, 1, 2], [0.03, 0.04]⟩
    ∧ FmmTenor.new [0] [] = .panic ∧ LiborTenor.new [0] [] = .ok ⟨[0], []⟩
    ∧ FmmTenor.new [-1, 1] [0.03] = .panic := by
  refine ⟨(C87_tenors _ _).2.1 ⟨by simp, by simp, by simp, by norm_num⟩,
    (C87_tenors _ _).2.2 (by simp), (C87_tenors _ _).1.1 ⟨by simp, by simp, by simp⟩,
    (C87_tenors _ _).2.2 ?_⟩
  rintro ⟨-, -, h, -⟩
  norm_num at h

/-- A forward market model is accepted exactly with one non-negative volatility per rate and a
correlation matrix of that size. -/
theorem C87_fmm (q : FmmTenor) (sigmas : List ℝ) (c : List (List ℝ)) :
    StopsUnless (Fmm.new q sigmas c)
      (sigmas.length = q.m ∧ CorrelationShape q.m c ∧ ∀ s ∈ sigmas, 0 ≤ s)
      ⟨q, sigmas, c, none, none⟩ := by
  unfold Fmm.new
  refine stops_ite ?_
  have key : CorrelationShape q.m c ↔ c.length = q.m
      ∧ (∀ i < q.m, ∃ row, c[i]? = some row ∧ row.length = q.m
        ∧ |row.getD i 0 - 1| < 1 / 10 ^ 12
        ∧ ∀ j < q.m, |row.getD j 0 - (c.getD j []).getD i 0| < 1 / 10 ^ 12
            ∧ |row.getD j 0| ≤ 1 + 1 / 10 ^ 12) := by
    unfold CorrelationShape matAt
    simp only [Nat.add_sub_cancel]
    refine and_congr_right fun hc => ?_
    have row : ∀ i < q.m, ∃ r, c[i]? = some r ∧ r ∈ c ∧ c.getD i [] = r := by
      intro i hi
      have hi' : i < c.length := by omega
      exact ⟨c[i], List.getElem?_eq_getElem hi', List.getElem_mem hi',
        List.getD_eq_getElem _ _ hi'⟩
    constructor
    · rintro ⟨h1, h2⟩ i hi
      obtain ⟨r, e1, e2, e3⟩ := row i hi
      refine ⟨r, e1, h1 r e2, ?_, fun j hj => ?_⟩
      · have := (h2 i hi i hi).1
        rwa [e3] at this
      · have := h2 i hi j hj
        rw [e3] at this
        exact this.2
    · intro h
      refine ⟨fun r hr => ?_, fun i hi j hj => ?_⟩
      · obtain ⟨i, hi, rfl⟩ := List.mem_iff_getElem.1 hr
        obtain ⟨r, e1, e2, -⟩ := h i (by omega)
        rw [List.getElem?_eq_getElem hi, Option.some.injEq] at e1
        rw [e1, e2]
      · obtain ⟨r, e1, -, e3⟩ := row i hi
        obtain ⟨r', e1', -, e4, e5⟩ := h i hi
        rw [e1, Option.some.injEq] at e1'
        subst e1'
        rw [e3]
        exact ⟨e4, e5 j hj⟩
  rw [key]
  simp only [and_assoc]

/-- Two rates with correlation one half; an asymmetric matrix is refused. -/
example : (∃ f, Fmm.new ⟨[0, 1, 2], [0.03, 0.04]⟩ [0.1, 0.2] [[1, 0.5], [0.5, 1]] = .ok f)
    ∧ Fmm.new ⟨[0, 1, 2], [0.03, 0.04]⟩ [0.1, 0.2] [[1, 0.5], [0.4, 1]] = .panic := by
  constructor
  · refine ⟨_, (C87_fmm _ _ _).1 ⟨rfl, ⟨rfl, by simp [FmmTenor.m], ?_⟩, by norm_num⟩⟩
    intro i hi j hj
    have hi : i < 2 := hi
    have hj : j < 2 := hj
    interval_cases i <;> interval_cases j <;> norm_num [matAt]
  · refine (C87_fmm _ _ _).2 ?_
    rintro ⟨-, ⟨-, -, h⟩, -⟩
    have := (h 0 (by decide : 0 < 2) 1 (by decide : 1 < 2)).2.1
    norm_num [matAt] at this

/-- Displacements are accepted exactly with one from `[0, 1]` per rate. -/
theorem C87_betas (f : Fmm) (b : List ℝ) :
    StopsUnless (f.withBetas b) (b.length = f.tenor.m ∧ ∀ x ∈ b, 0 ≤ x ∧ x ≤ 1)
      { f with betas := some b } := by
  unfold Fmm.withBetas
  exact stops_ite Iff.rfl

/-- A volatility schedule is accepted exactly when there is one per rate, none is empty and the
knots of each increase; the Ho-Lee form always. -/
theorem C87_vol_schedule (f : Fmm) (l : List (List (ℝ × ℝ))) (v a : ℝ) :
    StopsUnless (f.withVolSchedule (.piecewiseConstant l))
      (l.length = f.tenor.m ∧ ∀ k ∈ l, k ≠ [] ∧ (k.map Prod.fst).Pairwise (· < ·))
      { f with schedule := some (.piecewiseConstant l) }
    ∧ f.withVolSchedule (.hoLeeEquivalent v a)
      = .ok { f with schedule := some (.hoLeeEquivalent v a) } := by
  refine ⟨?_, if_pos trivial⟩
  unfold Fmm.withVolSchedule
  refine stops_ite ?_
  unfold VolSchedule.accepted
  refine and_congr_right fun _ => forall₂_congr fun k _ => and_congr_right fun _ => ?_
  rw [← List.isChain_iff_pairwise, List.isChain_iff_getElem]
  constructor
  · intro h i hi
    have := h i (by simpa using hi)
    simp only [List.getElem_map] at this
    rwa [List.getD_eq_getElem _ _ (by omega), List.getD_eq_getElem _ _ hi]
  · intro h i hi
    have hi' : i + 1 < k.length := by simpa using hi
    have := h i hi'
    rw [List.getD_eq_getElem _ _ (by omega), List.getD_eq_getElem _ _ hi'] at this
    simpa only [List.getElem_map] using this

/-! ## Formulas with a domain -/

/-- The quantile of the normal distribution exists inside the unit interval only. -/
theorem C87_quantile (p : ℝ) : StopsExactlyUnless (normInv p) (0 < p ∧ p < 1) :=
  ⟨fun h => ⟨_, if_pos h⟩, fun h => if_neg h⟩

/-- The SABR formula needs a positive forward, strike and time. -/
theorem C87_hagan (p : Sabr) (f k t : ℝ) :
    StopsExactlyUnless (haganVol p f k t) (0 < f ∧ 0 < k ∧ 0 < t) :=
  ⟨fun h => ⟨_, if_pos h⟩, fun h => if_neg h⟩

/-- The mean of the square root of a CIR process needs a positive speed of reversion after the
start, its long-run value and the proxy a positive volatility as well. -/
theorem C87_cir (p : Cir) (t tol : ℝ) :
    StopsExactlyUnless (p.sqrtMeanTol t tol) (t ≤ 0 ∨ 0 < p.kappa)
    ∧ StopsExactlyUnless p.sqrtMeanInfinity (0 < p.kappa ∧ 0 < p.gamma)
    ∧ StopsExactlyUnless p.sqrtMeanProxy (0 < p.kappa ∧ 0 < p.gamma) := by
  have inf : StopsExactlyUnless p.sqrtMeanInfinity (0 < p.kappa ∧ 0 < p.gamma) := by
    unfold Cir.sqrtMeanInfinity
    constructor
    · rintro ⟨h1, h2⟩
      exact ⟨_, by rw [if_neg (not_le.2 h1), if_neg (not_le.2 h2)]⟩
    · intro h
      by_cases h1 : p.kappa ≤ 0
      · rw [if_pos h1]
      · rw [if_neg h1, if_pos (not_lt.1 fun h2 => h ⟨not_le.1 h1, h2⟩)]
  refine ⟨?_, inf, ?_, ?_⟩
  · unfold Cir.sqrtMeanTol
    constructor
    · intro h
      by_cases h0 : t ≤ 0
      · exact ⟨_, if_pos h0⟩
      · have hk : ¬ p.kappa ≤ 0 := not_le.2 (h.resolve_left h0)
        rw [if_neg h0, if_neg hk]
        by_cases h2 : |p.gamma| < 1 / 10 ^ 14
        · exact ⟨_, if_pos h2⟩
        · rw [if_neg h2]
          simp only
          by_cases h3 : 500 < 4 * p.kappa * p.sigma0 * Real.exp (-p.kappa * t)
              / (p.gamma * p.gamma * (1 - Real.exp (-p.kappa * t)))
          · exact ⟨_, if_pos h3⟩
          · exact ⟨_, if_neg h3⟩
    · intro h
      rw [not_or, not_lt] at h
      rw [if_neg h.1, if_pos h.2]
  · intro h
    obtain ⟨v, hv⟩ := inf.1 h
    exact ⟨_, by rw [Cir.sqrtMeanProxy, hv, ok_bind]⟩
  · intro h
    rw [Cir.sqrtMeanProxy, inf.2 h, panic_bind]

example : (∃ v, (⟨1 / 2, 1 / 25, 3 / 10, 1 / 25⟩ : Cir).sqrtMeanTol 1 (1 / 10 ^ 14) = .ok v)
    ∧ (⟨0, 1 / 25, 3 / 10, 1 / 25⟩ : Cir).sqrtMeanTol 1 (1 / 10 ^ 14) = .panic :=
  ⟨(C87_cir _ _ _).1.1 (Or.inr (by norm_num)), (C87_cir _ _ _).1.2 (by norm_num)⟩

/-! ## The FX volatility surface reports errors and never aborts -/

theorem bucketUpdate_keys (f : PartialDelta → PartialDelta) (d : ℝ) :
    ∀ bs : List (ℝ × PartialDelta), ∀ b ∈ bucketUpdate f d bs, b.1 = d ∨ ∃ b' ∈ bs, b.1 = b'.1
  | [], b, hb => by
    rw [bucketUpdate, List.mem_singleton] at hb
    exact Or.inl (by rw [hb])
  | c :: bs, b, hb => by
    rw [bucketUpdate] at hb
    by_cases hc : |c.1 - d| < 1 / 10 ^ 9
    · rw [if_pos hc] at hb
      rcases List.mem_cons.1 hb with rfl | hb
      · exact Or.inr ⟨c, by simp, rfl⟩
      · exact Or.inr ⟨b, List.mem_cons_of_mem _ hb, rfl⟩
    · rw [if_neg hc] at hb
      rcases List.mem_cons.1 hb with rfl | hb
      · exact Or.inr ⟨b, by simp, rfl⟩
      · rcases bucketUpdate_keys f d bs b hb with h | ⟨b', h, e⟩
        · exact Or.inl h
        · exact Or.inr ⟨b', List.mem_cons_of_mem _ h, e⟩

theorem collect_total : ∀ (qs : List FxVolQuote) (atm : Option ℝ) (bs : List (ℝ × PartialDelta)),
    (∀ b ∈ bs, 0 < b.1 ∧ b.1 < 1 / 2) → collectQuotes qs atm bs ≠ .panic
      ∧ ∀ a bs', collectQuotes qs atm bs = .ok (a, bs') → ∀ b ∈ bs', 0 < b.1 ∧ b.1 < 1 / 2 := by
  intro qs
  induction qs with
  | nil =>
    intro atm bs h
    rw [collectQuotes]
    refine ⟨fun e => (nomatch e), fun a bs' e => ?_⟩
    cases e
    exact h
  | cons q qs ih =>
    intro atm bs h
    cases hd : q.delta? with
    | none =>
      obtain ⟨v, rfl⟩ : ∃ v, q = .atm v := by
        cases q <;> simp [FxVolQuote.delta?] at hd
        exact ⟨_, rfl⟩
      rw [collectQuotes]
      cases atm with
      | some w => exact ⟨by simp, by simp⟩
      | none =>
        simp only [Option.isSome_none, Bool.false_eq_true, if_false]
        exact ih _ _ h
    | some d =>
      rw [collect_cons hd]
      by_cases hv : 0 < d ∧ d < 1 / 2
      · rw [validateDelta_ok.2 hv, ok_bind]
        refine ih _ _ fun b hb => ?_
        rcases bucketUpdate_keys _ _ _ b hb with e | ⟨b', hb', e⟩
        · rw [e]; exact hv
        · rw [e]; exact h b' hb'
      · rw [show validateDelta d = .fail .invalidData from if_pos hv, fail_bind]
        exact ⟨fun e => (nomatch e), fun a bs' e => (nomatch e)⟩

theorem resolveAll_total (atm : ℝ) : ∀ bs : List (ℝ × PartialDelta),
    resolveAll atm bs ≠ .panic
      ∧ ∀ ps, resolveAll atm bs = .ok ps → ∀ p ∈ ps, ∃ b ∈ bs, p.delta = b.1
  | [] => by
    rw [resolveAll]
    refine ⟨fun e => (nomatch e), fun ps e => ?_⟩
    cases e
    simp
  | b :: bs => by
    obtain ⟨i1, i2⟩ := resolveAll_total atm bs
    have hr : (∃ p, resolvePartial b.1 b.2 atm = .ok p ∧ p.delta = b.1)
        ∨ resolvePartial b.1 b.2 atm = .fail .invalidData := by
      unfold resolvePartial
      rcases b.2.call with _ | c <;> rcases b.2.put with _ | q <;> rcases b.2.rr with _ | rr <;>
        rcases b.2.bf with _ | bf <;> simp
    rw [resolveAll]
    rcases hr with ⟨p, hp, hd⟩ | hf
    · rw [hp, ok_bind]
      cases hb : resolveAll atm bs with
      | ok ps =>
        rw [ok_bind]
        refine ⟨fun e => (nomatch e), fun ps' e => ?_⟩
        cases e
        intro x hx
        rcases List.mem_cons.1 hx with rfl | hx
        · exact ⟨b, by simp, hd⟩
        · obtain ⟨b', h1, h2⟩ := i2 ps hb x hx
          exact ⟨b', List.mem_cons_of_mem _ h1, h2⟩
      | fail e => rw [fail_bind]; exact ⟨fun e => (nomatch e), fun _ e => (nomatch e)⟩
      | panic => exact absurd hb i1
    · rw [hf, fail_bind]
      exact ⟨fun e => (nomatch e), fun _ e => (nomatch e)⟩

theorem normalise_total (qs : List FxVolQuote) : normaliseQuotes qs ≠ .panic
    ∧ ∀ atm pairs, normaliseQuotes qs = .ok (atm, pairs) →
      pairs ≠ [] ∧ ∀ p ∈ pairs, 0 < p.delta ∧ p.delta < 1 / 2 := by
  obtain ⟨c1, c2⟩ := collect_total qs none [] (by simp)
  unfold normaliseQuotes
  cases hc : collectQuotes qs none [] with
  | panic => exact absurd hc c1
  | fail e => rw [fail_bind]; exact ⟨fun e => (nomatch e), fun _ _ e => (nomatch e)⟩
  | ok r =>
    obtain ⟨a, bs⟩ := r
    rw [ok_bind]
    cases a with
    | none => exact ⟨fun e => (nomatch e), fun _ _ e => (nomatch e)⟩
    | some atm =>
      dsimp only
      obtain ⟨r1, r2⟩ := resolveAll_total atm bs
      cases hb : resolveAll atm bs with
      | panic => exact absurd hb r1
      | fail e => rw [fail_bind]; exact ⟨fun e => (nomatch e), fun _ _ e => (nomatch e)⟩
      | ok ps =>
        rw [ok_bind]
        cases hs : sortPairs ps with
        | nil => exact ⟨fun e => (nomatch e), fun _ _ e => (nomatch e)⟩
        | cons x xs =>
          refine ⟨fun e => (nomatch e), fun at' pairs e => ?_⟩
          injection e with e
          injection e with e1 e2
          subst e2
          refine ⟨by simp, fun p hp => ?_⟩
          have : p ∈ ps := (sortPairs_perm ps).mem_iff.1 (by rw [hs]; exact hp)
          obtain ⟨b, h1, h2⟩ := r2 ps hb p this
          rw [h2]
          exact c2 _ _ hc b h1

theorem strikes_total (f s : ℝ) : ∀ ps : List DeltaPair, (∀ p ∈ ps, 0 < p.delta ∧ p.delta < 1 / 2) →
    (∃ l, putStrikes f s ps = .ok l ∧ l.length = ps.length)
    ∧ ∃ l, callStrikes f s ps = .ok l ∧ l.length = ps.length
  | [], _ => ⟨⟨[], rfl, rfl⟩, [], rfl, rfl⟩
  | p :: ps, h => by
    obtain ⟨⟨a, ha, la⟩, b, hb, lb⟩ := strikes_total f s ps fun q hq => h q (List.mem_cons_of_mem _ hq)
    obtain ⟨d1, d2⟩ := h p (by simp)
    obtain ⟨x, hx⟩ := (C87_quantile (1 - p.delta)).1 ⟨by linarith, by linarith⟩
    obtain ⟨y, hy⟩ := (C87_quantile p.delta).1 ⟨d1, by linarith⟩
    refine ⟨⟨_, by rw [putStrikes, strikeFromPutDelta, hx, ok_bind, ok_bind, ha, ok_bind], by simp [la]⟩,
      _, by rw [callStrikes, strikeFromCallDelta, hy, ok_bind, ok_bind, hb, ok_bind], by simp [lb]⟩

theorem fromPillar_total (p : VolPillar) (yf : ℝ) : Smile.fromPillar p yf ≠ .panic := by
  unfold Smile.fromPillar
  by_cases h1 : yf ≤ 0
  · rw [if_pos h1]; exact fun e => nomatch e
  rw [if_neg h1]
  by_cases h2 : p.forward ≤ 0
  · rw [if_pos h2]; exact fun e => nomatch e
  rw [if_neg h2]
  obtain ⟨n1, n2⟩ := normalise_total p.quotes
  cases hn : normaliseQuotes p.quotes with
  | panic => exact absurd hn n1
  | fail e => rw [fail_bind]; exact fun e => nomatch e
  | ok r =>
    obtain ⟨atm, pairs⟩ := r
    obtain ⟨hne, hd⟩ := n2 atm pairs hn
    rw [ok_bind]
    dsimp only
    have hs : ∀ q ∈ sortPairs pairs, 0 < q.delta ∧ q.delta < 1 / 2 := fun q hq =>
      hd q ((sortPairs_perm pairs).mem_iff.1 hq)
    obtain ⟨⟨puts, hp, lp⟩, -⟩ := strikes_total p.forward (√yf) _ hs
    obtain ⟨-, calls, hc, lc⟩ := strikes_total p.forward (√yf) (sortPairs pairs).reverse
      fun q hq => hs q (List.mem_reverse.1 hq)
    rw [hp, ok_bind, hc, ok_bind]
    by_cases hi : strikesIncrease (puts ++ (atmDnsStrike atm p.forward yf, atm) :: calls) = false
    · rw [if_pos hi]; exact fun e => nomatch e
    rw [if_neg hi]
    rw [List.length_reverse] at lc
    have hl : (puts ++ (atmDnsStrike atm p.forward yf, atm) :: calls).length
        = 2 * (sortPairs pairs).length + 1 := by simp [lp, lc]; omega
    generalize puts ++ (atmDnsStrike atm p.forward yf, atm) :: calls = sv at hl
    rw [List.getElem?_eq_getElem (show 0 < sv.length by omega),
      List.getElem?_eq_getElem (show (sortPairs pairs).length < sv.length by omega),
      List.getElem?_eq_getElem (show sv.length - 1 < sv.length by omega)]
    exact fun e => nomatch e

/-- Building an FX volatility surface from any quotes, and reading any point of it, gives a value or
an error but never aborts. -/
theorem C87_fx_surface (val : Int) (ps : List VolPillar) :
    FxVolSurface.new val ps ≠ .panic
    ∧ ∀ s, FxVolSurface.new val ps = .ok s → ∀ (ks : KeySearch) (e : Int) (K : ℝ),
        s.volatility ks e K ≠ .panic := by
  constructor
  · have key : ∀ ps : List VolPillar, buildSmiles val ps ≠ .panic := by
      intro ps
      induction ps with
      | nil => exact fun e => nomatch e
      | cons p ps ih =>
        rw [buildSmiles]
        cases hp : Smile.fromPillar p (yf365 val p.expiry) with
        | panic => exact absurd hp (fromPillar_total _ _)
        | fail e => rw [fail_bind]; exact fun e => nomatch e
        | ok s =>
          rw [ok_bind]
          cases hb : buildSmiles val ps with
          | panic => exact absurd hb ih
          | fail e => rw [fail_bind]; exact fun e => nomatch e
          | ok l => rw [ok_bind]; exact fun e => nomatch e
    cases ps with
    | nil => exact fun e => nomatch e
    | cons p ps =>
      rw [FxVolSurface.new]
      cases hb : buildSmiles val (p :: ps) with
      | panic => exact absurd hb (key _)
      | fail e => rw [fail_bind]; exact fun e => nomatch e
      | ok l => rw [ok_bind]; exact fun e => nomatch e
  · intro s hs ks e K
    by_cases hK : K ≤ 0
    · rw [C35_strike_error ks s e hK]; exact fun e => nomatch e
    by_cases he : val < e
    · obtain ⟨v, hv⟩ := C35_answered ks hs (not_le.1 hK) he
      rw [hv]; exact fun e => nomatch e
    · have hy : yf365 s.valuation e ≤ 0 := by
        rw [(surface_new hs).1]
        unfold yf365
        have : ((e - val : Int) : ℝ) ≤ 0 := by exact_mod_cast (show e - val ≤ 0 by omega)
        exact div_nonpos_of_nonpos_of_nonneg this (by norm_num)
      rw [FxVolSurface.volatility, if_neg hK, if_pos hy]
      exact fun e => nomatch e

/-- A surface with two pillars is built; with none it is an error. -/
example : (∃ s, FxVolSurface.new 0 [samplePillar 365, samplePillar 100] = .ok s)
    ∧ FxVolSurface.new 0 [] = .fail .invalidData := by
  obtain ⟨s, lo, hi, h, -⟩ := sampleSurface
  exact ⟨⟨s, h⟩, rfl⟩

/-! ## Schedules read together, and simulations -/

theorem takeWhile_ne {p : ℝ → Bool} {l : List ℝ} {x : ℝ} (h : l.head? = some x) (hp : p x = true) :
    1 ≤ (l.takeWhile p).length := by
  cases l with
  | nil => simp at h
  | cons a l =>
    rw [List.head?_cons, Option.some.injEq] at h
    subst h
    rw [List.takeWhile_cons, if_pos hp]
    simp

/-- Two accepted schedules can be read together up to an expiry exactly when they have the same
knots and the expiry is one of them. -/
theorem C87_aligned {ks ks' gs os : List ℝ} {γ ω : PieceConst} (hg : PieceConst.new ks gs = .ok γ)
    (ho : PieceConst.new ks' os = .ok ω) (T : ℝ) :
    StopsExactlyUnless (alignedSegments γ ω T) (ks = ks' ∧ ∃ t ∈ ks, |t - T| < 1 / 10 ^ 12) := by
  have made : ∀ {ks vs : List ℝ} {p : PieceConst}, PieceConst.new ks vs = .ok p →
      ScheduleShape ks vs ∧ p = ⟨ks, vs⟩ := by
    intro ks vs p h
    by_cases hs : ScheduleShape ks vs
    · rw [(C87_schedule ks vs).1 hs] at h
      injection h with h
      exact ⟨hs, h.symm⟩
    · rw [(C87_schedule ks vs).2 hs] at h
      cases h
  obtain ⟨⟨a1, a2, a3, a4⟩, rfl⟩ := made hg
  obtain ⟨⟨b1, b2, b3, b4⟩, rfl⟩ := made ho
  unfold alignedSegments
  constructor
  · rintro ⟨rfl, t, ht, hd⟩
    obtain ⟨x, hx⟩ : ∃ x, ks.head? = some x := by
      cases ks with
      | nil => simp at ht
      | cons a l => exact ⟨a, rfl⟩
    have hxt : x ≤ t := by
      cases ks with
      | nil => simp at ht
      | cons a l =>
        rw [List.head?_cons, Option.some.injEq] at hx
        subst hx
        rcases List.mem_cons.1 ht with rfl | h
        · exact le_rfl
        · exact ((List.pairwise_cons.1 a4).1 t h).le
    have h1 := takeWhile_ne (p := fun t => decide (t ≤ T + 1 / 10 ^ 12)) hx
      (decide_eq_true (by rw [abs_lt] at hd; linarith [hd.2]))
    have h2 := (List.takeWhile_prefix (l := ks) fun t => decide (t ≤ T + 1 / 10 ^ 12)).length_le
    dsimp only
    rw [if_pos rfl, if_pos ⟨t, ht, hd⟩, if_pos ⟨h1, by omega, by omega⟩]
    exact ⟨_, rfl⟩
  · intro h
    by_cases hk : ks = ks'
    · rw [if_pos hk, if_neg fun h' => h ⟨hk, h'⟩]
    · rw [if_neg hk]

/-- The effective parameters of a schedule are a value or an abort, never an `Err`. -/
theorem C87_effective (γ ω ρ : PieceConst) (T : ℝ) (e : Err) :
    effectiveVolVol γ ω T ≠ .fail e ∧ effectiveTermStructure γ ω T ≠ .fail e
      ∧ effectiveCorrelation γ ω ρ T ≠ .fail e := by
  have hbind : ∀ {α β : Type} {o : Outcome α} {f : α → Outcome β}, (∀ e, o ≠ .fail e) →
      (∀ v e, f v ≠ .fail e) → ∀ e, (o >>= f) ≠ .fail e := by
    intro α β o f ho hf e
    cases o with
    | ok v => rw [ok_bind]; exact hf v e
    | fail e' => exact absurd rfl (ho e')
    | panic => rw [panic_bind]; exact fun h => nomatch h
  have hite : ∀ {α : Type} {c : Prop} [Decidable c] {x y : Outcome α}, (∀ e, x ≠ .fail e) →
      (∀ e, y ≠ .fail e) → ∀ e, (if c then x else y) ≠ .fail e := by
    intro α c _ x y hx hy e
    by_cases h : c
    · rw [if_pos h]; exact hx e
    · rw [if_neg h]; exact hy e
  have hok : ∀ {α : Type} (v : α) (e : Err), (Outcome.ok v) ≠ .fail e := fun _ _ h => nomatch h
  have hpa : ∀ {α : Type} (e : Err), (Outcome.panic : Outcome α) ≠ .fail e := fun _ h => nomatch h
  have hal : ∀ e, alignedSegments γ ω T ≠ .fail e := by
    unfold alignedSegments
    exact hite (hite (hite (hok _) hpa) hpa) hpa
  have hvv : ∀ e, effectiveVolVol γ ω T ≠ .fail e := by
    unfold effectiveVolVol
    refine hbind hal fun v => ?_
    unfold volVolOf
    exact hite (hok _) (hite (hok _) hpa)
  have hts : ∀ e, effectiveTermStructure γ ω T ≠ .fail e := by
    unfold effectiveTermStructure
    exact hbind hal fun v => hbind hvv fun w => hite (hok _) hpa
  have hci : ∀ (segs : List Seg) (rs : List ℝ) (e : Err), corrIntegral segs rs ≠ .fail e := by
    intro segs
    induction segs with
    | nil => intro rs; rw [corrIntegral]; exacts [hok _, by simp]
    | cons s segs ih =>
      intro rs
      cases rs with
      | nil => rw [corrIntegral]; exacts [hok _, by simp]
      | cons r rs =>
        rw [corrIntegral]
        exact hite (hbind (ih rs) fun _ => hok _) hpa
  refine ⟨hvv e, hts e, ?_⟩
  unfold effectiveCorrelation
  exact hite (hbind hal fun v => hite (hbind (hci _ _) fun _ => hbind hvv fun _ => hbind hts fun _ =>
    hite (hok _) (hok _)) hpa) hpa e

/-- A constant-parameter SABR simulation runs exactly with at least one step, at least one path and
a positive horizon. -/
theorem C87_simulate (p : Sabr) (f₀ : ℝ) (draws : ℕ → Fin 2 → ℝ) (T : ℝ) (nSteps nPaths : ℕ) :
    StopsExactlyUnless (p.simulate f₀ draws T nSteps nPaths) (0 < nSteps ∧ 0 < nPaths ∧ 0 < T) := by
  refine ⟨fun h => ?_, fun h => if_neg h⟩
  unfold Sabr.simulate
  rw [if_pos h]
  have hdt : 0 < T / nSteps := div_pos h.2.2 (by exact_mod_cast h.1)
  generalize T / nSteps = dt at hdt
  have path : ∀ n k s, ∃ r, p.pathLoop dt draws n k s = .ok r := by
    intro n
    induction n with
    | zero => exact fun k s => ⟨s, rfl⟩
    | succ n ih =>
      intro k s
      rw [Sabr.pathLoop, Sabr.step, if_pos hdt]
      exact ih _ _
  have paths : ∀ n k, ∃ r, p.pathsLoop f₀ dt nSteps draws n k = .ok r := by
    intro n
    induction n with
    | zero => exact fun k => ⟨[], rfl⟩
    | succ n ih =>
      intro k
      obtain ⟨a, ha⟩ := path nSteps k (p.initial f₀)
      obtain ⟨b, hb⟩ := ih (k + nSteps)
      exact ⟨_, by rw [Sabr.pathsLoop, ha, ok_bind, hb, ok_bind]⟩
  exact paths nPaths 0

/-- Two schedules on the same knots, read up to the second knot and between two knots. -/
example : (∃ s, alignedSegments ⟨[0, 1, 2], [0.4, 0.3]⟩ ⟨[0, 1, 2], [1, 0.9]⟩ 1 = .ok s)
    ∧ alignedSegments ⟨[0, 1, 2], [0.4, 0.3]⟩ ⟨[0, 1, 2], [1, 0.9]⟩ 1.5 = .panic := by
  have hn : ∀ v w : ℝ, PieceConst.new [0, 1, 2] [v, w] = .ok ⟨[0, 1, 2], [v, w]⟩ := fun v w =>
    (C87_schedule _ _).1 ⟨by simp, by simp, by simp, by norm_num⟩
  refine ⟨(C87_aligned (hn _ _) (hn _ _) 1).1 ⟨rfl, 1, by simp, by norm_num⟩,
    (C87_aligned (hn _ _) (hn _ _) 1.5).2 ?_⟩
  rintro ⟨-, t, ht, hd⟩
  simp only [List.mem_cons, List.not_mem_nil, or_false] at ht
  rcases ht with rfl | rfl | rfl <;> norm_num [abs_lt] at hd

/-! ## Parameters of the multi-curve models -/

theorem correlates_iff (x : ℝ) : Correlates x ↔ |x| ≤ 1 + 1 / 10 ^ 12 := by
  unfold Correlates
  rw [abs_le]
  norm_num

theorem correlationMatrix_iff (m : ℕ) (c : List (List ℝ)) (hc : c.length = m)
    (hr : ∀ row ∈ c, row.length = m) : CorrelationMatrix m c ↔
    ∀ (i : ℕ) (r : List ℝ), c[i]? = some r → (∀ x, r[i]? = some x → |x - 1| ≤ 1 / 10 ^ 12)
      ∧ ∀ (j : ℕ) (r' : List ℝ), c[j]? = some r' → ∀ x y, r[j]? = some x → r'[i]? = some y →
        |x - y| ≤ 1 / 10 ^ 12 ∧ |x| ≤ 1 + 1 / 10 ^ 12 := by
  have read : ∀ (i j : ℕ) (r : List ℝ) (x : ℝ), c[i]? = some r → r[j]? = some x →
      matAt c (i + 1) (j + 1) = x ∧ i < m ∧ j < m := by
    intro i j r x h1 h2
    obtain ⟨hi, e1⟩ := List.getElem?_eq_some_iff.1 h1
    obtain ⟨hj, e2⟩ := List.getElem?_eq_some_iff.1 h2
    have hm : r ∈ c := e1 ▸ List.getElem_mem hi
    refine ⟨?_, by omega, by rw [← hr r hm]; exact hj⟩
    rw [matAt, Nat.add_sub_cancel, Nat.add_sub_cancel, List.getD_eq_getElem _ _ hi, e1,
      List.getD_eq_getElem _ _ hj, e2]
  have there : ∀ i j : ℕ, i < m → j < m → ∃ r x, c[i]? = some r ∧ r[j]? = some x := by
    intro i j hi hj
    have hi' : i < c.length := by omega
    have hj' : j < c[i].length := by rw [hr _ (List.getElem_mem hi')]; exact hj
    exact ⟨c[i], c[i][j], List.getElem?_eq_getElem hi', List.getElem?_eq_getElem hj'⟩
  constructor
  · rintro ⟨-, -, h⟩ i r h1
    constructor
    · intro x h2
      obtain ⟨e, hi, -⟩ := read i i r x h1 h2
      have := (h (i + 1) (i + 1) (by omega) (by omega) (by omega) (by omega)).1
      rwa [e] at this
    · intro j r' h1' x y h2 h2'
      obtain ⟨e, hi, hj⟩ := read i j r x h1 h2
      obtain ⟨e', -, -⟩ := read j i r' y h1' h2'
      have := (h (i + 1) (j + 1) (by omega) (by omega) (by omega) (by omega)).2
      rwa [e, e', correlates_iff] at this
  · intro h
    refine ⟨hc, hr, fun i j hi1 hi2 hj1 hj2 => ?_⟩
    obtain ⟨i, rfl⟩ : ∃ k, i = k + 1 := ⟨i - 1, by omega⟩
    obtain ⟨j, rfl⟩ : ∃ k, j = k + 1 := ⟨j - 1, by omega⟩
    obtain ⟨r, x, h1, h2⟩ := there i j (by omega) (by omega)
    obtain ⟨r', y, h1', h2'⟩ := there j i (by omega) (by omega)
    obtain ⟨r₁, d, h3, h3'⟩ := there i i (by omega) (by omega)
    have e := (read i j r x h1 h2).1
    have e' := (read j i r' y h1' h2').1
    have e'' := (read i i r₁ d h3 h3').1
    rw [e, e', e'', correlates_iff]
    rw [h1, Option.some.injEq] at h3
    subst h3
    exact ⟨(h i r h1).1 d h3', (h i r h1).2 j r' h1' x y h2 h2'⟩

/-- The parameters of the FX Heston-Libor model are accepted exactly with one volatility and one
displacement per rate of each currency, correlation matrices of that size, positive variance
parameters, and lists and a table of correlations of that size. -/
theorem C87_hlmm_parameters (p : HlmmParams) : p.Valid ↔
    (∀ l ∈ [p.domestic, p.foreign], l.sigmas.length = p.tenor.n ∧ l.betas.length = p.tenor.n
      ∧ CorrelationMatrix p.tenor.n l.liborCorr ∧ 0 < l.lambda ∧ 0 < l.eta ∧ 0 < l.v0)
    ∧ Correlates p.correlations.xiSigma ∧ CorrelationList p.tenor.n p.correlations.xiD
    ∧ CorrelationList p.tenor.n p.correlations.xiF
    ∧ CorrelationTable p.tenor.n p.correlations.cross := by
  have side : ∀ l : DdSvLmm, l.Valid p.tenor ↔ l.sigmas.length = p.tenor.n
      ∧ l.betas.length = p.tenor.n ∧ CorrelationMatrix p.tenor.n l.liborCorr
      ∧ 0 < l.lambda ∧ 0 < l.eta ∧ 0 < l.v0 := by
    intro l
    unfold DdSvLmm.Valid
    constructor
    · rintro ⟨h1, h2, h3, h4, h5, h6⟩
      exact ⟨h1, h2, (correlationMatrix_iff _ _ h3 h4).2 h5, h6⟩
    · rintro ⟨h1, h2, h3, h4⟩
      exact ⟨h1, h2, h3.1, h3.2.1, (correlationMatrix_iff _ _ h3.1 h3.2.1).1 h3, h4⟩
  have corr : p.correlations.Valid p.tenor ↔ Correlates p.correlations.xiSigma
      ∧ CorrelationList p.tenor.n p.correlations.xiD ∧ CorrelationList p.tenor.n p.correlations.xiF
      ∧ CorrelationTable p.tenor.n p.correlations.cross := by
    unfold HlmmCorr.Valid CorrelationList CorrelationTable
    simp only [correlates_iff]
    constructor
    · rintro ⟨h1, h2, h3, h4, h5, h6, h7⟩
      exact ⟨h1, ⟨h2, h6⟩, ⟨h3, h7⟩, h4, fun r hr => (h5 r hr).1, fun r hr => (h5 r hr).2⟩
    · rintro ⟨h1, ⟨h2, h6⟩, ⟨h3, h7⟩, h4, h5, h8⟩
      exact ⟨h1, h2, h3, h4, fun r hr => ⟨h5 r hr, h8 r hr⟩, h6, h7⟩
  unfold HlmmParams.Valid
  simp only [List.mem_cons, List.not_mem_nil, or_false, forall_eq_or_imp, forall_eq]
  rw [side, side, corr]
  exact ⟨fun h => ⟨⟨h.1, h.2.1⟩, h.2.2⟩, fun h => ⟨h.1.1, h.1.2, h.2⟩⟩

/-- The parameters of the FX forward market model are accepted exactly with one non-negative
volatility per rate of each currency, correlation matrices of that size, positive variance
parameters, and lists and a table of correlations of that size. -/
theorem C87_fx_fmm_parameters (p : FmmParams) : p.Valid ↔
    (∀ l ∈ [p.domestic, p.foreign], (l.sigmas.length = p.tenor.m ∧ ∀ s ∈ l.sigmas, 0 ≤ s)
      ∧ CorrelationMatrix p.tenor.m l.rateCorr ∧ 0 < l.lambda ∧ 0 < l.eta ∧ 0 < l.v0)
    ∧ Correlates p.correlations.xiSigma
    ∧ (∀ l ∈ [p.correlations.xiD, p.correlations.xiF, p.correlations.sigmaD,
        p.correlations.sigmaF], CorrelationList p.tenor.m l)
    ∧ CorrelationTable p.tenor.m p.correlations.cross := by
  have side : ∀ l : FmmSide, l.Valid p.tenor ↔ (l.sigmas.length = p.tenor.m ∧ ∀ s ∈ l.sigmas, 0 ≤ s)
      ∧ CorrelationMatrix p.tenor.m l.rateCorr ∧ 0 < l.lambda ∧ 0 < l.eta ∧ 0 < l.v0 := by
    intro l
    unfold FmmSide.Valid
    constructor
    · rintro ⟨h1, h3, h4, h5, h6, h7⟩
      exact ⟨⟨h1, h7⟩, (correlationMatrix_iff _ _ h3 h4).2 h5, h6⟩
    · rintro ⟨⟨h1, h7⟩, h3, h4⟩
      exact ⟨h1, h3.1, h3.2.1, (correlationMatrix_iff _ _ h3.1 h3.2.1).1 h3, h4, h7⟩
  have corr : p.correlations.Valid p.tenor ↔ Correlates p.correlations.xiSigma
      ∧ (∀ l ∈ [p.correlations.xiD, p.correlations.xiF, p.correlations.sigmaD,
        p.correlations.sigmaF], CorrelationList p.tenor.m l)
      ∧ CorrelationTable p.tenor.m p.correlations.cross := by
    unfold FmmCorr.Valid CorrelationList CorrelationTable
    simp only [correlates_iff, List.mem_cons, List.not_mem_nil, or_false, forall_eq_or_imp,
      forall_eq, List.mem_append]
    constructor
    · rintro ⟨h1, h2, h3, h4, h5, h6, h7, h8⟩
      exact ⟨h1, ⟨⟨h2, fun x hx => h8 x (by tauto)⟩, ⟨h3, fun x hx => h8 x (by tauto)⟩,
        ⟨h4, fun x hx => h8 x (by tauto)⟩, h5, fun x hx => h8 x (by tauto)⟩, h6,
        fun r hr => (h7 r hr).1, fun r hr => (h7 r hr).2⟩
    · rintro ⟨h1, ⟨⟨h2, a⟩, ⟨h3, b⟩, ⟨h4, c⟩, h5, d⟩, h6, h7, h8⟩
      refine ⟨h1, h2, h3, h4, h5, h6, fun r hr => ⟨h7 r hr, h8 r hr⟩, fun x hx => ?_⟩
      rcases hx with ((hx | hx) | hx) | hx
      exacts [a x hx, b x hx, c x hx, d x hx]
  unfold FmmParams.Valid
  simp only [List.mem_cons, List.not_mem_nil, or_false, forall_eq_or_imp, forall_eq] at corr ⊢
  rw [side, side, corr]
  exact ⟨fun h => ⟨⟨h.1, h.2.1⟩, h.2.2⟩, fun h => ⟨h.1.1, h.1.2, h.2⟩⟩

/-- One rate in each currency; a correlation of two is refused. -/
example : (⟨1.2, ⟨1, 0.04, 0.3, 0.04⟩, ⟨[0, 1], [0.03]⟩, ⟨[0.2], [0.5], 1, 0.1, 1, [[1]]⟩,
      ⟨[0.2], [0.5], 1, 0.1, 1, [[1]]⟩, ⟨-0.3, [0.1], [-0.1], [[0.4]]⟩⟩ : HlmmParams).Valid
    ∧ ¬ (⟨1.2, ⟨1, 0.04, 0.3, 0.04⟩, ⟨[0, 1], [0.03]⟩, ⟨[0.2], [0.5], 1, 0.1, 1, [[1]]⟩,
      ⟨[0.2], [0.5], 1, 0.1, 1, [[1]]⟩, ⟨-0.3, [2], [-0.1], [[0.4]]⟩⟩ : HlmmParams).Valid := by
  constructor
  · rw [C87_hlmm_parameters]
    have hm : CorrelationMatrix 1 [[1]] := by
      refine ⟨rfl, by simp, fun i j h1 h2 h3 h4 => ?_⟩
      obtain rfl : i = 1 := by omega
      obtain rfl : j = 1 := by omega
      norm_num [matAt, Correlates]
    refine ⟨?_, by norm_num [Correlates], ⟨rfl, by norm_num [Correlates]⟩,
      ⟨rfl, by norm_num [Correlates]⟩, rfl, by simp [LiborTenor.n], by norm_num [Correlates]⟩
    intro l hl
    simp only [List.mem_cons, List.not_mem_nil, or_false, or_self] at hl
    subst hl
    exact ⟨rfl, rfl, hm, by norm_num, by norm_num, by norm_num⟩
  · rw [C87_hlmm_parameters]
    rintro ⟨-, -, ⟨-, h⟩, -⟩
    have := h 2 (by simp)
    norm_num [Correlates] at this

end Verif
