import Verif.Lemmas.InputOrder
import Verif.Props.CapletSurface
import Verif.Props.FxVol
import Verif.Props.MarketContext
import Verif.Props.SwapValue

/-!
# C104: the order in which inputs are listed does not matter
-/

namespace Verif

open Classical Outcome

/-- **C104.** The legs of a swap may be listed in any order: the value, plain and under any shift of the
curve, is the same. -/
theorem C104_swap {ls ls' : List SwapLeg} (hp : ls.Perm ls') {val : Int} {cv : Curve} (bp : ℝ) {v : ℝ} :
    ((Swap.mk ls).npv val cv = .ok v ↔ (Swap.mk ls').npv val cv = .ok v) ∧
      ((Swap.mk ls).pvUnderShift val cv bp = .ok v ↔ (Swap.mk ls').pvUnderShift val cv bp = .ok v) :=
  ⟨⟨npvLegs_perm hp, npvLegs_perm hp.symm⟩, ⟨shiftedLegs_perm hp, shiftedLegs_perm hp.symm⟩⟩

/-- **C104.** So are the risk figures of the swap. -/
theorem C104_swap_risk {ls ls' : List SwapLeg} (hp : ls.Perm ls') {val : Int} {cv : Curve} (bp : ℝ)
    (mode : RateShiftMode) {v : ℝ} :
    ((Swap.mk ls).dv01 val cv = .ok v → (Swap.mk ls').dv01 val cv = .ok v) ∧
      ((Swap.mk ls).gamma val cv bp mode = .ok v → (Swap.mk ls').gamma val cv bp mode = .ok v) := by
  have key : ∀ {b w : ℝ}, (Swap.mk ls).pvUnderShift val cv b = .ok w →
      (Swap.mk ls').pvUnderShift val cv b = .ok w := fun h => shiftedLegs_perm hp h
  constructor
  · intro h
    unfold Swap.dv01 at h ⊢
    simp only [bind_eq_ok, ok.injEq] at h
    obtain ⟨a, ha, b, hb, rfl⟩ := h
    rw [key ha, ok_bind, key hb, ok_bind]
  · intro h
    cases mode with
    | zeros =>
      unfold Swap.gamma at h ⊢
      simp only [bind_eq_ok, ok.injEq] at h
      obtain ⟨a, ha, b, hb, c, hc, rfl⟩ := h
      simp only [key ha, key hb, key hc, ok_bind]
    | _ => cases h

/-- **C104.** The marked value is the same when all legs are in one currency. -/
theorem C104_mtm {ls ls' : List SwapLeg} (hp : ls.Perm ls') {ccy : Ccy} (hc : ∀ l ∈ ls, l.currency = ccy)
    {val : Int} {cv : Curve} {v : CurrencyValue} (h : (Swap.mk ls).mtm val cv = .ok v) :
    (Swap.mk ls').mtm val cv = .ok v ∧ v.currency = ccy := by
  unfold Swap.mtm at h ⊢
  simp only [bind_eq_ok, ok.injEq] at h
  obtain ⟨a, ha, c, hcur, rfl⟩ := h
  have hl : c = ccy := by
    cases ls with
    | nil => cases hcur
    | cons l ls =>
      rw [← hc l (by simp)]
      exact (ok.inj hcur).symm
  have hl' : (Swap.mk ls').currency = .ok ccy := by
    cases ls' with
    | nil => rw [hp.eq_nil] at hcur; cases hcur
    | cons l ls' =>
      rw [← hc l (hp.mem_iff.2 (by simp))]
      rfl
  rw [(C104_swap hp 0).2.1 ha, ok_bind, hl', ok_bind, hl]
  exact ⟨rfl, rfl⟩

/-- The legs of a swap paying in two currencies. -/
theorem twoCurrencies_npv : ∃ x, (Swap.mk [givenLeg (.float 0) .buy,
    { givenLeg (.fixed (3 / 100)) .sell with currency := .jpy }]).npv 0 sampleCurve = .ok x := by
  obtain ⟨D, hD⟩ := sampleCurve_discounts
  have h0 := (hD 0 (by decide)).1
  have h1 := (hD 20 (by decide)).1
  have h2 := (hD 40 (by decide)).1
  have hs : ({ givenLeg (.fixed (3 / 100)) .sell with currency := .jpy } : SwapLeg).generateSchedule 0 =
      .ok twoPeriods := rfl
  unfold Swap.npv
  simp only [npvLegs, givenLeg_sched, hs, ok_bind]
  simp only [ok_bind, twoPeriods, SwapLeg.addCashflows, SwapLeg.cashflow, givenLeg,
    sampleLeg, h0, h1, h2, List.getLast?_cons_cons, List.getLast?_singleton]
  exact ⟨_, rfl⟩

/-- **C104** (refuted for legs in two currencies): the amounts are added without conversion and the sum is
reported in the currency of the leg listed first. -/
theorem C104_mtm_false : ∃ (a b : SwapLeg) (x : ℝ), a.currency ≠ b.currency ∧
    (Swap.mk [a, b]).mtm 0 sampleCurve = .ok ⟨a.currency, x⟩ ∧
    (Swap.mk [b, a]).mtm 0 sampleCurve = .ok ⟨b.currency, x⟩ := by
  obtain ⟨x, hx⟩ := twoCurrencies_npv
  refine ⟨_, _, x, ?_, C41_npv _ hx, C41_npv _ ((C104_swap (.swap _ _ _) 0).1.1 hx)⟩
  simp [givenLeg, sampleLeg]

/-- Non-vacuity of `C104_swap` and `C104_mtm`: the two-period swap of C42 with its legs exchanged. -/
example : ∃ x, (Swap.mk [givenLeg (.float 0) .buy, givenLeg (.fixed (3 / 100)) .sell]).mtm 0 sampleCurve =
      .ok ⟨(givenLeg (.float 0) .buy).currency, x⟩ ∧
    (Swap.mk [givenLeg (.fixed (3 / 100)) .sell, givenLeg (.float 0) .buy]).mtm 0 sampleCurve =
      .ok ⟨(givenLeg (.float 0) .buy).currency, x⟩ := by
  obtain ⟨D, hD⟩ := sampleCurve_discounts
  have h0 := (hD 0 (by decide)).1
  have h1 := (hD 20 (by decide)).1
  have h2 := (hD 40 (by decide)).1
  have hx : ∃ x, (Swap.mk [givenLeg (.float 0) .buy, givenLeg (.fixed (3 / 100)) .sell]).npv 0 sampleCurve = .ok x := by
    unfold Swap.npv
    simp only [npvLegs, givenLeg_sched, ok_bind]
    simp only [ok_bind, twoPeriods, SwapLeg.addCashflows, SwapLeg.cashflow, givenLeg,
      sampleLeg, h0, h1, h2, List.getLast?_cons_cons, List.getLast?_singleton]
    exact ⟨_, rfl⟩
  obtain ⟨x, hx⟩ := hx
  have hm := C41_npv _ hx
  refine ⟨x, hm, (C104_mtm (.swap _ _ _) (ccy := (givenLeg (.float 0) .buy).currency) (fun l hl => ?_) hm).1⟩
  simp only [List.mem_cons, List.not_mem_nil, or_false] at hl
  rcases hl with rfl | rfl <;> rfl

/-- **C104.** The pillars of an FX volatility surface may be given in any order when no two have the same
expiry: the surface built is the same. -/
theorem C104_surface {val : Int} {ps ps' : List VolPillar} (hp : ps.Perm ps')
    (hd : (ps.map VolPillar.expiry).Nodup) {s : FxVolSurface} :
    FxVolSurface.new val ps = .ok s ↔ FxVolSurface.new val ps' = .ok s := by
  have key : ∀ {ps ps' : List VolPillar}, ps.Perm ps' → (ps.map VolPillar.expiry).Nodup →
      FxVolSurface.new val ps = .ok s → FxVolSurface.new val ps' = .ok s := by
    intro ps ps' hp hd h
    cases ps with
    | nil => cases h
    | cons p ps =>
      rw [FxVolSurface.new] at h
      obtain ⟨l, hl, h⟩ := bind_eq_ok.1 h
      obtain ⟨l', hl', hpl⟩ := buildSmiles_perm hp hl
      cases ps' with
      | nil => exact absurd hp.symm.nil_eq (by simp)
      | cons q qs =>
        rw [FxVolSurface.new, hl', ok_bind, ← h]
        have := (buildSmiles_spec hl).1
        rw [mergeSort_key_perm Smile.expiry hpl (by rw [this]; exact hd)]
  exact ⟨key hp hd, key hp.symm ((hp.map _).nodup_iff.1 hd)⟩

/-- Non-vacuity of `C104_surface`: the two sample pillars, in either order. -/
example : ∃ s, FxVolSurface.new 0 [samplePillar 365, samplePillar 100] = .ok s ∧
    FxVolSurface.new 0 [samplePillar 100, samplePillar 365] = .ok s := by
  obtain ⟨s, lo, hi, h, -⟩ := sampleSurface
  exact ⟨s, h, (C104_surface (.swap _ _ _) (by simp [samplePillar])).1 h⟩

/-- **C104.** The cash quotes of a curve may be given in any order when no two mature on the same day: the
stripped pillars are the same, whatever futures and swaps follow. -/
theorem C104_cash {solve : RateSolver} {val : Int} {qs qs' : List OisRate} (hp : qs.Perm qs')
    (hd : qs.Pairwise (MaturitiesDiffer val)) {fs : List FuturesQuote} {ss : List Swap} {out : List Pillar} :
    strippedCurve solve val qs fs ss = .ok out ↔ strippedCurve solve val qs' fs ss = .ok out :=
  ⟨strippedCurve_perm hp hd,
    strippedCurve_perm hp.symm (hp.pairwise hd fun {_ _} => maturitiesDiffer_symm)⟩

/-- A deposit of `n` days at zero. -/
noncomputable def daysDeposit (n : Nat) : OisRate :=
  ⟨0, ⟨.days n, 0, fun _ => .ok true, .unadjusted, fun a b => .ok (((b - a : Int) : ℝ) / 360), false⟩⟩

/-- Non-vacuity of `C104_cash`: deposits of five hundred and a thousand days. -/
example : ∃ out, strippedCurve (fun _ => .panic) 0 [daysDeposit 1000, daysDeposit 500] [] [] = .ok out ∧
    strippedCurve (fun _ => .panic) 0 [daysDeposit 500, daysDeposit 1000] [] [] = .ok out := by
  have s1 : (daysDeposit 1000).settleDate 0 = .ok 0 := by unfold daysDeposit OisRate.settleDate; decide +kernel
  have s2 : (daysDeposit 500).settleDate 0 = .ok 0 := by unfold daysDeposit OisRate.settleDate; decide +kernel
  have m1 : (daysDeposit 1000).maturityDate 0 = .ok 1000 := by
    unfold OisRate.maturityDate
    rw [s1, ok_bind]
    unfold daysDeposit; decide +kernel
  have m2 : (daysDeposit 500).maturityDate 0 = .ok 500 := by
    unfold OisRate.maturityDate
    rw [s2, ok_bind]
    unfold daysDeposit; decide +kernel
  have p1 : ∃ p, (daysDeposit 1000).pillar 0 = .ok p := by
    have h3 : (daysDeposit 1000).index.yearFraction 0 1000 = .ok (((1000 - 0 : Int) : ℝ) / 360) := rfl
    unfold OisRate.pillar OisRate.discount
    simp only [s1, m1, ois_zeroRate s1 m1 h3, ok_bind]
    exact ⟨_, rfl⟩
  have p2 : ∃ p, (daysDeposit 500).pillar 0 = .ok p := by
    have h3 : (daysDeposit 500).index.yearFraction 0 500 = .ok (((500 - 0 : Int) : ℝ) / 360) := rfl
    unfold OisRate.pillar OisRate.discount
    simp only [s2, m2, ois_zeroRate s2 m2 h3, ok_bind]
    exact ⟨_, rfl⟩
  obtain ⟨p1, p1h⟩ := p1
  obtain ⟨p2, p2h⟩ := p2
  have hs : strippedCurve (fun _ => .panic) 0 [daysDeposit 500, daysDeposit 1000] [] [] = .ok [p2, p1] := by
    unfold strippedCurve
    simp only [cashMaturities, m1, m2, unwrapResult, ok_bind]
    rw [mergeSort_dates_eq [500, 1000] [500, 1000] (.refl _) (by decide)]
    simp [cashPillars, cashAt, m1, m2, p1h, p2h, unwrapResult, addFutures, addSwaps]
  refine ⟨[p2, p1], (C104_cash (.swap _ _ _) ?_).1 hs, hs⟩
  simp [MaturitiesDiffer, m1, m2]

/-- **C104.** The cap quotes may be given in any order: the stripped volatilities, or the failure, are the
same. -/
theorem C104_caps {solve : RootFinder} {cv : Curve} {val : Int} {qs qs' : List CapQuote} (hp : qs.Perm qs')
    (ha : StrikesApart qs) (hd : QuotesDiffer qs) :
    stripCapletVols solve cv val qs' = stripCapletVols solve cv val qs :=
  stripCapletVols_perm hp ha hd

/-- Non-vacuity of `C104_caps`: the four caps of C55, backwards. -/
example : ∃ vs, stripCapletVols tryTwo zeroCurve 0 gridQuotes.reverse = .ok vs ∧ vs.length = 2 := by
  obtain ⟨lastFixing, vs, -, -, hv, hl⟩ := gridQuotes_strips
  refine ⟨vs, ?_, hl⟩
  rw [← hv]
  refine C104_caps (List.reverse_perm _).symm ?_ ?_
  · intro q hq q' hq'
    have key : ∀ q ∈ gridQuotes, q.strike = 0 ∨ q.strike = 1 / 100 := by
      intro q hq
      simp only [gridQuotes, List.mem_cons, List.not_mem_nil, or_false] at hq
      rcases hq with rfl | rfl | rfl | rfl <;> simp [capQuote]
    rcases key q hq with e | e <;> rcases key q' hq' with e' | e' <;> rw [e, e'] <;> norm_num [abs_of_neg]
  · have l1 : ∀ k npv, (capQuote k [365] npv).lastStart = .ok 365 := fun k npv => rfl
    have l2 : ∀ k npv, (capQuote k [365, 730] npv).lastStart = .ok 730 := fun k npv => rfl
    have st : ∀ k starts npv, (capQuote k starts npv).strike = k := fun _ _ _ => rfl
    simp [QuotesDiffer, gridQuotes, LastStartsDiffer, l1, l2, st]

/-- **C104.** The observation dates of a simulation may be listed in any order. -/
theorem C104_observations {S M : Type} {ks : KeySearch} {sim : SimModel S M} {m : M} {val : Int}
    {ds ds' : List Int} (hp : ds.Perm ds') {nPaths maxStep : Nat} {dc : Int → Int → Outcome ℝ} :
    simulateAtDates ks sim m val ds' nPaths maxStep dc = simulateAtDates ks sim m val ds nPaths maxStep dc :=
  simulateAtDates_perm hp

/-- Non-vacuity of `C104_observations`: two dates, the later one first. -/
example (ks : KeySearch) (draws : ℕ → ℝ) : ∃ r,
    simulateAtDates ks (brownian 0 0 1 draws) 0 (ymd 2025 1 30) [ymd 2025 2 28, ymd 2025 1 31] 1 30 thirtyDc =
      .ok r ∧ r.obs = [ymd 2025 1 31, ymd 2025 2 28] := by
  obtain ⟨r, h, ho, -⟩ := C50_lost_observation_false ks draws
  exact ⟨r, by rw [← h]; exact C104_observations (.swap _ _ _), ho⟩

end Verif
