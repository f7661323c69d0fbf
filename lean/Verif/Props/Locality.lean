import Verif.Lemmas.Locality

/-!
# C97: a quote acts only on its own part of a curve or surface
-/

namespace Verif

open Outcome Classical

/-! ## Rate curves -/

/-- **C97.** Swaps added behind those already quoted leave the pillars of the curve alone and only append
one each; discount factors of dates before an earlier visible pillar stay what they were. -/
theorem C97_swaps {solve : RateSolver} {val : Int} {cash : List OisRate} {futures : List FuturesQuote}
    {ss ts : List Swap} {out' : List Pillar} (h : strippedCurve solve val cash futures (ss ++ ts) = .ok out') :
    ∃ out new, strippedCurve solve val cash futures ss = .ok out ∧ out' = out ++ new ∧ new.length = ts.length ∧
      ∀ d, (∃ p ∈ out, d + 1 ≤ p.date ∧ p.hidden = false) →
        (Curve.mk val out').discount d = (Curve.mk val out).discount d := by
  unfold strippedCurve at h ⊢
  obtain ⟨ms, h1, h⟩ := bind_eq_ok.1 h
  obtain ⟨a, h2, h⟩ := bind_eq_ok.1 h
  obtain ⟨b, h3, h⟩ := bind_eq_ok.1 h
  rw [addSwaps_append] at h
  obtain ⟨out, h4, h⟩ := bind_eq_ok.1 h
  obtain ⟨new, rfl, hl⟩ := addSwaps_prefix _ _ _ _ _ h
  refine ⟨out, new, ?_, rfl, hl, fun d hd => ?_⟩
  · rw [h1, ok_bind, h2, ok_bind, h3, ok_bind, h4]
  · unfold Curve.discount
    rw [zeroRate_append _ _ _ _ hd]

/-- Non-vacuity of `C97_swaps`: a two-year swap behind a one-year swap. -/
example : ∃ out', strippedCurve tryRates 0 [] [] ([oneSwap (Real.exp (1 / 20) - 1) 365] ++
    [oneSwap ((Real.exp (1 / 10) - 1) / 2) 730]) = .ok out' := by
  obtain ⟨st, st', h⟩ := twoSwaps_stripped
  exact ⟨_, h⟩

/-- C97 refuted for the last earlier pillar's own date: the lookup is made for the following day, so that
the two-year quote moves the discount factor at the maturity of the one-year swap. -/
theorem C97_own_date_false :
    ¬ ∀ (solve : RateSolver) (val : Int) (ss ts : List Swap) (out out' : List Pillar),
      strippedCurve solve val [] [] ss = .ok out → strippedCurve solve val [] [] (ss ++ ts) = .ok out' →
      ∀ p ∈ out, (Curve.mk val out').discount p.date = (Curve.mk val out).discount p.date := by
  intro h
  obtain ⟨st, st', hs⟩ := twoSwaps_stripped
  obtain ⟨out, new, h1, e, hl, -⟩ := C97_swaps (ss := [_]) (ts := [_]) hs
  have hlen : out.length = 1 := by
    have := congrArg List.length e
    simp [hl] at this
    omega
  obtain ⟨p, rfl⟩ := List.length_eq_one_iff.1 hlen
  simp only [List.singleton_append, List.cons.injEq] at e
  obtain ⟨rfl, -⟩ := e
  have k := h _ _ _ _ _ _ h1 hs _ (List.mem_singleton.2 rfl)
  have hz : ((Curve.mk 0 [⟨st, 365, Real.exp (1 / 20) - 1, 1 / 20, 0, .swap, false⟩,
        ⟨st', 730, (Real.exp (1 / 10) - 1) / 2, 1 / 10, 0, .swap, false⟩]).zeroRate 365) =
      .ok ((1 * (1 / 10) + 364 * (1 / 20)) / 365) := by
    rw [zeroRate_of_ne rfl (by decide) (scan_found
      (pre := [⟨st, 365, Real.exp (1 / 20) - 1, 1 / 20, 0, .swap, false⟩]) (by simp [Passes])
      (s := ⟨st', 730, (Real.exp (1 / 10) - 1) / 2, 1 / 10, 0, .swap, false⟩) (post := []) (by simp [Passes]))
      (by simp [trueFirst])]
    simp only [weighted, List.getLast?_singleton, Option.getD_some, ok.injEq]
    norm_num
  have hz' : ((Curve.mk 0 [⟨st, 365, Real.exp (1 / 20) - 1, 1 / 20, 0, .swap, false⟩]).zeroRate 365) =
      .ok (1 / 20) := by
    rw [zeroRate_of_eq (p0 := ⟨st, 365, Real.exp (1 / 20) - 1, 1 / 20, 0, .swap, false⟩) (rest := [])
        rfl (by decide) (scan_none (by simp [Passes])) (by simp [trueFirst])]
    simp [trueFirst]
  unfold Curve.discount at k
  dsimp only at k
  rw [hz, hz', ok_bind, ok_bind] at k
  have k := ok.inj k
  rw [Real.exp_eq_exp] at k
  norm_num [yf365] at k

/-- **C97.** The same for futures behind those already quoted. -/
theorem C97_futures {solve : RateSolver} {val : Int} {cash : List OisRate} {fs gs : List FuturesQuote}
    {out' : List Pillar} (h : strippedCurve solve val cash (fs ++ gs) [] = .ok out') :
    ∃ out new, strippedCurve solve val cash fs [] = .ok out ∧ out' = out ++ new ∧ new.length = gs.length ∧
      ∀ d, (∃ p ∈ out, d + 1 ≤ p.date ∧ p.hidden = false) →
        (Curve.mk val out').discount d = (Curve.mk val out).discount d := by
  unfold strippedCurve at h ⊢
  obtain ⟨ms, h1, h⟩ := bind_eq_ok.1 h
  obtain ⟨a, h2, h⟩ := bind_eq_ok.1 h
  obtain ⟨b, h3, h⟩ := bind_eq_ok.1 h
  rw [addFutures_append] at h3
  obtain ⟨out, h4, h3⟩ := bind_eq_ok.1 h3
  obtain ⟨new, rfl, hl⟩ := addFutures_prefix _ _ _ _ h3
  rw [addSwaps] at h
  obtain rfl := ok.inj h
  refine ⟨out, new, ?_, rfl, hl, fun d hd => ?_⟩
  · rw [h1, ok_bind, h2, ok_bind, h4, ok_bind, addSwaps]
  · unfold Curve.discount
    rw [zeroRate_append _ _ _ _ hd]

theorem relatedPillar_some {ps : List Pillar} (h : ps ≠ []) (t : Int) : ∃ p, relatedPillar ps t = .ok p := by
  cases ps with
  | nil => exact absurd rfl h
  | cons p ps =>
    unfold relatedPillar
    dsimp only
    split_ifs <;> exact ⟨_, rfl⟩

/-- The sample futures can be added to any curve that has begun. -/
theorem sampleFutures_added (v : ℝ) {ps : List Pillar} (h : ps ≠ []) :
    ∃ p, ∀ gs, addFutures (ymd 2023 10 27) (sampleFutures ['Z', '3'] v :: gs) ps =
      addFutures (ymd 2023 10 27) gs (ps ++ [p]) := by
  obtain ⟨r, hr⟩ := relatedPillar_some h (ymd 2023 12 20)
  have hd : ∃ d, (sampleFutures ['Z', '3'] v).discount (ymd 2023 10 27) ps = .ok d := by
    unfold FuturesQuote.discount
    rw [sampleFutures_settle, ok_bind, sampleFutures_maturity, ok_bind]
    show ∃ d, ((Outcome.ok _ : Outcome ℝ) >>= _) = .ok d
    rw [ok_bind, hr, ok_bind]
    exact ⟨_, rfl⟩
  obtain ⟨d, hd⟩ := hd
  have hz : ∃ z, (sampleFutures ['Z', '3'] v).zeroRate (ymd 2023 10 27) ps = .ok z := by
    unfold FuturesQuote.zeroRate
    rw [hd, ok_bind, sampleFutures_maturity, ok_bind]
    split_ifs
    · rw [List.getLast?_eq_some_getLast h]
      exact ⟨_, rfl⟩
    · exact ⟨_, rfl⟩
  obtain ⟨z, hz⟩ := hz
  refine ⟨⟨ymd 2023 12 20, ymd 2024 3 20, v, z, d, .futures, false⟩, fun gs => ?_⟩
  rw [addFutures, sampleFutures_settle, ok_bind, sampleFutures_maturity, ok_bind, hz, ok_bind, hd, ok_bind]
  rfl

theorem sampleDeposit_october : ∃ p, sampleDeposit.pillar (ymd 2023 10 27) = .ok p ∧
    sampleDeposit.maturityDate (ymd 2023 10 27) = .ok (ymd 2024 1 29) := by
  have h1 : sampleDeposit.settleDate (ymd 2023 10 27) = .ok (ymd 2023 10 27) := by
    unfold sampleDeposit OisRate.settleDate; decide +kernel
  have h2 : sampleDeposit.maturityDate (ymd 2023 10 27) = .ok (ymd 2024 1 29) := by
    unfold OisRate.maturityDate
    rw [h1, ok_bind]
    unfold sampleDeposit; decide +kernel
  have h3 : sampleDeposit.index.yearFraction (ymd 2023 10 27) (ymd 2024 1 29) =
      .ok (((ymd 2024 1 29 - ymd 2023 10 27 : Int) : ℝ) / 360) := rfl
  have h4 := ois_zeroRate h1 h2 h3
  unfold OisRate.pillar
  rw [h1, ok_bind, h2, ok_bind, h4, ok_bind]
  unfold OisRate.discount
  rw [h4, ok_bind, h2]
  exact ⟨_, rfl, rfl⟩

/-- Non-vacuity of `C97_futures`: a deposit, a futures and another behind it. -/
example : ∃ out', strippedCurve tryRates (ymd 2023 10 27) [sampleDeposit]
    ([sampleFutures ['Z', '3'] 96] ++ [sampleFutures ['Z', '3'] 95]) [] = .ok out' := by
  obtain ⟨p, hp, hm⟩ := sampleDeposit_october
  obtain ⟨a, ha⟩ := sampleFutures_added 96 (ps := [p]) (by simp)
  obtain ⟨b, hb⟩ := sampleFutures_added 95 (ps := [p] ++ [a]) (by simp)
  refine ⟨[p] ++ [a] ++ [b], ?_⟩
  unfold strippedCurve
  simp only [cashMaturities, hm, unwrapResult, ok_bind, List.mergeSort_singleton, cashPillars, cashAt,
    if_pos, hp, List.append_nil, List.singleton_append]
  rw [ha, hb]
  rfl

/-- **C97.** A cash quote acts on the pillars of its own maturity only: two lists of deposits that differ
in the values quoted for maturity `M` give curves with the same pillars on all other dates, and the same
discount factors before any visible pillar ahead of `M`. -/
theorem C97_cash {solve : RateSolver} {val M : Int} {qs qs' : List OisRate} {out out' : List Pillar}
    (hq : List.Forall₂ (fun q q' => q'.index = q.index ∧ (q.maturityDate val ≠ .ok M → q' = q)) qs qs')
    (h : strippedCurve solve val qs [] [] = .ok out) (h' : strippedCurve solve val qs' [] [] = .ok out') :
    (out'.filter fun p => decide (p.date ≠ M)) = (out.filter fun p => decide (p.date ≠ M)) ∧
    ∀ d, (∃ p ∈ out, d + 1 ≤ p.date ∧ p.date < M ∧ p.hidden = false) →
      (Curve.mk val out').discount d = (Curve.mk val out).discount d := by
  have hm : cashMaturities val qs' = cashMaturities val qs :=
    cashMaturities_congr (hq.imp fun _ _ h => h.1)
  unfold strippedCurve at h h'
  rw [hm] at h'
  obtain ⟨ms, h1, h⟩ := bind_eq_ok.1 h
  rw [h1, ok_bind] at h'
  obtain ⟨a, h2, h⟩ := bind_eq_ok.1 h
  obtain ⟨a', h2', h'⟩ := bind_eq_ok.1 h'
  simp only [addFutures, addSwaps, ok_bind] at h h'
  have e := ok.inj h
  have e' := ok.inj h'
  clear h h'
  subst e e'
  have hf := cashPillars_congr hq h2 h2'
  refine ⟨hf, fun d hd => ?_⟩
  have hs : (ms.mergeSort fun a b => decide (a ≤ b)).Pairwise (· ≤ ·) := by
    refine (List.pairwise_mergeSort (le := fun a b : Int => decide (a ≤ b)) ?_ ?_ ms).imp ?_
    · intro a b c; simp only [decide_eq_true_eq]; exact le_trans
    · intro a b; simp only [Bool.or_eq_true, decide_eq_true_eq]; exact le_total _ _
    · intro a b hab; simpa using hab
  have s1 := cashPillars_sorted hs h2
  have s2 := cashPillars_sorted hs h2'
  obtain ⟨r1, e1⟩ := pillars_split s1 M
  obtain ⟨r2, e2⟩ := pillars_split s2 M
  have ef : (a'.filter fun p => decide (p.date < M)) = a.filter fun p => decide (p.date < M) := by
    have key : ∀ l : List Pillar, (l.filter fun p => decide (p.date ≠ M)).filter (fun p => decide (p.date < M)) =
        l.filter fun p => decide (p.date < M) := by
      intro l
      rw [List.filter_filter]
      refine List.filter_congr fun p _ => ?_
      by_cases c : p.date < M
      · simp [c, c.ne]
      · simp [c]
    exact (key a').symm.trans ((congrArg (List.filter fun p => decide (p.date < M)) hf).trans (key a))
  obtain ⟨p, hp, hpd, hpM, hph⟩ := hd
  have hx : ∃ p ∈ a.filter (fun p => decide (p.date < M)), d + 1 ≤ p.date ∧ p.hidden = false :=
    ⟨p, List.mem_filter.2 ⟨hp, by simpa using hpM⟩, hpd, hph⟩
  unfold Curve.discount
  dsimp only
  rw [e1, e2, ef, zeroRate_append _ _ _ _ hx, zeroRate_append _ _ _ _ hx]

/-- Non-vacuity of `C97_cash`: one deposit, quoted at 4% and at 5%. -/
example : ∃ out out', strippedCurve tryRates (ymd 2023 10 27) [sampleDeposit] [] [] = .ok out ∧
    strippedCurve tryRates (ymd 2023 10 27) [{ sampleDeposit with value := 5 / 100 }] [] [] = .ok out' ∧
    List.Forall₂ (fun q q' : OisRate => q'.index = q.index ∧
      (q.maturityDate (ymd 2023 10 27) ≠ .ok (ymd 2024 1 29) → q' = q)) [sampleDeposit]
      [{ sampleDeposit with value := 5 / 100 }] := by
  obtain ⟨p, hp, hm⟩ := sampleDeposit_october
  have hm' : ({ sampleDeposit with value := 5 / 100 } : OisRate).maturityDate (ymd 2023 10 27) =
      .ok (ymd 2024 1 29) := (maturity_of_index rfl _).trans hm
  have hs' : ({ sampleDeposit with value := 5 / 100 } : OisRate).settleDate (ymd 2023 10 27) =
      .ok (ymd 2023 10 27) := by
    unfold sampleDeposit OisRate.settleDate; decide +kernel
  have hp' : ∃ p, ({ sampleDeposit with value := 5 / 100 } : OisRate).pillar (ymd 2023 10 27) = .ok p := by
    have h3 : ({ sampleDeposit with value := 5 / 100 } : OisRate).index.yearFraction (ymd 2023 10 27)
        (ymd 2024 1 29) = .ok (((ymd 2024 1 29 - ymd 2023 10 27 : Int) : ℝ) / 360) := rfl
    have h4 := ois_zeroRate hs' hm' h3
    unfold OisRate.pillar
    rw [hs', ok_bind, hm', ok_bind, h4, ok_bind]
    unfold OisRate.discount
    rw [h4, ok_bind, hm']
    exact ⟨_, rfl⟩
  obtain ⟨p', hp'⟩ := hp'
  refine ⟨[p], [p'], ?_, ?_, .cons ⟨rfl, fun h => absurd hm h⟩ .nil⟩
  · unfold strippedCurve
    simp [cashMaturities, hm, unwrapResult, cashPillars, cashAt, hp, addFutures, addSwaps]
  · unfold strippedCurve
    simp only [cashMaturities, hm', unwrapResult, ok_bind, List.mergeSort_singleton, cashPillars, cashAt,
      if_pos, hp', List.append_nil, addFutures, addSwaps]

/-! ## Volatility surfaces -/

/-- **C97.** Cap quotes with later last fixings than those already given, on strikes already quoted, leave
the stripped caplet volatilities up to the last earlier expiry alone. -/
theorem C97_caplets {solve : RootFinder} {cv : Curve} {val E : Int} {qs rs : List CapQuote}
    {vs' : List CapletPillar} (hs : (qs ++ rs).Pairwise fun a b => a.sortKey val ≤ b.sortKey val)
    (hq : ∀ q ∈ qs, ∀ d, q.lastStart = .ok d → d ≤ E) (hr : ∀ q ∈ rs, ∀ d, q.lastStart = .ok d → E < d)
    (hk : ∀ r ∈ rs, ∃ q ∈ qs, r.strike = q.strike) (h : stripCapletVols solve cv val (qs ++ rs) = .ok vs') :
    ∃ vs rest, stripCapletVols solve cv val qs = .ok vs ∧ vs' = vs ++ rest ∧ (∀ p ∈ vs, p.expiry ≤ E) ∧
      (∀ p ∈ rest, E < p.expiry) ∧
      ∀ d k, (∃ p ∈ vs, d ≤ p.expiry) → capletVolatility vs' d k = capletVolatility vs d k := by
  obtain ⟨vs, rest, h1, rfl, h3, h4⟩ := strip_extend hs hq hr hk h
  refine ⟨vs, rest, h1, rfl, h3, h4, fun d k hd => ?_⟩
  unfold capletVolatility
  rw [pickPillar_append hd]

/-- Non-vacuity of `C97_caplets`: a two-year cap behind a one-year cap at the same strike. -/
example : ∃ (q r : CapQuote) (vs' : List CapletPillar),
    ([q] ++ [r]).Pairwise (fun a b => a.sortKey 0 ≤ b.sortKey 0) ∧ q.lastStart = .ok 365 ∧
    r.lastStart = .ok 730 ∧ r.strike = q.strike ∧ stripCapletVols tryTwo zeroCurve 0 ([q] ++ [r]) = .ok vs' := by
  have k1 : ∀ k npv, (capQuote k [365] npv).sortKey 0 = 365 := fun k npv => capQuote_sortKey k npv [] 365 0
  have k2 : ∀ k npv, (capQuote k [365, 730] npv).sortKey 0 = 730 := fun k npv =>
    capQuote_sortKey k npv [365] 730 0
  have l1 : ∀ k npv, (capQuote k [365] npv).lastStart = .ok 365 := fun k npv => capQuote_lastStart k npv [] 365
  have l2 : ∀ k npv, (capQuote k [365, 730] npv).lastStart = .ok 730 := fun k npv =>
    capQuote_lastStart k npv [365] 730
  refine ⟨capQuote 0 [365] (capletPrice 0 (1 / 100) 365),
    capQuote 0 [365, 730] (capletPrice 0 (1 / 100) 365 + capletPrice 0 (2 / 100) 730),
    assemblePillars [(0, [⟨365, 1 / 100⟩, ⟨730, 2 / 100⟩])], by simp [k1, k2], l1 _ _, l2 _ _, rfl, ?_⟩
  have c1 := strip_two (solve := tryTwo) (cv := zeroCurve) (val := 0)
      (l1 0 (capletPrice 0 (1 / 100) 365))
      (l2 0 (capletPrice 0 (1 / 100) 365 + capletPrice 0 (2 / 100) 730)) (by norm_num)
      (sigma := 1 / 100) (sigma' := 2 / 100)
      (tryTwo_first (by
        rw [sampleQuote_residual _ _ _ _ _ (by simp)]; simp [sigmaForStart]))
      (tryTwo_second (by
          rw [sampleQuote_residual _ _ _ _ _ (by simp)]
          have := atm_ne (start := 730) (by norm_num)
          simp [sigmaForStart]
          simp at this
          intro h
          exact this (by linarith)) (by
        rw [sampleQuote_residual _ _ _ _ _ (by simp)]; simp [sigmaForStart]))
  unfold stripCapletVols
  have st : ∀ k starts npv, (capQuote k starts npv).strike = k := fun _ _ _ => rfl
  have hg : ([capQuote 0 [365] (capletPrice 0 (1 / 100) 365)] ++
      [capQuote 0 [365, 730] (capletPrice 0 (1 / 100) 365 + capletPrice 0 (2 / 100) 730)]).foldl
        (fun gs q => addToGroups q gs) [] = [(0, [capQuote 0 [365] (capletPrice 0 (1 / 100) 365),
          capQuote 0 [365, 730] (capletPrice 0 (1 / 100) 365 + capletPrice 0 (2 / 100) 730)])] := by
    rw [List.singleton_append, List.foldl_cons, List.foldl_cons, List.foldl_nil, addToGroups, addToGroups,
      if_pos (by rw [st, st, sub_self, abs_zero]; norm_num)]
    rfl
  rw [hg, List.mergeSort_singleton]
  simp only [stripColumns]
  rw [c1]
  rfl

/-- **C97.** The FX volatility at an expiry depends on the quotes of the neighbouring pillars only: two
surfaces with the same, distinct, expiry dates whose pillars next to `e` agree give the same volatility at
`e` for all strikes. -/
theorem C97_fx_vol (ks : KeySearch) {val : Int} {ps ps' : List VolPillar} {s s' : FxVolSurface} {e : Int}
    (hn : (ps.map VolPillar.expiry).Nodup)
    (hp : List.Forall₂ (fun p p' : VolPillar => p'.expiry = p.expiry ∧
      (Neighbour (ps.map VolPillar.expiry) p.expiry e → p' = p)) ps ps')
    (h : FxVolSurface.new val ps = .ok s) (h' : FxVolSurface.new val ps' = .ok s') (K : ℝ) :
    s'.volatility ks e K = s.volatility ks e K := by
  obtain ⟨v1, -, -, o1, -⟩ := surface_new h
  obtain ⟨v2, -, -, -, -⟩ := surface_new h'
  obtain ⟨he, hs⟩ := surface_neighbour hn hp h h'
  exact volatility_neighbour ks K (by rw [v1, v2]) o1 he hs

/-- Non-vacuity of `C97_fx_vol`: at thirty days only the first of two pillars matters. -/
example : ∃ (p' : VolPillar) (s s' : FxVolSurface), p' ≠ samplePillar 365 ∧
    FxVolSurface.new 0 [samplePillar 365, samplePillar 100] = .ok s ∧
    FxVolSurface.new 0 [p', samplePillar 100] = .ok s' ∧
    List.Forall₂ (fun p p' : VolPillar => p'.expiry = p.expiry ∧
      (Neighbour ([samplePillar 365, samplePillar 100].map VolPillar.expiry) p.expiry 30 → p' = p))
      [samplePillar 365, samplePillar 100] [p', samplePillar 100] := by
  obtain ⟨s, -, -, h, -⟩ := sampleSurface
  set p' : VolPillar := ⟨365, 6 / 5, (samplePillar 365).quotes⟩ with hp'
  have hn : normaliseQuotes p'.quotes = _ := samplePillar_normalised 365
  obtain ⟨a, ha⟩ := fromPillar_single (T := yf365 0 365) hn (yf365_after (by norm_num))
    (by norm_num) (by norm_num) (by norm_num) (by norm_num) (by norm_num) (by norm_num) (by norm_num)
  obtain ⟨b, hb⟩ := samplePillar_built 100 (T := yf365 0 100) (yf365_after (by norm_num))
  have h' : ∃ s', FxVolSurface.new 0 [p', samplePillar 100] = .ok s' := by
    unfold FxVolSurface.new
    dsimp only
    rw [buildSmiles, show p'.expiry = 365 from rfl, ha,
      ok_bind, buildSmiles, show (samplePillar 100).expiry = 100 from rfl, hb, ok_bind, buildSmiles]
    exact ⟨_, rfl⟩
  obtain ⟨s', h'⟩ := h'
  refine ⟨p', s, s', ?_, h, h', .cons ⟨rfl, fun hx => ?_⟩ (.cons ⟨rfl, fun _ => rfl⟩ .nil)⟩
  · intro he
    have := congrArg VolPillar.forward he
    norm_num [samplePillar, hp'] at this
  · have := hx 100 (by simp [samplePillar])
    simp [samplePillar] at this

/-- **C97.** The forward points at a date depend on the neighbouring quotes only. -/
theorem C97_forward_points {ops : SliceOps} {h h' : FwdHelper} {c : Cal} {t : Int}
    {l l' : List (Int × ℝ)} (hd : Dated h c l) (hd' : Dated h' c l') (hv : h'.valuation = h.valuation)
    (hn : (l.map Prod.fst).Nodup)
    (hl : List.Forall₂ (fun p p' : Int × ℝ => p'.1 = p.1 ∧
      (Neighbour (l.map Prod.fst) p.1 t → p' = p)) l l') :
    getForward ops h' t c = getForward ops h t c :=
  forward_neighbour hd hd' hv hn hl

/-- Non-vacuity of `C97_forward_points`: at the spot date the one-week quote does not matter. -/
example : getForward SliceOps.std (FwdHelper.new (ymd 2023 10 16) [⟨.weeks 1, 25⟩, ⟨.spot, 0⟩])
    (ymd 2023 10 18) weekendsOnly = getForward SliceOps.std sampleHelper (ymd 2023 10 18) weekendsOnly := by
  refine C97_forward_points (l' := [(ymd 2023 10 25, 25), (ymd 2023 10 18, 0)]) sampleHelper_dated ?_ rfl ?_ ?_
  · refine .cons ⟨?_, rfl⟩ (.cons ⟨?_, rfl⟩ .nil) <;> decide +kernel
  · simp [ymd, yearStart, monthStart, leap]
  · refine .cons ⟨rfl, fun hx => ?_⟩ (.cons ⟨rfl, fun _ => rfl⟩ .nil)
    have := hx (ymd 2023 10 18) (by simp)
    simp [ymd, yearStart, monthStart, leap] at this

/-- **C97.** The local variance at a node depends on the volatilities of the same strike at the expiries
next to it and of the same expiry at the strikes next to it (the three outermost ones at the edges). -/
theorem C97_local_vol {expiries strikes : List ℝ} {vols vols' : List (List ℝ)} {spot rd rf : ℝ}
    {v v' : LocalVol} {i j : ℕ} (h : LocalVol.build expiries strikes vols spot rd rf = .ok v)
    (h' : LocalVol.build expiries strikes vols' spot rd rf = .ok v')
    (hi : i < expiries.length) (hj : j < strikes.length)
    (h1 : ∀ a, a ≤ i + 1 → i ≤ a + 1 → (vols'.getD a []).getD j 0 = (vols.getD a []).getD j 0)
    (h2 : ∀ b, b ≤ max (j + 1) 2 → min (j - 1) (strikes.length - 3) ≤ b →
      (vols'.getD i []).getD b 0 = (vols.getD i []).getD b 0) :
    v'.at i j = v.at i j := by
  obtain ⟨n1, n2, -, -, -, -, -, -, hv⟩ := build_ok h
  obtain ⟨-, -, -, -, -, -, -, -, hv'⟩ := build_ok h'
  rw [(hv i hi j hj).1, (hv' i hi j hj).1, nodeVariance_local n1 n2 hi hj h1 h2]

/-- **C97.** Volatilities of expiries more than one grid step after `expiries[i]` do not change the local
volatility at any time up to `expiries[i]`. -/
theorem C97_local_vol_time {expiries strikes : List ℝ} {vols vols' : List (List ℝ)} {spot rd rf : ℝ}
    {v v' : LocalVol} {i : ℕ} (h : LocalVol.build expiries strikes vols spot rd rf = .ok v)
    (h' : LocalVol.build expiries strikes vols' spot rd rf = .ok v') (hi : i < expiries.length)
    (hr : ∀ a ≤ i + 1, vols'.getD a [] = vols.getD a []) {t : ℝ} (ht : t ≤ expiries.getD i 0) (k : ℝ) :
    v'.localVol t k = v.localVol t k := by
  obtain ⟨n1, n2, w1, w2, -, ex, st, -, hv⟩ := build_ok h
  obtain ⟨-, -, -, -, -, ex', st', -, hv'⟩ := build_ok h'
  have hat : ∀ a ≤ i, ∀ b < strikes.length, v'.at a b = v.at a b := by
    intro a ha b hb
    refine C97_local_vol h h' (by omega) hb ?_ ?_
    · intro x hx _
      rw [hr x (by omega)]
    · intro x _ _
      rw [hr a (by omega)]
  obtain ⟨i0, i1, w, e1, b0, b1⟩ := bracketAt_le w1 hi ht
  have hk : ∃ j0 j1 u, bracketAt strikes k = .ok (j0, j1, u) ∧ j0 < strikes.length ∧ j1 < strikes.length := by
    by_cases hk : k ≤ strikes.getD (strikes.length - 1) 0
    · obtain ⟨j0, j1, u, e, c0, c1⟩ := bracketAt_le w2 (by omega) hk
      exact ⟨j0, j1, u, e, by omega, by omega⟩
    · push Not at hk
      rw [List.getD_eq_getElem _ _ (by omega)] at hk
      refine ⟨strikes.length - 1, strikes.length - 1, 0, ?_, by omega, by omega⟩
      have hp := (windowsIncrease_iff strikes).1 w2
      have hlt : strikes[0] < strikes[strikes.length - 1] :=
        List.pairwise_iff_getElem.1 hp 0 (strikes.length - 1) (by omega) (by omega) (by omega)
      unfold bracketAt
      rw [List.getElem?_eq_getElem (by omega), List.getLast?_eq_getElem?, List.getElem?_eq_getElem (by omega)]
      change (if k ≤ strikes[0] then _ else if strikes[strikes.length - 1] ≤ k then _ else _) = _
      rw [if_neg (by linarith), if_pos hk.le]
  obtain ⟨j0, j1, u, e2, c0, c1⟩ := hk
  unfold LocalVol.localVol LocalVol.localVariance
  rw [ex, ex', st, st', e1, e2]
  simp only [ok_bind]
  rw [hat i0 b0 j0 c0, hat i0 b0 j1 c1, hat i1 b1 j0 c0, hat i1 b1 j1 c1]

/-- Non-vacuity of the two: the last expiry is not seen from the first. -/
example : ∃ v', LocalVol.build [1, 2, 3] [1, 3 / 2, 3]
      [[1 / 10, 1 / 10, 1 / 10], [1 / 10, 1 / 10, 1 / 10], [1 / 5, 1 / 10, 1 / 10]] 2 (1 / 50) (1 / 100) = .ok v' ∧
    v'.at 0 0 = exSmile.at 0 0 ∧ v'.localVol (1 / 2) 2 = exSmile.localVol (1 / 2) 2 := by
  have h : ∃ v', LocalVol.build [1, 2, 3] [1, 3 / 2, 3]
      [[1 / 10, 1 / 10, 1 / 10], [1 / 10, 1 / 10, 1 / 10], [1 / 5, 1 / 10, 1 / 10]] 2 (1 / 50) (1 / 100) = .ok v' := by
    rw [LocalVol.build, if_pos]
    · exact ⟨_, rfl⟩
    · refine ⟨by simp, by simp, by simp, by simp, ?_, ?_, by norm_num⟩ <;>
      · rw [windowsIncrease_iff]; norm_num
  obtain ⟨v', h⟩ := h
  have hr : ∀ a ≤ 1, ([[1 / 10, 1 / 10, 1 / 10], [1 / 10, 1 / 10, 1 / 10], [1 / 5, 1 / 10, 1 / 10]] :
      List (List ℝ)).getD a [] = (List.replicate 3 [1 / 10, 1 / 10, 1 / 10]).getD a [] := by
    intro a ha
    interval_cases a <;> rfl
  refine ⟨v', h, C97_local_vol exSmile_build h (by simp) (by simp) ?_ ?_,
    C97_local_vol_time exSmile_build h (i := 0) (by simp) hr (by norm_num) 2⟩
  · intro a ha _
    rw [hr a (by omega)]
  · intro b _ _
    rw [hr 0 (by omega)]

/-- **C97.** Later expiries leave the time-dependent SABR parameters fitted to the earlier ones alone: when
the calibration succeeds on more pillars, it succeeds on the first of them with the same parameters up to
there. -/
theorem C97_td_sabr {ps qs : List (ℝ × Sabr)} {beta f0 : ℝ} {p : TdSabr} (h0 : ps ≠ [])
    (h : tdStages (ps ++ qs) beta f0 = .ok p) : ∃ p0, tdStages ps beta f0 = .ok p0 ∧
      p0.nu.knots = 0 :: ps.map Prod.fst ∧ p.nu.knots = p0.nu.knots ++ qs.map Prod.fst ∧
      p0.nu.values = p.nu.values.take ps.length ∧ p0.alpha.values = p.alpha.values.take ps.length ∧
      p0.rho.values = p.rho.values.take ps.length :=
  tdStages_prefix h0 h

/-- Market-effective parameters at one and two years, the second with no vol-vol. -/
noncomputable def twoPillars : List (ℝ × Sabr) :=
  [(1, ⟨1 / 2, 1 / 2, -0.3, 1 / 2⟩)] ++ [(2, ⟨0.1, 1 / 2, 0, 0⟩)]

/-- The calibration succeeds on two pillars. -/
theorem twoPillars_ok : ∃ p, tdStages twoPillars (1 / 2) 1 = .ok p := by
  have hE1 : EndsAt [0, 1] 1 := ⟨by simp, rfl, by norm_num, rfl⟩
  have hE : EndsAt [0, 1, 2] 2 := ⟨by simp, rfl, by norm_num, rfl⟩
  obtain ⟨nu, hnu, hnu1⟩ := single_nu (T := 1) (m := ⟨1 / 2, 1 / 2, -0.3, 1 / 2⟩) (by norm_num)
    (by norm_num) (by norm_num) (by norm_num) (by norm_num)
  have hnu2 := abs_le.1 hnu1
  norm_num at hnu2
  have hn0 : 0.49 ≤ nu := by norm_num; linarith
  have hn1 : nu ≤ 0.51 := by norm_num; linarith
  have hnp : 0 < nu := lt_of_lt_of_le (by norm_num) hn0
  obtain ⟨al, hal, hal1⟩ := single_alpha (T := 1) (nu := nu) (m := ⟨1 / 2, 1 / 2, -0.3, 1 / 2⟩) (by norm_num)
    (by norm_num) (by norm_num) (by norm_num) hnp (hn1.trans (by norm_num))
  have hal2 := abs_le.1 hal1
  norm_num at hal2
  have halp : 0 < al := by linarith
  have gap2 : ∀ x : ℝ, 0 ≤ x → x ≤ 0.1 → ∃ v, nuGap [0, 1, 2] [nu] 2 ⟨0.1, 1 / 2, 0, 0⟩ x = .ok v ∧ 0 ≤ v := by
    intro x x0 x1
    obtain ⟨g, w, k1, -, k3, -⟩ := twoSeg hnp.le hn1 x0 x1 (c := 0.1) (d := 0.1) (by norm_num) (by norm_num)
    refine ⟨g, ?_, k3⟩
    unfold nuGap
    rw [hE.new (by simp), ok_bind, hE.new (by simp), ok_bind]
    simp only [List.length_singleton, List.replicate_succ, List.replicate_zero, List.cons_append, List.nil_append]
    rw [k1, ok_bind, sub_zero]
  obtain ⟨v, hv, hv0⟩ := gap2 0.1 (by norm_num) le_rfl
  obtain ⟨nu2, s1, s2, s3⟩ := tdSolve_within (hi0 := 0.1) (by norm_num)
    (fun x h1 h2 => (gap2 x (le_trans (by norm_num) h1) h2).imp fun _ h => h.1) hv hv0
  have hn2 : 0 < nu2 := lt_of_lt_of_le (by norm_num) s2
  have gap3 : ∀ x : ℝ, 0 < x → ∃ w, alphaGap [0, 1, 2] [nu, nu2] [al] 2 ⟨0.1, 1 / 2, 0, 0⟩ x = .ok (w - 0.1) ∧
      0 < w ∧ x ^ 2 ≤ 7 * w ^ 2 := by
    intro x x0
    obtain ⟨g, w, k1, k2, k3, k4, k5⟩ := twoSeg hnp.le hn1 hn2.le s3 halp x0
    refine ⟨w, ?_, k4, k5⟩
    unfold alphaGap
    rw [hE.new (by simp), ok_bind, hE.new (by simp), ok_bind]
    simp only [List.cons_append, List.nil_append]
    rw [k2, ok_bind]
  obtain ⟨w0, hw, hw0, hw1⟩ := gap3 0.5 (by norm_num)
  obtain ⟨al2, t1, t2, t3⟩ := tdSolve_within (hi0 := 0.5) (by norm_num)
    (fun x h1 h2 => (gap3 x (lt_of_lt_of_le (by norm_num) h1)).elim fun _ h => ⟨_, h.1⟩) hw (by
      norm_num at hw1 ⊢
      nlinarith)
  have hal2p : 0 < al2 := lt_of_lt_of_le (by norm_num) t2
  obtain ⟨g1, w1, k1, k2, -, k4, -⟩ := oneSeg (T := 1) (x := nu) (a := al) (by norm_num) (by norm_num) hnp.le
    (hn1.trans (by norm_num)) halp
  obtain ⟨g2, w2, q1, q2, -, q4, -⟩ := twoSeg hnp.le hn1 hn2.le s3 halp hal2p
  have c1 : 1 / 10 ^ 15 < |(1 - 0) * nu / al| := by
    rw [sub_zero, one_mul, abs_of_pos (by positivity), lt_div_iff₀ halp]
    norm_num at hn0 ⊢
    linarith
  have c2 : 1 / 10 ^ 15 < |(2 - 1) * nu2 / al2| := by
    rw [show (2 - 1 : ℝ) = 1 by norm_num, one_mul, abs_of_pos (by positivity), lt_div_iff₀ hal2p]
    norm_num at s2 t3 ⊢
    linarith
  have m2 : (max (0 * 2) 0.1 : ℝ) = 0.1 := by norm_num
  have m3 : (max (0.1 * 4) 0.5 : ℝ) = 0.5 := by norm_num
  unfold tdStages twoPillars
  simp only [growNu, growAlpha, growRho, List.map_cons, List.map_nil, List.nil_append, List.cons_append,
    List.length_nil, List.length_singleton, zero_add]
  rw [hnu]
  simp only [ok_bind, m2, m3]
  rw [s1]
  simp only [ok_bind]
  rw [hE.new (by simp)]
  simp only [ok_bind, List.take_succ_cons, List.take_zero]
  rw [hal]
  simp only [ok_bind]
  rw [t1]
  simp only [ok_bind]
  rw [hE.new (by simp)]
  simp only [ok_bind]
  rw [hE1.new (by simp)]
  simp only [ok_bind, List.take_succ_cons, List.take_zero]
  rw [hE1.new (by simp)]
  simp only [ok_bind]
  rw [k1, k2]
  simp only [ok_bind, List.getElem?_cons_zero, List.getElem?_cons_succ, unwrap]
  rw [if_pos c1]
  rw [hE.new (by simp)]
  simp only [ok_bind]
  rw [hE.new (by simp)]
  simp only [ok_bind]
  rw [q1, q2]
  simp only [ok_bind]
  rw [if_pos c2]
  simp only [ok_bind]
  rw [hE.new (by simp), ok_bind]
  unfold TdSabr.new
  have cl : ∀ r : ℝ, -1 < max (-0.999) (min r 0.999) ∧ max (-0.999) (min r 0.999) < 1 := fun r =>
    ⟨lt_of_lt_of_le (by norm_num) (le_max_left _ _), max_lt (by norm_num) (lt_of_le_of_lt (min_le_right _ _) (by norm_num))⟩
  rw [if_pos rfl, if_pos rfl, if_pos (by norm_num), if_pos one_pos, if_pos (by simp [halp, hal2p]),
    if_pos (by simp [hnp.le, hn2.le]), if_pos (by
      intro r hr
      simp only [List.mem_cons, List.not_mem_nil, or_false] at hr
      rcases hr with rfl | rfl
      · exact cl _
      · exact cl _)]
  exact ⟨_, rfl⟩

/-- Non-vacuity of `C97_td_sabr`: a pillar at two years behind one at one year. -/
example : ∃ p, tdStages ([(1, ⟨1 / 2, 1 / 2, -0.3, 1 / 2⟩)] ++ [(2, ⟨0.1, 1 / 2, 0, 0⟩)]) (1 / 2) 1 = .ok p :=
  twoPillars_ok

end Verif
