import Verif.Spec.DateShift
import Verif.Props.FxTrade
import Verif.Props.FxVol
import Verif.Props.CapletSurface

/-!
# Lemmas for C103
-/

namespace Verif

open Classical Outcome

variable {n : Int}

theorem yf365_later (n a b : Int) : yf365 (a + n) (b + n) = yf365 a b := by
  unfold yf365
  rw [show b + n - (a + n) = b - a by ring]

theorem Pillar.later_injective (n : Int) : Function.Injective (Pillar.later n) := by
  intro p q h
  obtain ⟨a, b, c, d, e, f, g⟩ := p
  obtain ⟨a', b', c', d', e', f', g'⟩ := q
  simp only [Pillar.later, Pillar.mk.injEq, add_left_inj] at h
  obtain ⟨rfl, rfl, rfl, rfl, rfl, rfl, rfl⟩ := h
  rfl

theorem scanPillars_later (n t : Int) : ∀ (f : Pillar) (ps : List Pillar),
    scanPillars (t + n) (f.later n) (ps.map (Pillar.later n)) =
      ((scanPillars t f ps).1.later n, (scanPillars t f ps).2.map (Pillar.later n))
  | f, [] => rfl
  | f, s :: ps => by
    rw [List.map_cons, scanPillars, scanPillars]
    by_cases h : t ≤ s.date ∧ s.hidden = false
    · rw [if_pos h, if_pos (show t + n ≤ (s.later n).date ∧ (s.later n).hidden = false from
        ⟨show t + n ≤ s.date + n by omega, h.2⟩)]
      rfl
    · rw [if_neg h, if_neg (show ¬ (t + n ≤ (s.later n).date ∧ (s.later n).hidden = false) from fun k =>
        h ⟨by have : t + n ≤ s.date + n := k.1
              omega, k.2⟩)]
      exact scanPillars_later n t s ps

theorem zeroRate_later {cv : Curve} {d : Int} (hd : Movable n d) :
    (cv.later n).zeroRate (d + n) = cv.zeroRate d := by
  obtain ⟨val, ps⟩ := cv
  unfold Curve.zeroRate Curve.later addDays
  rw [if_pos hd.1, if_pos hd.2, ok_bind, ok_bind]
  rcases ps with _ | ⟨p0, rest⟩
  · rfl
  have hs := scanPillars_later n (d + 1) p0 (p0 :: rest)
  rw [show d + 1 + n = d + n + 1 by ring] at hs
  have hf : ((p0 :: rest).map (Pillar.later n)).find? (fun p => !p.hidden) =
      ((p0 :: rest).find? fun p => !p.hidden).map (Pillar.later n) := by
    rw [List.find?_map]
    rfl
  rw [List.map_cons] at hs hf
  have g : ∀ o : Option Pillar, (o.map (Pillar.later n)).getD (p0.later n) = (o.getD p0).later n := by
    rintro (_ | _) <;> rfl
  dsimp only
  rw [List.map_cons]
  dsimp only
  rw [hs, hf, g, g]
  dsimp only
  rcases scanPillars (d + 1) p0 (p0 :: rest) with ⟨f, s⟩
  dsimp only
  generalize ((p0 :: rest).find? fun p => !p.hidden).getD p0 = tf
  generalize s.getD p0 = se
  by_cases h : se = tf
  · rw [if_pos h, if_pos (by rw [h])]
    rfl
  · rw [if_neg h, if_neg (fun k => h (Pillar.later_injective n k))]
    have e1 : d + n + 1 - (f.later n).date = d + 1 - f.date := by
      show d + n + 1 - (f.date + n) = _
      ring
    have e2 : (se.later n).date - (d + n + 1) = se.date - (d + 1) := by
      show se.date + n - (d + n + 1) = _
      ring
    rw [e1, e2]
    rfl

theorem discount_later {cv : Curve} {d : Int} (hd : Movable n d) :
    (cv.later n).discount (d + n) = cv.discount d := by
  unfold Curve.discount
  rw [zeroRate_later hd, show (cv.later n).valuation = cv.valuation + n from rfl, yf365_later]

theorem shiftedDiscount_later {cv : Curve} {d : Int} (hd : Movable n d) (bp : ℝ) :
    (cv.later n).shiftedDiscount (d + n) bp = cv.shiftedDiscount d bp := by
  unfold Curve.shiftedDiscount
  rw [discount_later hd, show (cv.later n).valuation = cv.valuation + n from rfl, yf365_later]

/-! ### Forward points -/

theorem forward_later {ops ops' : SliceOps} {h h' : FwdHelper} {c c' : Cal} {l : List (Int × ℝ)}
    (hd : Dated h c l) (hd' : Dated h' c' (quotesLater n l)) (hv : h'.valuation = h.valuation + n)
    (hn : (l.map Prod.fst).Nodup) (t : Int) : getForward ops' h' (t + n) c' = getForward ops h t c := by
  have hlen : h'.quotes.length = h.quotes.length := by
    rw [hd.length_eq, hd'.length_eq, quotesLater, List.length_map]
  have huniq : ∀ q ∈ l, ∀ r ∈ l, q.1 = r.1 → q = r := fun q hq r hr e =>
    List.inj_on_of_nodup_map hn hq hr e
  have mem : ∀ q : Int × ℝ, q ∈ l → (q.1 + n, q.2) ∈ quotesLater n l := fun q hq =>
    List.mem_map.2 ⟨q, hq, rfl⟩
  have back : ∀ q, q ∈ quotesLater n l → (q.1 - n, q.2) ∈ l := by
    intro q hq
    obtain ⟨r, hr, rfl⟩ := List.mem_map.1 hq
    simpa using hr
  by_cases ht : h.valuation < t
  · by_cases hl : h.quotes.length < 2
    · rw [C30_none_few hd hl, C30_none_few hd' (by rw [hlen]; exact hl)]
    rcases C30_cases (ops := ops) hd ht (by omega) with ⟨v, h1, h2⟩ | ⟨h1, h2⟩ | ⟨a, b, h1, h2⟩
    · rw [h2]
      refine C30_exact hd' (by omega) (by omega) (mem _ h1) ?_
      intro w hw
      have := back _ hw
      simp only [add_sub_cancel_right] at this
      exact congrArg Prod.snd (huniq _ this _ h1 rfl)
    · rw [h2]
      refine C30_none_outside hd' ?_
      rcases h1 with h1 | h1
      · refine .inl fun q hq => ?_
        have := h1 _ (back _ hq)
        simp only at this
        omega
      · refine .inr fun q hq => ?_
        have := h1 _ (back _ hq)
        simp only at this
        omega
    · rw [h2]
      obtain ⟨ha, hb, h3, h4, h5⟩ := h1
      have k := C30_linear (ops := ops') (a := (a.1 + n, a.2)) (b := (b.1 + n, b.2)) (t := t + n) hd' (by omega)
        ⟨mem _ ha, mem _ hb, by dsimp only; omega, by dsimp only; omega, fun q hq => by
          have := h5 _ (back _ hq)
          simp only at this ⊢
          omega⟩
        (fun q hq e => by
          have := huniq _ (back _ hq) _ ha (by simp only at e ⊢; omega)
          rw [← this]
          ext <;> simp)
        (fun q hq e => by
          have := huniq _ (back _ hq) _ hb (by simp only at e ⊢; omega)
          rw [← this]
          ext <;> simp)
      rw [k]
      congr 2
      unfold lineThrough
      dsimp only
      rw [show b.1 + n - (t + n) = b.1 - t by ring, show t + n - (a.1 + n) = t - a.1 by ring,
        show b.1 + n - (a.1 + n) = b.1 - a.1 by ring]
  · rw [C30_none_before (by omega), C30_none_before (by omega)]

theorem outright_later {ops ops' : SliceOps} {p : Pair} {m m' : FxMarket} (hm : MarketLater n p m m') (e : Int) :
    outright ops' p m' (e + n) = outright ops p m e := by
  obtain ⟨l, hd, hd', hn⟩ := hm.points
  unfold outright
  rw [forward_later (ops := ops) hd hd' hm.quoted hn, hm.spot]

/-! ### FX volatilities -/

theorem split_unique {l : List Int} {t : Int} {i j : ℕ} (hj : j ≤ l.length)
    (h2 : ∀ q ∈ l.drop i, t < q) (h3 : ∀ q ∈ l.take j, q < t) : j ≤ i := by
  by_contra hc
  have hi : i < l.length := by omega
  have m1 : l[i] ∈ l.drop i := List.mem_of_getElem? (i := 0) (by
    rw [List.getElem?_drop, Nat.add_zero, List.getElem?_eq_getElem hi])
  have m2 : l[i] ∈ l.take j := List.mem_of_getElem? (i := i) (by
    rw [List.getElem?_take_of_lt (by omega), List.getElem?_eq_getElem hi])
  exact absurd (h2 _ m1) (not_lt.2 (h3 _ m2).le)

theorem keySearch_later (ks ks' : KeySearch) {l : List Int} (hs : l.Pairwise (· ≤ ·)) (hn : l.Nodup) (t : Int) :
    ks'.search (l.map (· + n)) (t + n) = ks.search l t := by
  have hs' : (l.map (· + n)).Pairwise (· ≤ ·) := List.pairwise_map.2 (hs.imp fun h => by omega)
  have nomiss : ∀ {i j : ℕ}, l[i]? = some t → i < l.length → (∀ q ∈ l.take j, q < t) → (∀ q ∈ l.drop j, t < q) →
      False := by
    intro i j hi hil h1 h2
    have hm := List.mem_of_getElem? hi
    rw [← List.take_append_drop j l] at hm
    rcases List.mem_append.1 hm with hm | hm
    · exact lt_irrefl _ (h1 _ hm)
    · exact lt_irrefl _ (h2 _ hm)
  have miss' : ∀ {j : ℕ}, ks'.search (l.map (· + n)) (t + n) = .missing j →
      j ≤ l.length ∧ (∀ q ∈ l.take j, q < t) ∧ ∀ q ∈ l.drop j, t < q := by
    intro j hj
    obtain ⟨a, b, c⟩ := ks'.missing _ _ _ hs' hj
    rw [List.length_map] at a
    refine ⟨a, fun q hq => ?_, fun q hq => ?_⟩
    · have := b (q + n) (by rw [← List.map_take]; exact List.mem_map.2 ⟨q, hq, rfl⟩)
      omega
    · have := c (q + n) (by rw [← List.map_drop]; exact List.mem_map.2 ⟨q, hq, rfl⟩)
      omega
  have find' : ∀ {j : ℕ}, ks'.search (l.map (· + n)) (t + n) = .found j → l[j]? = some t := by
    intro j hj
    have := ks'.found _ _ _ hs' hj
    rw [List.getElem?_map] at this
    cases e : l[j]? with
    | none => rw [e] at this; cases this
    | some q =>
      rw [e] at this
      have := Option.some.inj this
      rw [show q = t by simp only at this; omega]
  cases e : ks.search l t with
  | found i =>
    have hi := ks.found _ _ _ hs e
    have hil := (List.getElem?_eq_some_iff.1 hi).1
    cases e' : ks'.search (l.map (· + n)) (t + n) with
    | found j =>
      have hj := find' e'
      rw [(List.getElem?_inj hil hn).1 (hi.trans hj.symm)]
    | missing j =>
      obtain ⟨-, b, c⟩ := miss' e'
      exact (nomiss hi hil b c).elim
  | missing i =>
    obtain ⟨a, b, c⟩ := ks.missing _ _ _ hs e
    cases e' : ks'.search (l.map (· + n)) (t + n) with
    | found j =>
      have hj := find' e'
      exact (nomiss hj (List.getElem?_eq_some_iff.1 hj).1 b c).elim
    | missing j =>
      obtain ⟨a', b', c'⟩ := miss' e'
      rw [le_antisymm (split_unique a' c b') (split_unique a c' b)]

theorem fromPillar_later (p : VolPillar) (yf : ℝ) :
    Smile.fromPillar (p.later n) yf = Smile.later n <$> Smile.fromPillar p yf := by
  obtain ⟨e, f, qs⟩ := p
  unfold Smile.fromPillar VolPillar.later
  dsimp only
  by_cases h1 : yf ≤ 0
  · rw [if_pos h1, if_pos h1]; rfl
  rw [if_neg h1, if_neg h1]
  by_cases h2 : f ≤ 0
  · rw [if_pos h2, if_pos h2]; rfl
  rw [if_neg h2, if_neg h2]
  rcases normaliseQuotes qs with ⟨atm, pairs⟩ | _ | _
  · rw [ok_bind, ok_bind]
    dsimp only
    rcases putStrikes f (√yf) (sortPairs pairs) with puts | _ | _
    · rw [ok_bind, ok_bind]
      rcases callStrikes f (√yf) (sortPairs pairs).reverse with calls | _ | _
      · rw [ok_bind, ok_bind]
        generalize puts ++ (atmDnsStrike atm f yf, atm) :: calls = sv
        by_cases h3 : strikesIncrease sv = false
        · rw [if_pos h3, if_pos h3]; rfl
        · rw [if_neg h3, if_neg h3]
          rcases sv[0]? with _ | s0
          · rfl
          rcases sv[(sortPairs pairs).length]? with _ | s1
          · rfl
          rcases sv[sv.length - 1]? with _ | s2
          · rfl
          rfl
      · rfl
      · rfl
    · rfl
    · rfl
  · rfl
  · rfl

theorem buildSmiles_later (val : Int) : ∀ ps : List VolPillar,
    buildSmiles (val + n) (ps.map (VolPillar.later n)) =
      (fun l => l.map (Smile.later n)) <$> buildSmiles val ps
  | [] => rfl
  | p :: ps => by
    rw [List.map_cons, buildSmiles, buildSmiles, fromPillar_later,
      show (p.later n).expiry = p.expiry + n from rfl, yf365_later, buildSmiles_later val ps]
    rcases Smile.fromPillar p (yf365 val p.expiry) with s | _ | _
    · rcases buildSmiles val ps with l | _ | _ <;> rfl
    · rfl
    · rfl

theorem surface_later (val : Int) (ps : List VolPillar) :
    FxVolSurface.new (val + n) (ps.map (VolPillar.later n)) =
      FxVolSurface.later n <$> FxVolSurface.new val ps := by
  rcases ps with _ | ⟨p, ps⟩
  · rfl
  · show (buildSmiles (val + n) ((p :: ps).map (VolPillar.later n)) >>= fun smiles =>
      .ok (FxVolSurface.mk (val + n) (smiles.mergeSort fun a b => decide (a.expiry ≤ b.expiry)))) =
      FxVolSurface.later n <$> (buildSmiles val (p :: ps) >>= fun smiles =>
      .ok (FxVolSurface.mk val (smiles.mergeSort fun a b => decide (a.expiry ≤ b.expiry))))
    rw [buildSmiles_later]
    rcases buildSmiles val (p :: ps) with l | _ | _
    · rw [map_ok, ok_bind, ok_bind, map_ok]
      unfold FxVolSurface.later
      dsimp only
      rw [List.map_mergeSort (s := fun a b : Smile => decide (a.expiry ≤ b.expiry))]
      intro a _ b _
      show decide (a.expiry ≤ b.expiry) = decide (a.expiry + n ≤ b.expiry + n)
      congr 1
      apply propext
      omega
    · rfl
    · rfl

theorem surfaceVol_later (ks ks' : KeySearch) {s : FxVolSurface}
    (hs : (s.smiles.map Smile.expiry).Pairwise (· ≤ ·)) (hn : (s.smiles.map Smile.expiry).Nodup) (e : Int) (K : ℝ) :
    (s.later n).volatility ks' (e + n) K = s.volatility ks e K := by
  have hk : (s.later n).smiles.map Smile.expiry = (s.smiles.map Smile.expiry).map (· + n) := by
    show (s.smiles.map (Smile.later n)).map Smile.expiry = _
    rw [List.map_map, List.map_map]
    rfl
  unfold FxVolSurface.volatility
  rw [hk, keySearch_later ks ks' hs hn, show (s.later n).valuation = s.valuation + n from rfl, yf365_later]
  have get : ∀ i : ℕ, (s.later n).smiles[i]? = (s.smiles[i]?).map (Smile.later n) := fun i => List.getElem?_map
  have len : (s.later n).smiles.length = s.smiles.length := List.length_map _
  simp only [get, len]
  by_cases hK : K ≤ 0
  · rw [if_pos hK, if_pos hK]
  rw [if_neg hK, if_neg hK]
  by_cases hy : yf365 s.valuation e ≤ 0
  · rw [if_pos hy, if_pos hy]
  rw [if_neg hy, if_neg hy]
  cases ks.search (s.smiles.map Smile.expiry) e with
  | found i => dsimp only; rcases s.smiles[i]? with _ | sm <;> rfl
  | missing i =>
    dsimp only
    by_cases h0 : i = 0
    · rw [if_pos h0, if_pos h0]
      rcases s.smiles[0]? with _ | sm <;> rfl
    rw [if_neg h0, if_neg h0]
    by_cases h1 : i = s.smiles.length
    · rw [if_pos h1, if_pos h1]
      rcases s.smiles[i - 1]? with _ | sm <;> rfl
    rw [if_neg h1, if_neg h1]
    rcases s.smiles[i - 1]? with _ | lo
    · rfl
    rcases s.smiles[i]? with _ | hi
    · rfl
    rfl

/-! ### Caps -/

theorem capletVolatility_later (ps : List CapletPillar) (e : Int) (K : ℝ) :
    capletVolatility (ps.map (CapletPillar.later n)) (e + n) K = capletVolatility ps e K := by
  have h : pickPillar (e + n) (ps.map (CapletPillar.later n)) = (pickPillar e ps).map (CapletPillar.later n) := by
    unfold pickPillar
    rw [List.find?_map, List.getLast?_map]
    have : ((fun p : CapletPillar => decide (e + n ≤ p.expiry)) ∘ CapletPillar.later n) =
        fun p => decide (e ≤ p.expiry) := by
      funext p
      show decide (e + n ≤ p.expiry + n) = decide (e ≤ p.expiry)
      congr 1
      apply propext
      omega
    rw [this]
    generalize ps.find? _ = o
    rcases o with _ | p <;> rfl
  unfold capletVolatility
  rw [h]
  rcases pickPillar e ps with _ | p <;> rfl

theorem capMarket_later {c : CapFloor} {p : SchedPeriod} {cv : Curve} {vs : List CapletPillar} (r v : ℝ)
    (hy : c.yearFraction (p.start + n) (p.fin + n) = c.yearFraction p.start p.fin)
    (h1 : Movable n p.start) (h2 : Movable n p.fin) (h3 : Movable n p.pay) :
    (c.later n).market (p.later n) (cv.later n) (vs.map (CapletPillar.later n)) r v = c.market p cv vs r v := by
  unfold CapFloor.market
  rw [show (p.later n).start = p.start + n from rfl, show (p.later n).fin = p.fin + n from rfl,
    show (p.later n).pay = p.pay + n from rfl, show (c.later n).yearFraction = c.yearFraction from rfl,
    show (c.later n).valuation = c.valuation + n from rfl, show (c.later n).strike = c.strike from rfl,
    show (c.later n).style = c.style from rfl, hy, shiftedDiscount_later h1, shiftedDiscount_later h2,
    shiftedDiscount_later h3, capletVolatility_later, yf365_later, yf365_later]

theorem addCaplets_later {c : CapFloor} {cv : Curve} {vs : List CapletPillar} (r v : ℝ) :
    ∀ (ps : List SchedPeriod) (acc : ℝ),
      (∀ p ∈ ps, c.yearFraction (p.start + n) (p.fin + n) = c.yearFraction p.start p.fin) →
      (∀ p ∈ ps, Movable n p.start ∧ Movable n p.fin ∧ Movable n p.pay) →
      (c.later n).addCaplets (cv.later n) (vs.map (CapletPillar.later n)) r v (ps.map (SchedPeriod.later n)) acc =
        c.addCaplets cv vs r v ps acc
  | [], _, _, _ => rfl
  | p :: ps, acc, hy, hd => by
    obtain ⟨h1, h2, h3⟩ := hd p (by simp)
    rw [List.map_cons, CapFloor.addCaplets, CapFloor.addCaplets, capMarket_later r v (hy p (by simp)) h1 h2 h3]
    rcases c.market p cv vs r v with m | _ | _
    · rw [ok_bind, ok_bind]
      exact addCaplets_later r v ps _ (fun q hq => hy q (by simp [hq])) (fun q hq => hd q (by simp [hq]))
    · rfl
    · rfl

/-- A forward rate from the valuation date on is a zero rate. -/
theorem forwardRate_spot {cv : Curve} {e : Int} {tenor : Period} {z0 z : ℝ} (he : addPeriod cv.valuation tenor = .ok e)
    (hne : e ≠ cv.valuation) (h0 : cv.zeroRate cv.valuation = .ok z0) (h : cv.zeroRate e = .ok z) :
    cv.forwardRate cv.valuation tenor = .ok z := by
  unfold Curve.forwardRate
  rw [he, ok_bind, h0, ok_bind, h, ok_bind]
  have hy : yf365 cv.valuation e ≠ 0 := by
    unfold yf365
    refine div_ne_zero ?_ (by norm_num)
    have : e - cv.valuation ≠ 0 := by omega
    exact_mod_cast this
  have h00 : yf365 cv.valuation cv.valuation = 0 := by unfold yf365; simp
  rw [h00, mul_zero, Real.exp_zero, sub_zero, one_div, ← Real.exp_neg, Real.log_exp, neg_mul, neg_neg,
    mul_div_cancel_right₀ _ hy]

/-- The data an option is priced from. -/
theorem optionContext_later {ops ops' : SliceOps} {x : FxOption} {m m' : FxMarket}
    (hm : MarketLater n x.asset m m') (he : Movable n x.expiry) :
    (x.later n).context ops' m' = x.context ops m := by
  unfold FxOption.context
  rw [show (x.later n).asset = x.asset from rfl, show (x.later n).expiry = x.expiry + n from rfl,
    outright_later (ops := ops) hm, hm.curve, discount_later he, hm.valuation, yf365_later, hm.spot]
  rfl

/-! ### Swaps -/

theorem leg_schedule_later {l : SwapLeg} (h : l.schedule ≠ []) (val : Int) :
    l.generateSchedule val = .ok l.schedule ∧
      (l.later n).generateSchedule (val + n) = .ok (l.schedule.map (SchedPeriod.later n)) := by
  constructor
  · rw [SwapLeg.generateSchedule.eq_def]
    cases e : l.schedule with
    | nil => exact absurd e h
    | cons s ss => rfl
  · rw [SwapLeg.generateSchedule.eq_def, show (l.later n).schedule = l.schedule.map (SchedPeriod.later n) from rfl]
    cases e : l.schedule with
    | nil => exact absurd e h
    | cons s ss => rfl

theorem cashflow_later {l : SwapLeg} {cv : Curve} {p : SchedPeriod}
    (h : Movable n p.start ∧ Movable n p.fin ∧ Movable n p.pay)
    (hy : l.yearFraction (p.start + n) (p.fin + n) = l.yearFraction p.start p.fin)
    (hc : l.dayCount (p.start + n) (p.fin + n) = l.dayCount p.start p.fin) (bp : ℝ) :
    (l.later n).cashflow (p.later n) (cv.later n) = l.cashflow p cv ∧
      (l.later n).shiftedCashflow (p.later n) (cv.later n) bp = l.shiftedCashflow p cv bp := by
  have e1 : (p.later n).start = p.start + n := rfl
  have e2 : (p.later n).fin = p.fin + n := rfl
  have e3 : (p.later n).pay = p.pay + n := rfl
  constructor
  · unfold SwapLeg.cashflow
    rw [show (l.later n).yearFraction = l.yearFraction from rfl, show (l.later n).dayCount = l.dayCount from rfl,
      show (l.later n).kind = l.kind from rfl, e1, e2, e3, hy, hc, discount_later h.1, discount_later h.2.1,
      discount_later h.2.2]
    rfl
  · unfold SwapLeg.shiftedCashflow
    rw [show (l.later n).yearFraction = l.yearFraction from rfl, show (l.later n).kind = l.kind from rfl, e1, e2, e3,
      hy, shiftedDiscount_later h.1, shiftedDiscount_later h.2.1, shiftedDiscount_later h.2.2]
    rfl

theorem addCashflows_later {l : SwapLeg} {cv : Curve} : ∀ (ps : List SchedPeriod) (acc : ℝ),
    (∀ p ∈ ps, (Movable n p.start ∧ Movable n p.fin ∧ Movable n p.pay) ∧
      l.yearFraction (p.start + n) (p.fin + n) = l.yearFraction p.start p.fin ∧
      l.dayCount (p.start + n) (p.fin + n) = l.dayCount p.start p.fin) →
    (l.later n).addCashflows (cv.later n) (ps.map (SchedPeriod.later n)) acc = l.addCashflows cv ps acc
  | [], _, _ => rfl
  | p :: ps, acc, h => by
    obtain ⟨h1, h2, h3⟩ := h p (by simp)
    rw [List.map_cons, SwapLeg.addCashflows, SwapLeg.addCashflows, (cashflow_later h1 h2 h3 0).1]
    rcases l.cashflow p cv with m | _ | _
    · rw [ok_bind, ok_bind]
      exact addCashflows_later ps _ fun q hq => h q (by simp [hq])
    · rfl
    · rfl

theorem addShifted_later {l : SwapLeg} {cv : Curve} (bp : ℝ) : ∀ (ps : List SchedPeriod) (acc : ℝ),
    (∀ p ∈ ps, (Movable n p.start ∧ Movable n p.fin ∧ Movable n p.pay) ∧
      l.yearFraction (p.start + n) (p.fin + n) = l.yearFraction p.start p.fin ∧
      l.dayCount (p.start + n) (p.fin + n) = l.dayCount p.start p.fin) →
    (l.later n).addShifted (cv.later n) bp (ps.map (SchedPeriod.later n)) acc = l.addShifted cv bp ps acc
  | [], _, _ => rfl
  | p :: ps, acc, h => by
    obtain ⟨h1, h2, h3⟩ := h p (by simp)
    rw [List.map_cons, SwapLeg.addShifted, SwapLeg.addShifted, (cashflow_later h1 h2 h3 bp).2]
    rcases l.shiftedCashflow p cv bp with m | _ | _
    · rw [ok_bind, ok_bind]
      exact addShifted_later bp ps _ fun q hq => h q (by simp [hq])
    · rfl
    · rfl

theorem npvLegs_later {cv : Curve} {val : Int} : ∀ (ls : List SwapLeg) (acc : ℝ), (∀ l ∈ ls, LegMovable n l) →
    npvLegs (val + n) (cv.later n) (ls.map (SwapLeg.later n)) acc = npvLegs val cv ls acc
  | [], _, _ => rfl
  | l :: ls, acc, h => by
    obtain ⟨h1, h2⟩ := h l (by simp)
    obtain ⟨s1, s2⟩ := leg_schedule_later (n := n) h1 val
    rw [List.map_cons, npvLegs, npvLegs, s1, s2, ok_bind, ok_bind, addCashflows_later _ _ h2]
    rcases l.addCashflows cv l.schedule acc with a | _ | _
    · rw [ok_bind, ok_bind, List.getLast?_map]
      cases e : l.schedule.getLast? with
      | none => exact absurd (List.getLast?_eq_none_iff.1 e) h1
      | some p =>
        have hp := (h2 p (List.mem_of_getLast? e)).1
        dsimp only [Option.map_some]
        rw [show (p.later n).pay = p.pay + n from rfl, discount_later hp.2.2]
        rcases cv.discount p.pay with d | _ | _
        · exact npvLegs_later ls _ fun q hq => h q (by simp [hq])
        · rfl
        · rfl
    · rfl
    · rfl

theorem shiftedLegs_later {cv : Curve} {val : Int} (bp : ℝ) : ∀ (ls : List SwapLeg) (acc : ℝ),
    (∀ l ∈ ls, LegMovable n l) →
    shiftedLegs (val + n) (cv.later n) bp (ls.map (SwapLeg.later n)) acc = shiftedLegs val cv bp ls acc
  | [], _, _ => rfl
  | l :: ls, acc, h => by
    obtain ⟨h1, h2⟩ := h l (by simp)
    obtain ⟨s1, s2⟩ := leg_schedule_later (n := n) h1 val
    rw [List.map_cons, shiftedLegs, shiftedLegs, s1, s2, ok_bind, ok_bind, addShifted_later bp _ _ h2]
    rcases l.addShifted cv bp l.schedule acc with a | _ | _
    · rw [ok_bind, ok_bind, List.getLast?_map]
      cases e : l.schedule.getLast? with
      | none => exact absurd (List.getLast?_eq_none_iff.1 e) h1
      | some p =>
        have hp := (h2 p (List.mem_of_getLast? e)).1
        dsimp only [Option.map_some]
        rw [show (p.later n).pay = p.pay + n from rfl, shiftedDiscount_later hp.2.2]
        rcases cv.shiftedDiscount p.pay bp with d | _ | _
        · exact shiftedLegs_later bp ls _ fun q hq => h q (by simp [hq])
        · rfl
        · rfl
    · rfl
    · rfl

end Verif
