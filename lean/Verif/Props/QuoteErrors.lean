import Verif.Lemmas.QuoteErrors
import Verif.Props.Sensitivity
import Verif.Props.Locality

/-!
# C101: the rates of a curve react in proportion to errors in its quotes
-/

namespace Verif

open Classical Outcome

/-- **C101.** What an error in a futures quote means for the rate of its period: when price and convexity
adjustment are off by at most `δ` together and the growth factors are at least `g`, the continuously
compounded rate is off by at most `τ δ / (100 g t)`. -/
theorem C101_quote {q : FuturesQuote} {v c δ g : ℝ} {val s m : Int} {tau : ℝ} (hs : q.settleDate val = .ok s)
    (hm : q.maturityDate val = .ok m) (ht : q.yearFraction s m = .ok tau) (hv : val ≤ s) (hsm : s < m) (h0 : 0 ≤ tau)
    (hg : 0 < g) (hd : |v - q.value| + |c - q.convexity| ≤ δ) (h1 : g ≤ 1 + tau * q.impliedQuote)
    (h2 : g ≤ 1 + tau * ({ q with value := v, convexity := c } : FuturesQuote).impliedQuote) :
    FuturesNear (tau * δ / (100 * g * yf365 s m)) val q { q with value := v, convexity := c } := by
  have hy := yf365_pos_of hsm
  refine ⟨⟨v, c, rfl⟩, fun s' m' tau' hs' hm' ht' => ?_⟩
  rw [hs] at hs'
  obtain rfl := ok.inj hs'
  rw [hm] at hm'
  obtain rfl := ok.inj hm'
  rw [ht] at ht'
  obtain rfl := ok.inj ht'
  refine ⟨hv, hsm, hg.trans_le h1, hg.trans_le h2, ?_⟩
  have lip : ∀ a b : ℝ, g ≤ a → g ≤ b → Real.log b - Real.log a ≤ |b - a| / g := by
    intro a b ha hb
    have pa := hg.trans_le ha
    have pb := hg.trans_le hb
    rw [← Real.log_div pb.ne' pa.ne']
    refine (Real.log_le_sub_one_of_pos (by positivity)).trans ?_
    rw [show b / a - 1 = (b - a) / a by field_simp]
    exact (div_le_div_of_nonneg_right (le_abs_self _) pa.le).trans
      (div_le_div_of_nonneg_left (abs_nonneg _) hg ha)
  have e : |(1 + tau * ({ q with value := v, convexity := c } : FuturesQuote).impliedQuote) -
      (1 + tau * q.impliedQuote)| ≤ tau * δ / 100 := by
    rw [show (1 + tau * ({ q with value := v, convexity := c } : FuturesQuote).impliedQuote) -
      (1 + tau * q.impliedQuote) = tau / 100 * ((c - q.convexity) - (v - q.value)) by
        simp only [FuturesQuote.impliedQuote]; ring, abs_mul, abs_of_nonneg (by positivity)]
    have := abs_sub (c - q.convexity) (v - q.value)
    calc tau / 100 * |(c - q.convexity) - (v - q.value)| ≤ tau / 100 * δ :=
          mul_le_mul_of_nonneg_left (by linarith) (by positivity)
      _ = tau * δ / 100 := by ring
  have k : tau * δ / (100 * g * yf365 s m) * yf365 s m = tau * δ / 100 / g := by field_simp
  rw [k, abs_le]
  have l1 := lip _ _ h1 h2
  have l2 := lip _ _ h2 h1
  rw [abs_sub_comm] at l2
  have := div_le_div_of_nonneg_right e hg.le
  constructor <;> linarith

/-- **C101.** Deposits: the pillars of cash quotes are off by no more than the quotes. -/
theorem C101_cash {solve : RateSolver} {ε : ℝ} {val : Int} {cash cash' : List OisRate} {out : List Pillar}
    (hq : List.Forall₂ (DepositNear ε val) cash cash') (h : strippedCurve solve val cash [] [] = .ok out) :
    ∃ out', strippedCurve solve val cash' [] [] = .ok out' ∧ List.Forall₂ (StrippedNear ε) out out' := by
  unfold strippedCurve at h ⊢
  rw [cashMaturities_congr (hq.imp fun _ _ h => h.1)]
  obtain ⟨ms, h1, h⟩ := bind_eq_ok.1 h
  obtain ⟨a, h2, h⟩ := bind_eq_ok.1 h
  obtain ⟨a', h2', haa⟩ := cashPillars_near hq h2
  rw [h1, ok_bind, h2', ok_bind]
  rw [addFutures, ok_bind, addSwaps] at h ⊢
  obtain rfl := ok.inj h
  exact ⟨a', rfl, haa⟩

/-- **C101.** The discount factor of a futures moves by at most the factor `e^(ε t)`, `t` the time to its
maturity, when the pillars before it and the rate of its own period are off by at most `ε`. -/
theorem C101_discount {ε : ℝ} {val m : Int} {q q' : FuturesQuote} {ps ps' : List Pillar}
    (hq : FuturesNear ε val q q') (hn : List.Forall₂ (StrippedNear ε) ps ps') (ho : (ps.map Pillar.date).Nodup)
    (hm : q.maturityDate val = .ok m) {d : ℝ} (h : q.discount val ps = .ok d) :
    ∃ d', q'.discount val ps' = .ok d' ∧ d * Real.exp (-(ε * yf365 val m)) ≤ d' ∧
      d' ≤ d * Real.exp (ε * yf365 val m) := by
  obtain ⟨d', h', p, p', -, hb⟩ := futDiscount_near hq hn ho hm h
  obtain ⟨b1, b2⟩ := abs_le.1 hb
  refine ⟨d', h', ?_, ?_⟩
  · rw [← Real.log_le_log_iff (by positivity) p', Real.log_mul p.ne' (Real.exp_ne_zero _), Real.log_exp]
    linarith
  · rw [← Real.log_le_log_iff p' (by positivity), Real.log_mul p.ne' (Real.exp_ne_zero _), Real.log_exp]
    linarith

/-- **C101.** Errors do not grow along a strip of futures: behind a curve that has a futures pillar, all
further futures pillars are off by at most `ε` when the curve and the rates of the periods are. -/
theorem C101_strip {ε : ℝ} {val : Int} {qs qs' : List FuturesQuote} {ps ps' out : List Pillar}
    (hq : List.Forall₂ (FuturesNear ε val) qs qs') (hn : List.Forall₂ (StrippedNear ε) ps ps')
    (hf : ∃ p ∈ ps, p.source = .futures) (h : addFutures val qs ps = .ok out) (ho : (out.map Pillar.date).Nodup) :
    ∃ out', addFutures val qs' ps' = .ok out' ∧ List.Forall₂ (StrippedNear ε) out out' :=
  addFutures_near hq hn hf h ho

/-- **C101.** The first futures behind pillars up to `l` multiplies the error by at most
`(t + t_l) / (t - t_l)`, `t` the time to its maturity and `t_l` that to the last pillar. -/
theorem C101_first {ε : ℝ} {val m : Int} {q q' : FuturesQuote} {ps ps' : List Pillar} {l : Pillar}
    (hq : FuturesNear ε val q q') (hn : List.Forall₂ (StrippedNear ε) ps ps')
    (ho : (ps.map Pillar.date).Pairwise (· < ·)) (hv : ∀ p ∈ ps, val ≤ p.date)
    (hf : ∀ p ∈ ps, p.source ≠ .futures) (hl : ps.getLast? = some l) (hm : q.maturityDate val = .ok m)
    (hlm : l.date < m) {z : ℝ} (h : q.zeroRate val ps = .ok z) :
    ∃ z', q'.zeroRate val ps' = .ok z' ∧
      |z' - z| ≤ ε * ((yf365 val m + yf365 val l.date) / (yf365 val m - yf365 val l.date)) :=
  firstFutures_near hq hn ho hv hf hl hm hlm h

/-- The first futures behind two deposits, the second of which matures five days before it. -/
theorem twoDeposits_rate (a b : ℝ) :
    (sampleFutures ['Z', '3'] 100).zeroRate (ymd 2023 10 27)
      [⟨ymd 2023 10 27, ymd 2023 10 27 + 20, 0, a, 1, .ois, false⟩,
        ⟨ymd 2023 10 27, ymd 2023 10 27 + 140, 0, b, 1, .ois, false⟩] = .ok ((34 * a - 120 * b) / 5) := by
  have e2 : ymd 2023 12 20 = ymd 2023 10 27 + 54 := by decide +kernel
  have e3 : ymd 2024 3 20 = ymd 2023 10 27 + 145 := by decide +kernel
  have hset := sampleFutures_settle 100
  have hmat := sampleFutures_maturity 100
  rw [e2] at hset
  rw [e3] at hmat
  generalize ymd 2023 10 27 = val at *
  have hrel : relatedPillar [⟨val, val + 20, 0, a, 1, .ois, false⟩, ⟨val, val + 140, 0, b, 1, .ois, false⟩] (val + 54) =
      .ok ⟨val, val + 20, 0, a, 1, .ois, false⟩ := by
    have := C56_anchor_partial (pre := []) (post := []) (a := ⟨val, val + 20, 0, a, 1, .ois, false⟩)
      (b := ⟨val, val + 140, 0, b, 1, .ois, false⟩) (t := val + 54) (by simp) (by simp)
    rw [if_neg (by simp only; omega)] at this
    exact this
  have hi : (sampleFutures ['Z', '3'] 100).impliedQuote = 0 := by
    norm_num [FuturesQuote.impliedQuote, sampleFutures]
  unfold FuturesQuote.zeroRate FuturesQuote.discount
  rw [hset, ok_bind, hmat, ok_bind]
  show (((Outcome.ok _ : Outcome ℝ) >>= _) >>= _) = _
  rw [ok_bind, hrel, ok_bind, ok_bind, ok_bind, hi, if_pos (by simp)]
  show Outcome.ok _ = _
  congr 1
  simp only [cumDiscount, one_mul, mul_zero, add_zero, div_one, List.getLast_cons_cons, List.getLast_singleton]
  rw [← Real.exp_add, ← Real.exp_sub, Real.log_exp]
  have t1 : yf365 val (val + 54) = 54 / 365 := by unfold yf365; push_cast; ring
  have t2 : yf365 val (val + 20) = 20 / 365 := by unfold yf365; push_cast; ring
  have t3 : yf365 (val + 20) (val + 140) = 120 / 365 := by unfold yf365; push_cast; ring
  have t4 : yf365 (val + 140) (val + 145) = 5 / 365 := by unfold yf365; push_cast; ring
  rw [t1, t2, t3, t4]
  ring

/-- **C101 refuted for the first futures**: its zero rate treats the zero rates of all pillars before it as
forward rates.  Errors of `ε` in two deposits change it by more than thirty times `ε`, with its own quote
unchanged. -/
theorem C101_first_false {ε : ℝ} (hε : 0 < ε) : ∃ (val : Int) (q : FuturesQuote) (ps ps' : List Pillar) (z z' : ℝ),
    FuturesNear 0 val q q ∧ List.Forall₂ (StrippedNear ε) ps ps' ∧ (ps.map Pillar.date).Pairwise (· < ·) ∧
    (∀ p ∈ ps, val < p.date) ∧ q.zeroRate val ps = .ok z ∧ q.zeroRate val ps' = .ok z' ∧ 30 * ε < |z' - z| := by
  refine ⟨ymd 2023 10 27, sampleFutures ['Z', '3'] 100, _, _, _, _, ?_, ?_, ?_, ?_, twoDeposits_rate (3 / 100) (3 / 100),
    twoDeposits_rate (3 / 100 + ε) (3 / 100 - ε), ?_⟩
  · refine ⟨⟨_, _, rfl⟩, fun s m tau hs hm ht => ?_⟩
    rw [sampleFutures_settle] at hs
    obtain rfl := ok.inj hs
    rw [sampleFutures_maturity] at hm
    obtain rfl := ok.inj hm
    have hi : (sampleFutures ['Z', '3'] 100).impliedQuote = 0 := by
      norm_num [FuturesQuote.impliedQuote, sampleFutures]
    rw [hi]
    exact ⟨by decide +kernel, by decide +kernel, by simp, by simp, by simp⟩
  · refine .cons ⟨rfl, rfl, rfl, rfl, ?_⟩ (.cons ⟨rfl, rfl, rfl, rfl, ?_⟩ .nil)
    · simp [abs_of_pos hε]
    · simp [abs_of_pos hε]
  · simp
  · simp
  · rw [show (34 * (3 / 100 + ε) - 120 * (3 / 100 - ε)) / 5 - (34 * (3 / 100) - 120 * (3 / 100)) / 5 = 154 / 5 * ε by ring,
      abs_of_pos (by positivity)]
    linarith

/-- **C101.** A whole curve of deposits and futures: when the rates behind all quotes are off by at most `ε`,
all zero rates are off by at most `ε` times the factor of the first futures. -/
theorem C101_curve {solve : RateSolver} {ε : ℝ} {val m : Int} {cash cash' : List OisRate} {q q' : FuturesQuote}
    {fs fs' : List FuturesQuote} {c out : List Pillar} {l : Pillar} (hε : 0 ≤ ε)
    (hc : List.Forall₂ (DepositNear ε val) cash cash') (hq : FuturesNear ε val q q')
    (hf : List.Forall₂ (FuturesNear ε val) fs fs') (h : strippedCurve solve val cash (q :: fs) [] = .ok out)
    (hcash : strippedCurve solve val cash [] [] = .ok c) (hl : c.getLast? = some l) (hm : q.maturityDate val = .ok m)
    (ho : (out.map Pillar.date).Pairwise (· < ·)) (hv : ∀ p ∈ out, val ≤ p.date) :
    ∃ out', strippedCurve solve val cash' (q' :: fs') [] = .ok out' ∧
      List.Forall₂ (StrippedNear (ε * ((yf365 val m + yf365 val l.date) / (yf365 val m - yf365 val l.date)))) out out' := by
  have hcm : cashMaturities val cash' = cashMaturities val cash := cashMaturities_congr (hc.imp fun _ _ h => h.1)
  unfold strippedCurve at h hcash ⊢
  rw [hcm]
  obtain ⟨ms, h1, h⟩ := bind_eq_ok.1 h
  rw [h1, ok_bind] at hcash ⊢
  obtain ⟨a, h2, h⟩ := bind_eq_ok.1 h
  rw [h2, ok_bind, addFutures, ok_bind, addSwaps] at hcash
  obtain rfl := ok.inj hcash
  obtain ⟨a', h2', haa⟩ := cashPillars_near hc h2
  rw [h2', ok_bind]
  obtain ⟨b, h3, h⟩ := bind_eq_ok.1 h
  rw [addSwaps] at h
  obtain rfl := ok.inj h
  obtain ⟨rest, e, -⟩ := addFutures_spec h3
  have h3' := h3
  rw [addFutures.eq_def] at h3
  simp only [hm, ok_bind, bind_eq_ok] at h3
  obtain ⟨s, hs, z, hz, d, hd, h3⟩ := h3
  obtain ⟨more, e2, -⟩ := addFutures_spec h3
  have hlast := hl
  have hla : l ∈ a := List.mem_of_getLast? hl
  have hlm : l.date < m := by
    rw [e2, List.map_append, List.map_append, List.append_assoc, List.pairwise_append] at ho
    exact ho.2.2 l.date (List.mem_map_of_mem hla) m (by simp)
  have ha : (a.map Pillar.date).Pairwise (· < ·) := by
    rw [e, List.map_append, List.pairwise_append] at ho
    exact ho.1
  have hva : ∀ p ∈ a, val ≤ p.date := fun p hp => hv p (by rw [e]; simp [hp])
  obtain ⟨z', hz', hzz⟩ := firstFutures_near hq haa ha hva
    (fun p hp => by rw [cashPillars_source h2 p hp]; simp) hl hm hlm hz
  obtain ⟨d', hd', -⟩ := futDiscount_near hq haa (ha.imp fun h => h.ne) hm hd
  have hs' : q'.settleDate val = .ok s := by obtain ⟨⟨v, c, rfl⟩, -⟩ := hq; exact hs
  have hm' : q'.maturityDate val = .ok m := by obtain ⟨⟨v, c, rfl⟩, -⟩ := hq; exact hm
  have hk : ε ≤ ε * ((yf365 val m + yf365 val l.date) / (yf365 val m - yf365 val l.date)) := by
    have y1 := yf365_nonneg_of (hva l hla)
    have y2 := yf365_pos_of hlm
    have y3 : yf365 val m - yf365 val l.date = yf365 l.date m := by rw [← yf365_add val l.date m]; ring
    refine le_mul_of_one_le_right hε ?_
    rw [y3, one_le_div y2]
    linarith
  have hn' : List.Forall₂ (StrippedNear (ε * ((yf365 val m + yf365 val l.date) / (yf365 val m - yf365 val l.date))))
      (a ++ [⟨s, m, q.value, z, d, .futures, false⟩]) (a' ++ [⟨s, m, q'.value, z', d', .futures, false⟩]) :=
    List.rel_append (haa.imp fun _ _ h => h.mono hk) (.cons ⟨rfl, rfl, rfl, rfl, hzz⟩ .nil)
  obtain ⟨out', h', hout⟩ := addFutures_near (hf.imp fun _ _ h => h.mono hk) hn'
    ⟨⟨s, m, q.value, z, d, .futures, false⟩, by simp, rfl⟩ h3 (ho.imp fun h => h.ne)
  refine ⟨out', ?_, hout⟩
  rw [addFutures.eq_def]
  simp only [hs', hm', hz', hd', ok_bind]
  rw [h', ok_bind, addSwaps]

/-- **C101.** The discount factors of two such curves without hidden pillars, with `κ` the bound on the zero
rates. -/
theorem C101_discounts {κ : ℝ} {val : Int} {ps ps' : List Pillar} (hn : List.Forall₂ (StrippedNear κ) ps ps')
    (hh : ∀ p ∈ ps, p.hidden = false) (ho : ps.Pairwise fun a b => a.date < b.date) {d : Int} {x : ℝ}
    (h : (Curve.mk val ps).discount d = .ok x) :
    ∃ x', (Curve.mk val ps').discount d = .ok x' ∧ x * Real.exp (-(κ * |yf365 val d|)) ≤ x' ∧
      x' ≤ x * Real.exp (κ * |yf365 val d|) := by
  refine C98_discount (ε := κ) ?_ ho h
  clear h ho
  induction hn with
  | nil => exact .nil
  | cons hab _ ih =>
    have e := hh _ List.mem_cons_self
    exact .cons ⟨hab.2.1, e, hab.2.2.2.1.trans e, hab.2.2.2.2⟩ (ih fun p hp => hh p (List.mem_cons_of_mem _ hp))

/-! ### Examples -/

theorem marchFutures_settle (v : ℝ) :
    (sampleFutures ['H', '4'] v).settleDate (ymd 2023 10 27) = .ok (ymd 2024 3 20) := by
  have : immDate 1 ['H', '4'] (ymd 2023 10 27) = some (.ok (some (ymd 2024 3 20))) := by decide +kernel
  unfold FuturesQuote.settleDate sampleFutures
  rw [this]

theorem marchFutures_maturity (v : ℝ) :
    (sampleFutures ['H', '4'] v).maturityDate (ymd 2023 10 27) = .ok (ymd 2024 6 19) := by
  unfold FuturesQuote.maturityDate
  rw [marchFutures_settle, ok_bind]
  have h1 : advance weekendsOnly (ymd 2024 3 20) (.months 3) .following false = .ok (ymd 2024 6 20) := by
    decide +kernel
  have h2 : fromYmdOpt (yearOf (ymd 2024 6 20)) (monthOf (ymd 2024 6 20)) 1 = some (ymd 2024 6 1) := by
    decide +kernel
  have h3 : immNextDate false 1 (ymd 2024 6 1) = some (.ok (ymd 2024 6 19)) := by decide +kernel
  show (advance weekendsOnly _ (.months 3) .following false >>= _) = _
  rw [h1, ok_bind, h2]
  show (match immNextDate false 1 (ymd 2024 6 1) with | some o => o | none => Outcome.panic) = _
  rw [h3]

/-- Any of the two futures can be added to a curve that has begun, at its maturity. -/
theorem anyFutures_added {q : FuturesQuote} {val s m : Int} {tau : ℝ} (hs : q.settleDate val = .ok s)
    (hm : q.maturityDate val = .ok m) (ht : q.yearFraction s m = .ok tau) {ps : List Pillar} (h : ps ≠ []) :
    ∃ z d, ∀ gs, addFutures val (q :: gs) ps =
      addFutures val gs (ps ++ [⟨s, m, q.value, z, d, .futures, false⟩]) := by
  obtain ⟨r, hr⟩ := relatedPillar_some h s
  have hd : ∃ d, q.discount val ps = .ok d := by
    unfold FuturesQuote.discount
    rw [hs, ok_bind, hm, ok_bind, ht, ok_bind, hr, ok_bind]
    exact ⟨_, rfl⟩
  obtain ⟨d, hd⟩ := hd
  have hz : ∃ z, q.zeroRate val ps = .ok z := by
    unfold FuturesQuote.zeroRate
    rw [hd, ok_bind, hm, ok_bind]
    split_ifs
    · rw [List.getLast?_eq_some_getLast h]
      exact ⟨_, rfl⟩
    · exact ⟨_, rfl⟩
  obtain ⟨z, hz⟩ := hz
  refine ⟨z, d, fun gs => ?_⟩
  rw [addFutures, hs, ok_bind, hm, ok_bind, hz, ok_bind, hd, ok_bind]

/-- Both futures at 96, off by a hundredth. -/
theorem sampleFutures_near : FuturesNear (1 / 1000) (ymd 2023 10 27) (sampleFutures ['Z', '3'] 96)
    (sampleFutures ['Z', '3'] (96 + 1 / 100)) ∧
    FuturesNear (1 / 1000) (ymd 2023 10 27) (sampleFutures ['H', '4'] 96) (sampleFutures ['H', '4'] (96 + 1 / 100)) := by
  have key : ∀ {q : FuturesQuote} {s m : Int}, q.value = 96 → q.convexity = 0 → q.settleDate (ymd 2023 10 27) = .ok s →
      q.maturityDate (ymd 2023 10 27) = .ok m → q.yearFraction s m = .ok (yf365 s m) → ymd 2023 10 27 ≤ s → s < m →
      FuturesNear (1 / 1000) (ymd 2023 10 27) q { q with value := 96 + 1 / 100, convexity := 0 } := by
    intro q s m hv hc hs hm ht h1 h2
    have hy := yf365_pos_of h2
    have := C101_quote (δ := 1 / 100) (g := 1) (v := 96 + 1 / 100) (c := 0) hs hm ht h1 h2 hy.le one_pos
      (by rw [hv, hc]; norm_num [abs_of_pos]) (by simp only [FuturesQuote.impliedQuote, hv, hc]; nlinarith)
      (by simp only [FuturesQuote.impliedQuote]; nlinarith)
    refine this.mono ?_
    rw [div_le_iff₀ (by positivity)]
    linarith
  exact ⟨key rfl rfl (sampleFutures_settle 96) (sampleFutures_maturity 96) rfl (by decide +kernel) (by decide +kernel),
    key rfl rfl (marchFutures_settle 96) (marchFutures_maturity 96) rfl (by decide +kernel) (by decide +kernel)⟩

/-- The sample deposit at 4%, off by a basis point. -/
theorem sampleDeposit_near : DepositNear (1 / 1000) (ymd 2023 10 27) sampleDeposit
    { sampleDeposit with value := 4 / 100 + 1 / 10000 } := by
  refine ⟨rfl, fun s m tau hs hm ht => ?_⟩
  have h1 : sampleDeposit.settleDate (ymd 2023 10 27) = .ok (ymd 2023 10 27) := by
    unfold sampleDeposit OisRate.settleDate; decide +kernel
  obtain ⟨-, -, h2⟩ := sampleDeposit_october
  rw [h1] at hs
  rw [h2] at hm
  obtain rfl := ok.inj hs
  obtain rfl := ok.inj hm
  have e : ymd 2024 1 29 = ymd 2023 10 27 + 94 := by decide +kernel
  obtain rfl : ((ymd 2024 1 29 - ymd 2023 10 27 : Int) : ℝ) / 360 = tau := ok.inj ht
  rw [e]
  refine ⟨by omega, ?_⟩
  rw [← Real.log_div (by norm_num) (by norm_num [sampleDeposit])]
  have t : yf365 (ymd 2023 10 27) (ymd 2023 10 27 + 94) = 94 / 365 := by unfold yf365; push_cast; ring
  rw [t]
  norm_num [sampleDeposit]
  rw [abs_of_nonneg (Real.log_nonneg (by norm_num))]
  refine (Real.log_le_sub_one_of_pos (by norm_num)).trans (by norm_num)

/-- A deposit and two futures, in order of their dates. -/
theorem sampleStrip : ∃ c l out, strippedCurve tryRates (ymd 2023 10 27) [sampleDeposit] [] [] = .ok c ∧
    c.getLast? = some l ∧ l.date = ymd 2024 1 29 ∧ (∀ p ∈ out, p.hidden = false) ∧
    strippedCurve tryRates (ymd 2023 10 27) [sampleDeposit] [sampleFutures ['Z', '3'] 96, sampleFutures ['H', '4'] 96] [] =
      .ok out ∧ out.map Pillar.date = [ymd 2024 1 29, ymd 2024 3 20, ymd 2024 6 19] := by
  obtain ⟨p, hp, hm⟩ := sampleDeposit_october
  have hpd : p.date = ymd 2024 1 29 := ok.inj ((cash_pillar hp).2.1.symm.trans hm)
  have hph : p.hidden = false := by
    have := (cash_pillar hp).2.2.2.2.2.2
    rw [← Bool.not_eq_true, this]
    simp [sampleDeposit]
  obtain ⟨z, d, ha⟩ := anyFutures_added (sampleFutures_settle 96) (sampleFutures_maturity 96) rfl (ps := [p]) (by simp)
  obtain ⟨z2, d2, hb⟩ := anyFutures_added (marchFutures_settle 96) (marchFutures_maturity 96) rfl
    (ps := [p] ++ [⟨ymd 2023 12 20, ymd 2024 3 20, (sampleFutures ['Z', '3'] 96).value, z, d, .futures, false⟩]) (by simp)
  refine ⟨[p], p, [p] ++ [⟨ymd 2023 12 20, ymd 2024 3 20, (sampleFutures ['Z', '3'] 96).value, z, d, .futures, false⟩] ++
    [⟨ymd 2024 3 20, ymd 2024 6 19, (sampleFutures ['H', '4'] 96).value, z2, d2, .futures, false⟩], ?_, rfl, hpd, ?_, ?_, ?_⟩
  · unfold strippedCurve
    simp only [cashMaturities, hm, unwrapResult, ok_bind, List.mergeSort_singleton, cashPillars, cashAt,
      if_pos, hp, List.append_nil, addFutures, addSwaps]
  · simp [hph]
  · unfold strippedCurve
    simp only [cashMaturities, hm, unwrapResult, ok_bind, List.mergeSort_singleton, cashPillars, cashAt,
      if_pos, hp, List.append_nil]
    rw [ha, hb]
    rfl
  · simp [hpd]

/-- Non-vacuity of `C101_cash`, `C101_first`, `C101_strip`, `C101_curve` and `C101_discounts`: a deposit off by a
basis point and two futures off by a hundredth; the factor of the first futures is `239 / 51`. -/
example : ∃ out out', strippedCurve tryRates (ymd 2023 10 27) [sampleDeposit]
      [sampleFutures ['Z', '3'] 96, sampleFutures ['H', '4'] 96] [] = .ok out ∧
    strippedCurve tryRates (ymd 2023 10 27) [{ sampleDeposit with value := 4 / 100 + 1 / 10000 }]
      [sampleFutures ['Z', '3'] (96 + 1 / 100), sampleFutures ['H', '4'] (96 + 1 / 100)] [] = .ok out' ∧
    List.Forall₂ (StrippedNear (1 / 1000 * (239 / 51))) out out' ∧ ∃ x x',
      (Curve.mk (ymd 2023 10 27) out).discount (ymd 2024 6 1) = .ok x ∧
      (Curve.mk (ymd 2023 10 27) out').discount (ymd 2024 6 1) = .ok x' ∧
      x' ≤ x * Real.exp (1 / 1000 * (239 / 51) * |yf365 (ymd 2023 10 27) (ymd 2024 6 1)|) := by
  obtain ⟨c, l, out, hc, hl, hld, hh, h, hd⟩ := sampleStrip
  have ho : (out.map Pillar.date).Pairwise (· < ·) := by rw [hd]; decide +kernel
  obtain ⟨out', h', hn⟩ := C101_curve (by norm_num) (.cons sampleDeposit_near .nil) sampleFutures_near.1
    (.cons sampleFutures_near.2 .nil) h hc hl (sampleFutures_maturity 96) ho (fun p hp => by
      have : p.date ∈ out.map Pillar.date := List.mem_map_of_mem hp
      rw [hd] at this
      simp only [List.mem_cons, List.not_mem_nil, or_false] at this
      rcases this with e | e | e <;> rw [e] <;> decide +kernel)
  have e1 : ymd 2024 3 20 = ymd 2023 10 27 + 145 := by decide +kernel
  have e2 : ymd 2024 1 29 = ymd 2023 10 27 + 94 := by decide +kernel
  have k : (yf365 (ymd 2023 10 27) (ymd 2024 3 20) + yf365 (ymd 2023 10 27) l.date) /
      (yf365 (ymd 2023 10 27) (ymd 2024 3 20) - yf365 (ymd 2023 10 27) l.date) = 239 / 51 := by
    rw [hld, e1, e2]
    generalize ymd 2023 10 27 = v
    have t1 : yf365 v (v + 145) = 145 / 365 := by unfold yf365; push_cast; ring
    have t2 : yf365 v (v + 94) = 94 / 365 := by unfold yf365; push_cast; ring
    rw [t1, t2]
    norm_num
  rw [k] at hn
  have hx : ∃ x, (Curve.mk (ymd 2023 10 27) out).discount (ymd 2024 6 1) = .ok x :=
    C36_discount_exists.2 ⟨by rintro e; dsimp only at e; rw [e] at hd; simp at hd, by decide +kernel⟩
  obtain ⟨x, hx⟩ := hx
  obtain ⟨x', hx', -, hb⟩ := C101_discounts hn hh (List.pairwise_map.1 ho) hx
  exact ⟨out, out', h, h', hn, x, x', hx, hx', hb⟩

/-- Non-vacuity of `C101_discount`: the March futures behind the December one. -/
example : ∃ d d' : ℝ, d' ≤ d * Real.exp (1 / 1000 * yf365 (ymd 2023 10 27) (ymd 2024 6 19)) ∧
    (sampleFutures ['H', '4'] 96).discount (ymd 2023 10 27) [⟨ymd 2023 12 20, ymd 2024 3 20, 96, 4 / 100, 1, .futures, false⟩] = .ok d ∧
    (sampleFutures ['H', '4'] (96 + 1 / 100)).discount (ymd 2023 10 27)
      [⟨ymd 2023 12 20, ymd 2024 3 20, 96, 4 / 100 - 1 / 1000, 1, .futures, false⟩] = .ok d' := by
  have hd : ∃ d, (sampleFutures ['H', '4'] 96).discount (ymd 2023 10 27)
      [⟨ymd 2023 12 20, ymd 2024 3 20, 96, 4 / 100, 1, .futures, false⟩] = .ok d := by
    obtain ⟨r, hr⟩ := relatedPillar_some
      (ps := [⟨ymd 2023 12 20, ymd 2024 3 20, 96, 4 / 100, 1, .futures, false⟩]) (by simp) (ymd 2024 3 20)
    unfold FuturesQuote.discount
    rw [marchFutures_settle, ok_bind, marchFutures_maturity, ok_bind]
    show ∃ d, ((Outcome.ok _ : Outcome ℝ) >>= _) = .ok d
    rw [ok_bind, hr, ok_bind]
    exact ⟨_, rfl⟩
  obtain ⟨d, hd⟩ := hd
  obtain ⟨d', hd', -, hb⟩ := C101_discount sampleFutures_near.2
    (ps := [⟨ymd 2023 12 20, ymd 2024 3 20, 96, 4 / 100, 1, .futures, false⟩])
    (ps' := [⟨ymd 2023 12 20, ymd 2024 3 20, 96, 4 / 100 - 1 / 1000, 1, .futures, false⟩])
    (.cons ⟨rfl, rfl, rfl, rfl, by norm_num [abs_of_pos]⟩ .nil) (by simp) (marchFutures_maturity 96) hd
  exact ⟨d, d', hb, hd, hd'⟩

end Verif
