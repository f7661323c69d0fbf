import Verif.Lemmas.FxVolQuotes

/-!
# C34, C35: the FX volatility surface
-/

namespace Verif

open Outcome Classical

/-! ### C34: the smile reproduces every quote -/

/-- A smile that could be built came from normalised quotes. -/
theorem fromPillar_normalised {p : VolPillar} {T : ℝ} {s : Smile}
    (h : Smile.fromPillar p T = .ok s) :
    ∃ atm pairs, normaliseQuotes p.quotes = .ok (atm, pairs) := by
  unfold Smile.fromPillar at h
  by_cases hy : T ≤ 0
  · rw [if_pos hy] at h; cases h
  rw [if_neg hy] at h
  by_cases hf : p.forward ≤ 0
  · rw [if_pos hf] at h; cases h
  rw [if_neg hf, bind_eq_ok] at h
  obtain ⟨⟨a, ps⟩, hn, -⟩ := h
  exact ⟨a, ps, hn⟩

/-- C34: at the ATM strike the smile returns the ATM volatility. -/
theorem C34_atm {p : VolPillar} {T v K : ℝ} {s : Smile} (h : Smile.fromPillar p T = .ok s)
    (hsep : DeltasSeparated p.quotes) (hv : .atm v ∈ p.quotes) (h0 : 0 < v)
    (hK : IsAtmStrike v p.forward T K) : s.volatility K = v := by
  obtain ⟨atm, pairs, hn⟩ := fromPillar_normalised h
  obtain ⟨n1, n2, n3⟩ := normalise_spec hn hsep
  obtain rfl := n1 v hv
  obtain ⟨hT, hF, -, -, puts, calls, -, -, hpin⟩ := smile_pins h hn h0.ne'
  rw [atmStrike_unique h0 hF hT hK]
  exact hpin (atmDnsStrike v p.forward T, v) (by simp)

/-- The pair resolved for a quoted delta is reproduced at its two strikes. -/
theorem smile_pair {p : VolPillar} {T atm : ℝ} {s : Smile} {pairs : List DeltaPair} {d : DeltaPair}
    (h : Smile.fromPillar p T = .ok s) (hn : normaliseQuotes p.quotes = .ok (atm, pairs))
    (h0 : atm ≠ 0) (hd : d ∈ pairs) {Kc Kp : ℝ} (hc : 0 < d.callVol) (hp : 0 < d.putVol)
    (hKc : IsCallStrike d.delta d.callVol p.forward T Kc)
    (hKp : IsPutStrike d.delta d.putVol p.forward T Kp) :
    s.volatility Kc = d.callVol ∧ s.volatility Kp = d.putVol := by
  obtain ⟨hT, hF, -, -, puts, calls, e1, e2, hpin⟩ := smile_pins h hn h0
  have hmem : d ∈ sortPairs pairs := (sortPairs_perm pairs).mem_iff.2 hd
  obtain ⟨-, -, hP⟩ := putStrikes_spec hF e1
  obtain ⟨-, -, hC⟩ := callStrikes_spec hF e2
  obtain ⟨d1, hd1, m1⟩ := hP d hmem
  obtain ⟨d2, hd2, m2⟩ := hC d (List.mem_reverse.2 hmem)
  constructor
  · rw [callStrike_unique hc hF hT hd2 hKc]
    have := hpin _ (List.mem_append_right puts (List.mem_cons_of_mem _ m2))
    exact this
  · rw [putStrike_unique hp hF hT hd1 hKp]
    have := hpin _ (List.mem_append_left ((atmDnsStrike atm p.forward T, atm) :: calls) m1)
    exact this

/-- C34: where a delta is quoted as a call and a put volatility, the smile returns them at
the call strike and the put strike of that delta. -/
theorem C34_call_put {p : VolPillar} {T v δ c q Kc Kp : ℝ} {s : Smile}
    (h : Smile.fromPillar p T = .ok s) (hsep : DeltasSeparated p.quotes)
    (hv : .atm v ∈ p.quotes) (h0 : 0 < v) (hcall : lastCall δ p.quotes = some c)
    (hput : lastPut δ p.quotes = some q) (hc : 0 < c) (hq : 0 < q)
    (hKc : IsCallStrike δ c p.forward T Kc) (hKp : IsPutStrike δ q p.forward T Kp) :
    s.volatility Kc = c ∧ s.volatility Kp = q := by
  obtain ⟨atm, pairs, hn⟩ := fromPillar_normalised h
  obtain ⟨n1, n2, n3⟩ := normalise_spec hn hsep
  obtain rfl := n1 v hv
  obtain ⟨pr, hpr, e⟩ := n3 δ (by
    obtain ⟨r, hr, e⟩ := lastOf_quoted hcall
    cases r <;> simp at e
    exact ⟨_, hr, by simp [FxVolQuote.delta?, e.1]⟩)
  rw [resolvePartial, lastQuotes, hcall, hput] at e
  cases e
  exact smile_pair h hn h0.ne' hpr hc hq hKc hKp

/-- C34: where a delta is quoted as a risk reversal and a butterfly (and not as a call/put
pair), the smile's volatilities at the call and the put strike differ by the risk reversal
and their average exceeds ATM by the butterfly. -/
theorem C34_rr_bf {p : VolPillar} {T v δ rr bf Kc Kp : ℝ} {s : Smile}
    (h : Smile.fromPillar p T = .ok s) (hsep : DeltasSeparated p.quotes)
    (hv : .atm v ∈ p.quotes) (h0 : 0 < v)
    (hno : lastCall δ p.quotes = none ∨ lastPut δ p.quotes = none)
    (hrr : lastRr δ p.quotes = some rr) (hbf : lastBf δ p.quotes = some bf)
    (hc : 0 < v + bf + rr / 2) (hq : 0 < v + bf - rr / 2)
    (hKc : IsCallStrike δ (v + bf + rr / 2) p.forward T Kc)
    (hKp : IsPutStrike δ (v + bf - rr / 2) p.forward T Kp) :
    s.volatility Kc - s.volatility Kp = rr ∧ (s.volatility Kc + s.volatility Kp) / 2 - v = bf := by
  obtain ⟨atm, pairs, hn⟩ := fromPillar_normalised h
  obtain ⟨n1, n2, n3⟩ := normalise_spec hn hsep
  obtain rfl := n1 v hv
  obtain ⟨pr, hpr, e⟩ := n3 δ (by
    obtain ⟨r, hr, e⟩ := lastOf_quoted hrr
    cases r <;> simp at e
    exact ⟨_, hr, by simp [FxVolQuote.delta?, e.1]⟩)
  have e' : pr = ⟨δ, v + bf + 1 / 2 * rr, v + bf - 1 / 2 * rr⟩ := by
    rw [resolvePartial, lastQuotes, hrr, hbf] at e
    rcases hno with hno | hno <;> rw [hno] at e
    · cases e; rfl
    · cases hl : lastCall δ p.quotes <;> rw [hl] at e <;> cases e <;> rfl
  have e1 : v + bf + 1 / 2 * rr = v + bf + rr / 2 := by ring
  have e2 : v + bf - 1 / 2 * rr = v + bf - rr / 2 := by ring
  rw [e1, e2] at e'
  subst e'
  obtain ⟨a, b⟩ := smile_pair h hn h0.ne' hpr hc hq hKc hKp
  rw [a, b]
  constructor
  · show v + bf + rr / 2 - (v + bf - rr / 2) = rr
    ring
  · show (v + bf + rr / 2 + (v + bf - rr / 2)) / 2 - v = bf
    ring

/-! ### A smile that can be built -/

/-- With one delta, a call volatility not below and a put volatility not above ATM, the
strikes increase and the smile is built. -/
theorem fromPillar_single {p : VolPillar} {T v δ c q : ℝ}
    (hn : normaliseQuotes p.quotes = .ok (v, [⟨δ, c, q⟩])) (hT : 0 < T) (hF : 0 < p.forward)
    (hδ : 0 < δ) (hδ' : δ < 1 / 2) (hv : 0 < v) (hc : v ≤ c) (hq : 0 < q) (hq' : q ≤ v) :
    ∃ s, Smile.fromPillar p T = .ok s := by
  obtain ⟨a, ha⟩ := exists_quantile (p := 1 - δ) (by linarith) (by linarith)
  obtain ⟨b, hb⟩ := exists_quantile (p := δ) hδ (by linarith)
  have ha0 : 0 < a := by
    by_contra hle
    have := strictMono_normCdf.monotone (not_lt.1 hle)
    rw [normCdf_zero, ha] at this; linarith
  have hb0 : b < 0 := by
    by_contra hle
    have := strictMono_normCdf.monotone (not_lt.1 hle)
    rw [normCdf_zero, hb] at this; linarith
  have hTT : √T * √T = T := Real.mul_self_sqrt hT.le
  have hqT := Real.sqrt_pos.2 hT
  have k1 : strikeFromPutDelta δ q p.forward (√T) =
      .ok (p.forward * Real.exp (1 / 2 * q * q * √T * √T - a * q * √T)) := by
    unfold strikeFromPutDelta
    rw [normInv_iff.2 ⟨by linarith, by linarith, ha⟩]; rfl
  have k2 : strikeFromCallDelta δ c p.forward (√T) =
      .ok (p.forward * Real.exp (1 / 2 * c * c * √T * √T - b * c * √T)) := by
    unfold strikeFromCallDelta
    rw [normInv_iff.2 ⟨hδ, by linarith, hb⟩]; rfl
  have hsort : sortPairs [⟨δ, c, q⟩] = [⟨δ, c, q⟩] := by
    unfold sortPairs; simp
  have l1 : p.forward * Real.exp (1 / 2 * q * q * √T * √T - a * q * √T) <
      atmDnsStrike v p.forward T := by
    unfold atmDnsStrike
    refine mul_lt_mul_of_pos_left (Real.exp_lt_exp.2 ?_) hF
    rw [mul_assoc _ (√T), hTT]
    have : q * q * T ≤ v * v * T := by gcongr
    have : 0 < a * q * √T := by positivity
    nlinarith
  have l2 : atmDnsStrike v p.forward T <
      p.forward * Real.exp (1 / 2 * c * c * √T * √T - b * c * √T) := by
    unfold atmDnsStrike
    refine mul_lt_mul_of_pos_left (Real.exp_lt_exp.2 ?_) hF
    rw [mul_assoc _ (√T), hTT]
    have hc0 : 0 < c := by linarith
    have : v * v * T ≤ c * c * T := by gcongr
    have : 0 < -b * c * √T := by
      have : 0 < -b := by linarith
      positivity
    nlinarith
  have hinc : strikesIncrease
      ([(p.forward * Real.exp (1 / 2 * q * q * √T * √T - a * q * √T), q)] ++
        (atmDnsStrike v p.forward T, v) ::
          [(p.forward * Real.exp (1 / 2 * c * c * √T * √T - b * c * √T), c)]) = true := by
    simp only [List.cons_append, List.nil_append]
    rw [strikesIncrease, if_neg (not_le.2 l1), strikesIncrease, if_neg (not_le.2 l2),
      strikesIncrease]
    simp
  unfold Smile.fromPillar
  rw [if_neg (not_le.2 hT), if_neg (not_le.2 hF), hn, ok_bind]
  dsimp only
  rw [hsort, putStrikes, k1, ok_bind, putStrikes, ok_bind, List.reverse_singleton, callStrikes, k2,
    ok_bind, callStrikes, ok_bind, ok_bind, ok_bind, hinc]
  exact ⟨_, rfl⟩

/-- ATM 10%, a 25-delta risk reversal of 2% and a butterfly of 1%. -/
noncomputable def samplePillar (expiry : Int) : VolPillar :=
  ⟨expiry, 11 / 10, [.atm (1 / 10), .riskReversal (1 / 4) (2 / 100), .butterfly (1 / 4) (1 / 100)]⟩

theorem samplePillar_normalised (e : Int) :
    normaliseQuotes (samplePillar e).quotes =
      .ok (1 / 10, [⟨1 / 4, 1 / 10 + 1 / 100 + 1 / 2 * (2 / 100),
        1 / 10 + 1 / 100 - 1 / 2 * (2 / 100)⟩]) := by
  have hval : validateDelta (1 / 4) = .ok () := validateDelta_ok.2 (by norm_num)
  unfold normaliseQuotes samplePillar
  dsimp only
  rw [collectQuotes, if_neg (by simp), collectQuotes, hval, ok_bind, collectQuotes, hval, ok_bind,
    collectQuotes, ok_bind]
  rw [bucketUpdate, bucketUpdate, if_pos (by norm_num)]
  dsimp only
  rw [resolveAll, resolveAll]
  simp [resolvePartial, sortPairs]

theorem samplePillar_built (e : Int) {T : ℝ} (hT : 0 < T) :
    ∃ s, Smile.fromPillar (samplePillar e) T = .ok s :=
  fromPillar_single (samplePillar_normalised e) hT (by norm_num [samplePillar]) (by norm_num)
    (by norm_num) (by norm_num) (by norm_num) (by norm_num) (by norm_num)

theorem samplePillar_separated (e : Int) : DeltasSeparated (samplePillar e).quotes := by
  intro q hq r hr a b ha hb
  left
  simp only [samplePillar, List.mem_cons, List.not_mem_nil, or_false] at hq hr
  rcases hq with rfl | rfl | rfl <;> rcases hr with rfl | rfl | rfl <;>
    simp only [FxVolQuote.delta?, Option.some.injEq, reduceCtorEq] at ha hb <;> rw [← ha, ← hb]

theorem log_scaled (x : ℝ) : Real.log (11 / 10 / (11 / 10 * Real.exp x)) = -x := by
  rw [← div_div, div_self (by norm_num), one_div, Real.log_inv, Real.log_exp]

/-- Non-vacuity of C34: the sample smile reproduces its ATM quote. -/
example : ∃ s, Smile.fromPillar (samplePillar 365) 1 = .ok s ∧
    s.volatility (11 / 10 * Real.exp (1 / 200)) = 1 / 10 := by
  obtain ⟨s, hs⟩ := samplePillar_built 365 (T := 1) one_pos
  refine ⟨s, hs, C34_atm hs (samplePillar_separated _) (by simp [samplePillar]) (by norm_num) ?_⟩
  refine ⟨by positivity, ?_⟩
  simp only [samplePillar, log_scaled]
  norm_num

/-- Non-vacuity of C34: the sample smile reproduces its risk reversal and butterfly. -/
example : ∃ s Kc Kp, Smile.fromPillar (samplePillar 365) 1 = .ok s ∧
    s.volatility Kc - s.volatility Kp = 2 / 100 ∧
    (s.volatility Kc + s.volatility Kp) / 2 - 1 / 10 = 1 / 100 := by
  obtain ⟨s, hs⟩ := samplePillar_built 365 (T := 1) one_pos
  obtain ⟨b, hb⟩ := exists_quantile (p := 1 / 4) (by norm_num) (by norm_num)
  refine ⟨s, 11 / 10 * Real.exp (1 / 2 * (12 / 100) ^ 2 - b * (12 / 100)),
    11 / 10 * Real.exp (1 / 2 * (1 / 10) ^ 2 + b * (1 / 10)), hs,
    C34_rr_bf (p := samplePillar 365) (δ := 1 / 4) (rr := 2 / 100) (bf := 1 / 100) hs
      (samplePillar_separated _) (by simp [samplePillar]) (by norm_num)
      (.inl (by simp [samplePillar, lastCall])) (by simp [samplePillar, lastRr])
      (by simp [samplePillar, lastBf]) (by norm_num) (by norm_num) ?_ ?_⟩
  · refine ⟨by positivity, ?_⟩
    simp only [samplePillar]
    rw [log_scaled, Real.sqrt_one, ← hb]
    congr 1
    ring
  · refine ⟨by positivity, ?_⟩
    simp only [samplePillar]
    rw [log_scaled, Real.sqrt_one, ← hb]
    congr 1
    ring

/-! ### C35: interpolation in time -/

/-- C35: a strike that is not positive is an error. -/
theorem C35_strike_error (ks : KeySearch) (s : FxVolSurface) (e : Int) {K : ℝ} (hK : K ≤ 0) :
    s.volatility ks e K = .fail .invalidData := by
  unfold FxVolSurface.volatility
  rw [if_pos hK]

/-- C35: an expiry that is not after the valuation date is an error. -/
theorem C35_expiry_error (ks : KeySearch) (s : FxVolSurface) {e : Int} (K : ℝ)
    (he : e ≤ s.valuation) : s.volatility ks e K = .fail .invalidData := by
  unfold FxVolSurface.volatility
  by_cases hK : K ≤ 0
  · rw [if_pos hK]
  · rw [if_neg hK]
    dsimp only
    rw [if_pos]
    unfold yf365
    have : ((e - s.valuation : Int) : ℝ) ≤ 0 := by exact_mod_cast (by omega)
    exact div_nonpos_of_nonpos_of_nonneg this (by norm_num)

example (s : FxVolSurface) : s.volatility KeySearch.std s.valuation 1 = .fail .invalidData :=
  C35_expiry_error _ _ _ le_rfl

theorem yf365_lt {v a b : Int} (h : a < b) : yf365 v a < yf365 v b := by
  unfold yf365
  have : ((a - v : Int) : ℝ) < ((b - v : Int) : ℝ) := by exact_mod_cast (by omega)
  exact div_lt_div_of_pos_right this (by norm_num)

theorem yf365_after {v e : Int} (h : v < e) : 0 < yf365 v e := by
  have := yf365_lt (v := v) h
  simpa [yf365] using this

theorem surface_pos {val e : Int} {ps : List VolPillar} {s : FxVolSurface}
    (h : FxVolSurface.new val ps = .ok s) (he : val < e) : 0 < yf365 s.valuation e := by
  rw [(surface_new h).1]; exact yf365_after he

/-- C35: every other request on a constructed surface is answered. -/
theorem C35_answered (ks : KeySearch) {val e : Int} {ps : List VolPillar} {s : FxVolSurface}
    {K : ℝ} (h : FxVolSurface.new val ps = .ok s) (hK : 0 < K) (he : val < e) :
    ∃ v, s.volatility ks e K = .ok v := by
  rcases surface_cases ks (surface_new h).2.2.2.1 (surface_new h).2.1 hK
    (surface_pos h he) with ⟨_, _, _, h⟩ | ⟨_, _, _, _, h⟩ | ⟨_, _, _, _, h⟩ |
    ⟨_, _, _, _, _, _, _, h⟩ <;> exact ⟨_, h⟩

/-- Sorted smiles: entries left of a position are not later, entries right are not earlier. -/
theorem sorted_split {pre post : List Smile} {lo hi : Smile}
    (h : ((pre ++ lo :: hi :: post).map Smile.expiry).Pairwise (· ≤ ·)) :
    (∀ q ∈ pre, q.expiry ≤ lo.expiry) ∧ (∀ q ∈ post, hi.expiry ≤ q.expiry) := by
  rw [List.pairwise_map, List.pairwise_append] at h
  refine ⟨fun q hq => h.2.2 q hq lo (by simp), fun q hq => ?_⟩
  exact (List.pairwise_cons.1 (List.pairwise_cons.1 h.2.1).2).1 q hq

/-- Two adjacent pairs around the same expiry are the same pair. -/
theorem adjacent_unique {pre post pre' post' : List Smile} {lo hi lo' hi' : Smile} {e : Int}
    (heq : pre ++ lo :: hi :: post = pre' ++ lo' :: hi' :: post')
    (h : ((pre ++ lo :: hi :: post).map Smile.expiry).Pairwise (· ≤ ·))
    (h1 : lo.expiry < e) (h2 : e < hi.expiry) (h1' : lo'.expiry < e) (h2' : e < hi'.expiry) :
    lo = lo' ∧ hi = hi' := by
  obtain ⟨s1, s2⟩ := sorted_split h
  obtain ⟨t1, t2⟩ := sorted_split (heq ▸ h)
  have key : ∀ {pre post pre' post' : List Smile} {lo hi lo' hi' : Smile},
      pre ++ lo :: hi :: post = pre' ++ lo' :: hi' :: post' →
      (∀ q ∈ pre', q.expiry < e) → e < hi.expiry → lo'.expiry < e →
      ¬ pre.length < pre'.length := by
    intro pre post pre' post' lo hi lo' hi' heq hall hhi hlo' hlt
    have g : (pre ++ lo :: hi :: post)[pre.length + 1]? = some hi := by
      rw [List.getElem?_append_right (by omega)]; simp
    rw [heq] at g
    rcases Nat.lt_or_ge (pre.length + 1) pre'.length with hc | hc
    · rw [List.getElem?_append_left hc] at g
      exact absurd (hall _ (List.mem_of_getElem? g)) (not_lt.2 hhi.le)
    · have : pre.length + 1 = pre'.length := by omega
      rw [this, List.getElem?_append_right le_rfl] at g
      simp at g
      subst g
      omega
  have hlen : pre.length = pre'.length := by
    have a := key heq (fun q hq => lt_of_le_of_lt (t1 q hq) h1') h2 h1'
    have b := key heq.symm (fun q hq => lt_of_le_of_lt (s1 q hq) h1) h2' h1
    omega
  have := List.append_inj heq hlen
  simp only [List.cons.injEq] at this
  exact ⟨this.2.1, this.2.2.1⟩

/-- C35: strictly between two adjacent pillars the total variance is the linear
interpolation in time of the two pillars' total variances. -/
theorem C35_interpolation (ks : KeySearch) {val e : Int} {ps : List VolPillar} {s : FxVolSurface}
    {K : ℝ} {pre post : List Smile} {lo hi : Smile} (h : FxVolSurface.new val ps = .ok s)
    (hK : 0 < K) (hsp : s.smiles = pre ++ lo :: hi :: post) (h1 : lo.expiry < e)
    (h2 : e < hi.expiry) :
    ∃ v, s.volatility ks e K = .ok v ∧ 0 ≤ v ∧
      v ^ 2 * yf365 val e = lo.totalVar K +
        ((e - lo.expiry : Int) : ℝ) / ((hi.expiry - lo.expiry : Int) : ℝ) *
          (hi.totalVar K - lo.totalVar K) := by
  obtain ⟨n1, n2, n3, n4, n5⟩ := surface_new h
  have hlo := n5 lo (by rw [hsp]; simp)
  have hhi := n5 hi (by rw [hsp]; simp)
  have hval : val < lo.expiry := by
    by_contra hc
    have h0 := hlo.1
    rw [hlo.2] at h0
    unfold yf365 at h0
    have : ((lo.expiry - val : Int) : ℝ) ≤ 0 := by exact_mod_cast (by omega)
    have := div_nonpos_of_nonpos_of_nonneg this (by norm_num : (0:ℝ) ≤ 365)
    linarith
  obtain ⟨s1, s2⟩ := sorted_split (hsp ▸ n4)
  have hside : ∀ q ∈ s.smiles, q.expiry < e ∨ e < q.expiry := by
    intro q hq
    rw [hsp] at hq
    simp only [List.mem_append, List.mem_cons] at hq
    rcases hq with hq | rfl | rfl | hq
    · exact .inl (lt_of_le_of_lt (s1 q hq) h1)
    · exact .inl h1
    · exact .inr h2
    · exact .inr (lt_of_lt_of_le h2 (s2 q hq))
  rcases surface_cases ks (surface_new h).2.2.2.1 (surface_new h).2.1 hK
    (surface_pos h (hval.trans h1)) with ⟨sm, hm, he, -⟩ | ⟨_, _, _, ha, -⟩ |
    ⟨_, _, _, ha, -⟩ | ⟨pre', lo', hi', post', hsp', g1, g2, hv⟩
  · rcases hside sm hm with hh | hh <;> omega
  · have := ha lo (by rw [hsp]; simp); omega
  · have := ha hi (by rw [hsp]; simp); omega
  · obtain ⟨rfl, rfl⟩ := adjacent_unique (hsp.symm.trans hsp') (hsp ▸ n4) h1 h2 g1 g2
    refine ⟨_, hv, Real.sqrt_nonneg _, ?_⟩
    have hye : 0 < yf365 val e := yf365_after (hval.trans h1)
    rw [n1]
    have hw : (yf365 val e - lo.yearFraction) / (hi.yearFraction - lo.yearFraction) =
        ((e - lo.expiry : Int) : ℝ) / ((hi.expiry - lo.expiry : Int) : ℝ) := by
      rw [hlo.2, hhi.2]
      unfold yf365
      push_cast
      rw [← sub_div, ← sub_div, div_div_div_cancel_right₀ (by norm_num)]
      congr 1 <;> ring
    rw [hw]
    have w0 : (0:ℝ) < ((e - lo.expiry : Int) : ℝ) := by exact_mod_cast (by omega)
    have w1 : (0:ℝ) < ((hi.expiry - lo.expiry : Int) : ℝ) := by exact_mod_cast (by omega)
    have w2 : ((e - lo.expiry : Int) : ℝ) ≤ ((hi.expiry - lo.expiry : Int) : ℝ) := by
      exact_mod_cast (by omega)
    set w := ((e - lo.expiry : Int) : ℝ) / ((hi.expiry - lo.expiry : Int) : ℝ) with hwdef
    have hw0 : 0 ≤ w := by positivity
    have hw1 : w ≤ 1 := (div_le_one w1).2 w2
    have v0 : 0 ≤ lo.totalVar K := mul_nonneg (sq_nonneg _) hlo.1.le
    have v1 : 0 ≤ hi.totalVar K := mul_nonneg (sq_nonneg _) hhi.1.le
    have : 0 ≤ lo.totalVar K + w * (hi.totalVar K - lo.totalVar K) := by nlinarith
    rw [Real.sq_sqrt (by positivity), div_mul_cancel₀ _ hye.ne']

/-- C35: so it lies between the two pillars' total variances. -/
theorem C35_between (ks : KeySearch) {val e : Int} {ps : List VolPillar} {s : FxVolSurface}
    {K v : ℝ} {pre post : List Smile} {lo hi : Smile} (h : FxVolSurface.new val ps = .ok s)
    (hK : 0 < K) (hsp : s.smiles = pre ++ lo :: hi :: post) (h1 : lo.expiry < e)
    (h2 : e < hi.expiry) (hv : s.volatility ks e K = .ok v) :
    min (lo.totalVar K) (hi.totalVar K) ≤ v ^ 2 * yf365 val e ∧
      v ^ 2 * yf365 val e ≤ max (lo.totalVar K) (hi.totalVar K) := by
  obtain ⟨v', hv', -, e1⟩ := C35_interpolation ks h hK hsp h1 h2
  rw [hv] at hv'
  injection hv' with hv'
  rw [hv', e1]
  have w0 : (0:ℝ) < ((e - lo.expiry : Int) : ℝ) := by exact_mod_cast (by omega)
  have w1 : (0:ℝ) < ((hi.expiry - lo.expiry : Int) : ℝ) := by exact_mod_cast (by omega)
  have w2 : ((e - lo.expiry : Int) : ℝ) ≤ ((hi.expiry - lo.expiry : Int) : ℝ) := by
    exact_mod_cast (by omega)
  set w := ((e - lo.expiry : Int) : ℝ) / ((hi.expiry - lo.expiry : Int) : ℝ) with hwdef
  have hw0 : 0 ≤ w := by positivity
  have hw1 : w ≤ 1 := (div_le_one w1).2 w2
  rcases le_total (lo.totalVar K) (hi.totalVar K) with hle | hle
  · rw [min_eq_left hle, max_eq_right hle]
    constructor <;> nlinarith
  · rw [min_eq_right hle, max_eq_left hle]
    constructor <;> nlinarith

/-- C35: before the first pillar the volatility is the first pillar's. -/
theorem C35_before (ks : KeySearch) {val e : Int} {ps : List VolPillar} {s : FxVolSurface}
    {K : ℝ} {first : Smile} {post : List Smile} (h : FxVolSurface.new val ps = .ok s)
    (hK : 0 < K) (he : val < e) (hsp : s.smiles = first :: post) (h1 : e < first.expiry) :
    s.volatility ks e K = .ok (first.volatility K) := by
  have hs := (surface_new h).2.2.2.1
  have hall : ∀ q ∈ s.smiles, e < q.expiry := by
    intro q hq
    rw [hsp] at hq hs
    rcases List.mem_cons.1 hq with rfl | hq
    · exact h1
    · exact lt_of_lt_of_le h1 ((List.pairwise_cons.1 (List.pairwise_map.1 hs)).1 q hq)
  rcases surface_cases ks (surface_new h).2.2.2.1 (surface_new h).2.1 hK
    (surface_pos h he) with ⟨sm, hm, h', -⟩ | ⟨sm, _, h', _, hv⟩ | ⟨_, sm, h', ha, -⟩ |
    ⟨_, lo', _, _, h', g1, _, -⟩
  · have := hall sm hm; omega
  · rw [hsp] at h'; injection h' with h' _; rw [hv, h']
  · have := ha sm (by rw [h']; simp); have := hall sm (by rw [h']; simp); omega
  · have := hall lo' (by rw [h']; simp); omega

/-- C35: after the last pillar the volatility is the last pillar's. -/
theorem C35_after (ks : KeySearch) {val e : Int} {ps : List VolPillar} {s : FxVolSurface}
    {K : ℝ} {last : Smile} {pre : List Smile} (h : FxVolSurface.new val ps = .ok s)
    (hK : 0 < K) (he : val < e) (hsp : s.smiles = pre ++ [last]) (h1 : last.expiry < e) :
    s.volatility ks e K = .ok (last.volatility K) := by
  have hs := (surface_new h).2.2.2.1
  have hall : ∀ q ∈ s.smiles, q.expiry < e := by
    intro q hq
    rw [hsp] at hq hs
    rcases List.mem_append.1 hq with hq | hq
    · exact lt_of_le_of_lt ((List.pairwise_append.1 (List.pairwise_map.1 hs)).2.2 q hq last
        (by simp)) h1
    · rw [List.mem_singleton.1 hq]; exact h1
  rcases surface_cases ks (surface_new h).2.2.2.1 (surface_new h).2.1 hK
    (surface_pos h he) with ⟨sm, hm, h', -⟩ | ⟨sm, _, h', ha, -⟩ | ⟨_, sm, h', _, hv⟩ |
    ⟨_, _, hi', _, h', _, g2, -⟩
  · have := hall sm hm; omega
  · have := ha sm (by rw [h']; simp); have := hall sm (by rw [h']; simp); omega
  · rw [hsp] at h'
    have := List.append_inj_right' h' rfl
    injection this with this _
    rw [hv, this]
  · have := hall hi' (by rw [h']; simp); omega

/-- C35: at a pillar (expiries all different) the volatility is the pillar's. -/
theorem C35_pillar (ks : KeySearch) {val : Int} {ps : List VolPillar} {s : FxVolSurface}
    {K : ℝ} {sm : Smile} (h : FxVolSurface.new val ps = .ok s)
    (hd : (ps.map VolPillar.expiry).Nodup) (hK : 0 < K) (hm : sm ∈ s.smiles) :
    s.volatility ks sm.expiry K = .ok (sm.volatility K) := by
  obtain ⟨n1, n2, n3, n4, n5⟩ := surface_new h
  have hd' : (s.smiles.map Smile.expiry).Nodup := n3.nodup_iff.2 hd
  have hval : val < sm.expiry := by
    by_contra hc
    have h0 := (n5 sm hm).1
    rw [(n5 sm hm).2] at h0
    unfold yf365 at h0
    have : ((sm.expiry - val : Int) : ℝ) ≤ 0 := by exact_mod_cast (by omega)
    have := div_nonpos_of_nonpos_of_nonneg this (by norm_num : (0:ℝ) ≤ 365)
    linarith
  rcases surface_cases ks (surface_new h).2.2.2.1 (surface_new h).2.1 hK
    (surface_pos h hval) with ⟨sm', hm', h', hv⟩ | ⟨_, _, _, ha, -⟩ | ⟨_, _, _, ha, -⟩ |
    ⟨pre, lo, hi, post, hsp, g1, g2, -⟩
  · rw [hv, List.inj_on_of_nodup_map hd' hm' hm h']
  · have := ha sm hm; omega
  · have := ha sm hm; omega
  · obtain ⟨s1, s2⟩ := sorted_split (hsp ▸ n4)
    rw [hsp] at hm
    simp only [List.mem_append, List.mem_cons] at hm
    rcases hm with hm | rfl | rfl | hm
    · have := s1 sm hm; omega
    · omega
    · omega
    · have := s2 sm hm; omega

theorem totalVar_mono {l : List Smile} {K : ℝ} (hs : (l.map Smile.expiry).Pairwise (· ≤ ·))
    (hd : (l.map Smile.expiry).Nodup) (hm : l.Pairwise fun a b => a.totalVar K ≤ b.totalVar K)
    {a b : Smile} (ha : a ∈ l) (hb : b ∈ l) (hab : a.expiry ≤ b.expiry) :
    a.totalVar K ≤ b.totalVar K := by
  obtain ⟨i, hi, rfl⟩ := List.mem_iff_getElem.1 ha
  obtain ⟨j, hj, rfl⟩ := List.mem_iff_getElem.1 hb
  rcases lt_trichotomy i j with h | rfl | h
  · exact List.pairwise_iff_getElem.1 hm i j hi hj h
  · exact le_rfl
  · have := List.pairwise_iff_getElem.1 (List.pairwise_map.1 hs) j i hj hi h
    have := List.inj_on_of_nodup_map hd ha hb (le_antisymm hab this)
    rw [this]

/-- Up to a later pillar the total variance has not exceeded that pillar's. -/
theorem var_le_pillar (ks : KeySearch) {val e : Int} {ps : List VolPillar} {s : FxVolSurface}
    {K v : ℝ} {sm : Smile} (h : FxVolSurface.new val ps = .ok s)
    (hd : (ps.map VolPillar.expiry).Nodup)
    (hm : s.smiles.Pairwise fun a b => a.totalVar K ≤ b.totalVar K) (hK : 0 < K) (he : val < e)
    (hv : s.volatility ks e K = .ok v) (hsm : sm ∈ s.smiles) (hle : e ≤ sm.expiry) :
    v ^ 2 * yf365 val e ≤ sm.totalVar K := by
  obtain ⟨n1, n2, n3, n4, n5⟩ := surface_new h
  have hd' : (s.smiles.map Smile.expiry).Nodup := n3.nodup_iff.2 hd
  rcases surface_cases ks n4 n2 hK (surface_pos h he) with ⟨q, hq, h', hv'⟩ | ⟨q, _, h', ha, hv'⟩ |
    ⟨_, q, h', ha, hv'⟩ | ⟨pre, lo, hi, post, hsp, g1, g2, hv'⟩
  · rw [hv] at hv'
    injection hv' with hv'
    rw [hv', ← h', ← (n5 q hq).2]
    exact totalVar_mono n4 hd' hm hq hsm (by omega)
  · rw [hv] at hv'
    injection hv' with hv'
    have hq : q ∈ s.smiles := by rw [h']; simp
    have h1 : v ^ 2 * yf365 val e ≤ q.totalVar K := by
      rw [hv', Smile.totalVar, (n5 q hq).2]
      exact mul_le_mul_of_nonneg_left (yf365_lt (ha q hq)).le (sq_nonneg _)
    refine h1.trans (totalVar_mono n4 hd' hm hq hsm ?_)
    rw [h'] at hsm n4
    rcases List.mem_cons.1 hsm with rfl | hsm
    · exact le_rfl
    · exact (List.pairwise_cons.1 (List.pairwise_map.1 n4)).1 sm hsm
  · have := ha sm hsm; omega
  · have h1 := (C35_between ks h hK hsp g1 g2 hv).2
    have hlo : lo ∈ s.smiles := by rw [hsp]; simp
    have hhi : hi ∈ s.smiles := by rw [hsp]; simp
    have : lo.totalVar K ≤ hi.totalVar K := totalVar_mono n4 hd' hm hlo hhi (by omega)
    rw [max_eq_right this] at h1
    refine h1.trans (totalVar_mono n4 hd' hm hhi hsm ?_)
    obtain ⟨s1, s2⟩ := sorted_split (hsp ▸ n4)
    rw [hsp] at hsm
    simp only [List.mem_append, List.mem_cons] at hsm
    rcases hsm with hsm | rfl | rfl | hsm
    · have := s1 sm hsm; omega
    · omega
    · exact le_rfl
    · exact s2 sm hsm

/-- From an earlier pillar on the total variance is at least that pillar's. -/
theorem pillar_le_var (ks : KeySearch) {val e : Int} {ps : List VolPillar} {s : FxVolSurface}
    {K v : ℝ} {sm : Smile} (h : FxVolSurface.new val ps = .ok s)
    (hd : (ps.map VolPillar.expiry).Nodup)
    (hm : s.smiles.Pairwise fun a b => a.totalVar K ≤ b.totalVar K) (hK : 0 < K) (he : val < e)
    (hv : s.volatility ks e K = .ok v) (hsm : sm ∈ s.smiles) (hle : sm.expiry ≤ e) :
    sm.totalVar K ≤ v ^ 2 * yf365 val e := by
  obtain ⟨n1, n2, n3, n4, n5⟩ := surface_new h
  have hd' : (s.smiles.map Smile.expiry).Nodup := n3.nodup_iff.2 hd
  rcases surface_cases ks n4 n2 hK (surface_pos h he) with ⟨q, hq, h', hv'⟩ | ⟨q, _, h', ha, hv'⟩ |
    ⟨_, q, h', ha, hv'⟩ | ⟨pre, lo, hi, post, hsp, g1, g2, hv'⟩
  · rw [hv] at hv'
    injection hv' with hv'
    rw [hv', ← h', ← (n5 q hq).2]
    exact totalVar_mono n4 hd' hm hsm hq (by omega)
  · have := ha sm hsm; omega
  · rw [hv] at hv'
    injection hv' with hv'
    have hq : q ∈ s.smiles := by rw [h']; simp
    have h1 : q.totalVar K ≤ v ^ 2 * yf365 val e := by
      rw [hv', Smile.totalVar, (n5 q hq).2]
      exact mul_le_mul_of_nonneg_left (yf365_lt (ha q hq)).le (sq_nonneg _)
    refine (totalVar_mono n4 hd' hm hsm hq ?_).trans h1
    rw [h'] at hsm n4
    rcases List.mem_append.1 hsm with hsm | hsm
    · exact (List.pairwise_append.1 (List.pairwise_map.1 n4)).2.2 sm hsm q (by simp)
    · rw [List.mem_singleton.1 hsm]
  · have h1 := (C35_between ks h hK hsp g1 g2 hv).1
    have hlo : lo ∈ s.smiles := by rw [hsp]; simp
    have hhi : hi ∈ s.smiles := by rw [hsp]; simp
    have : lo.totalVar K ≤ hi.totalVar K := totalVar_mono n4 hd' hm hlo hhi (by omega)
    rw [min_eq_left this] at h1
    refine (totalVar_mono n4 hd' hm hsm hlo ?_).trans h1
    obtain ⟨s1, s2⟩ := sorted_split (hsp ▸ n4)
    rw [hsp] at hsm
    simp only [List.mem_append, List.mem_cons] at hsm
    rcases hsm with hsm | rfl | rfl | hsm
    · exact s1 sm hsm
    · exact le_rfl
    · omega
    · have := s2 sm hsm; omega

/-- C35: if the pillars' total variances at a strike do not decrease with expiry (no calendar
arbitrage at the pillars; expiries all different), total variance does not decrease between
any two expiries whatsoever, inside, outside or across pillars. -/
theorem C35_monotone (ks : KeySearch) {val e₁ e₂ : Int} {ps : List VolPillar} {s : FxVolSurface}
    {K v₁ v₂ : ℝ} (h : FxVolSurface.new val ps = .ok s) (hd : (ps.map VolPillar.expiry).Nodup)
    (hm : s.smiles.Pairwise fun a b => a.totalVar K ≤ b.totalVar K) (hK : 0 < K) (h1 : val < e₁)
    (h12 : e₁ ≤ e₂) (hv₁ : s.volatility ks e₁ K = .ok v₁) (hv₂ : s.volatility ks e₂ K = .ok v₂) :
    v₁ ^ 2 * yf365 val e₁ ≤ v₂ ^ 2 * yf365 val e₂ := by
  obtain ⟨n1, n2, n3, n4, n5⟩ := surface_new h
  by_cases hmid : ∃ sm ∈ s.smiles, e₁ ≤ sm.expiry ∧ sm.expiry ≤ e₂
  · obtain ⟨sm, hsm, a, b⟩ := hmid
    exact (var_le_pillar ks h hd hm hK h1 hv₁ hsm a).trans
      (pillar_le_var ks h hd hm hK (by omega) hv₂ hsm b)
  have hno : ∀ sm ∈ s.smiles, e₁ ≤ sm.expiry → e₂ < sm.expiry := by
    intro sm hsm hle
    by_contra hc
    exact hmid ⟨sm, hsm, hle, by omega⟩
  have hyf : yf365 val e₁ ≤ yf365 val e₂ := by
    rcases eq_or_lt_of_le h12 with rfl | hlt
    · exact le_rfl
    · exact (yf365_lt hlt).le
  rcases surface_cases ks n4 n2 hK (surface_pos h h1) with ⟨q, hq, h', -⟩ | ⟨q, _, h', ha, hv'⟩ |
    ⟨_, q, h', ha, hv'⟩ | ⟨pre, lo, hi, post, hsp, g1, g2, -⟩
  · exact absurd ⟨q, hq, by omega, by omega⟩ hmid
  · have := C35_before ks h hK (e := e₂) (by omega) h'
      (hno q (by rw [h']; simp) (ha q (by rw [h']; simp)).le)
    rw [hv₂] at this
    rw [hv₁] at hv'
    injection this with this
    injection hv' with hv'
    rw [this, hv']
    exact mul_le_mul_of_nonneg_left hyf (sq_nonneg _)
  · have := C35_after ks h hK (e := e₂) (by omega) h'
      (lt_of_lt_of_le (ha q (by rw [h']; simp)) h12)
    rw [hv₂] at this
    rw [hv₁] at hv'
    injection this with this
    injection hv' with hv'
    rw [this, hv']
    exact mul_le_mul_of_nonneg_left hyf (sq_nonneg _)
  · have hhi : hi ∈ s.smiles := by rw [hsp]; simp
    have hlo : lo ∈ s.smiles := by rw [hsp]; simp
    obtain ⟨a, ha, -, ea⟩ := C35_interpolation ks h hK hsp g1 g2
    obtain ⟨b, hb, -, eb⟩ := C35_interpolation ks h hK hsp (by omega) (hno hi hhi g2.le)
    rw [hv₁] at ha
    rw [hv₂] at hb
    injection ha with ha
    injection hb with hb
    rw [ha, hb, ea, eb]
    have hle : lo.totalVar K ≤ hi.totalVar K :=
      totalVar_mono n4 (n3.nodup_iff.2 hd) hm hlo hhi (by omega)
    have w1 : (0:ℝ) < ((hi.expiry - lo.expiry : Int) : ℝ) := by exact_mod_cast (by omega)
    have w2 : ((e₁ - lo.expiry : Int) : ℝ) ≤ ((e₂ - lo.expiry : Int) : ℝ) := by
      exact_mod_cast (by omega)
    have := div_le_div_of_nonneg_right w2 w1.le
    have := mul_le_mul_of_nonneg_right this (sub_nonneg.2 hle)
    linarith

/-- Two sample pillars build a surface with a gap to interpolate in. -/
theorem sampleSurface : ∃ s lo hi, FxVolSurface.new 0 [samplePillar 365, samplePillar 100] = .ok s ∧
    s.smiles = [lo, hi] ∧ lo.expiry = 100 ∧ hi.expiry = 365 := by
  obtain ⟨a, ha⟩ := samplePillar_built 365 (T := yf365 0 365) (yf365_after (by norm_num))
  obtain ⟨b, hb⟩ := samplePillar_built 100 (T := yf365 0 100) (yf365_after (by norm_num))
  have ea : a.expiry = 365 := (fromPillar_dates ha).2.1
  have eb : b.expiry = 100 := (fromPillar_dates hb).2.1
  refine ⟨⟨0, [b, a]⟩, b, a, ?_, rfl, eb, ea⟩
  have hbuild : buildSmiles 0 [samplePillar 365, samplePillar 100] = .ok [a, b] := by
    rw [buildSmiles, show (samplePillar 365).expiry = 365 from rfl, ha, ok_bind, buildSmiles,
      show (samplePillar 100).expiry = 100 from rfl, hb, ok_bind, buildSmiles]
    rfl
  unfold FxVolSurface.new
  dsimp only
  rw [hbuild, ok_bind]
  have : [a, b].mergeSort (fun x y => decide (x.expiry ≤ y.expiry)) = [b, a] := by
    simp [List.mergeSort, List.merge, List.MergeSort.Internal.splitInTwo, ea, eb]
  rw [this]

/-- Non-vacuity of C35: 200 days lies between the sample pillars; 30 days before the first
and 500 days after the last. -/
example : ∃ (s : FxVolSurface) (lo hi : Smile),
    FxVolSurface.new 0 [samplePillar 365, samplePillar 100] = .ok s ∧
    s.volatility KeySearch.std 30 1 = .ok (lo.volatility 1) ∧
    s.volatility KeySearch.std 500 1 = .ok (hi.volatility 1) ∧
    ∃ v, s.volatility KeySearch.std 200 1 = .ok v ∧
      v ^ 2 * yf365 0 200 = lo.totalVar 1 + 100 / 265 * (hi.totalVar 1 - lo.totalVar 1) := by
  obtain ⟨s, lo, hi, h, hsp, e1, e2⟩ := sampleSurface
  obtain ⟨v, hv, -, hi'⟩ := C35_interpolation KeySearch.std (e := 200) (K := 1) (pre := [])
    (post := []) h one_pos hsp (by omega) (by omega)
  refine ⟨s, lo, hi, h, C35_before (e := 30) _ h one_pos (by norm_num) hsp (by omega),
    C35_after (e := 500) (pre := [lo]) _ h one_pos (by norm_num) hsp (by omega), v, hv, ?_⟩
  rw [hi', e1, e2]
  norm_num

/-- Non-vacuity of `C35_monotone`: a surface with one pillar, queried on both sides of it. -/
example : ∃ (s : FxVolSurface) (v₁ v₂ : ℝ), FxVolSurface.new 0 [samplePillar 365] = .ok s ∧
    s.volatility KeySearch.std 30 1 = .ok v₁ ∧ s.volatility KeySearch.std 400 1 = .ok v₂ ∧
    v₁ ^ 2 * yf365 0 30 ≤ v₂ ^ 2 * yf365 0 400 := by
  obtain ⟨a, ha⟩ := samplePillar_built 365 (T := yf365 0 365) (yf365_after (by norm_num))
  have h : FxVolSurface.new 0 [samplePillar 365] = .ok ⟨0, [a]⟩ := by
    unfold FxVolSurface.new
    dsimp only
    rw [buildSmiles, show (samplePillar 365).expiry = 365 from rfl, ha, ok_bind, buildSmiles,
      ok_bind, ok_bind, List.mergeSort_singleton]
  obtain ⟨v₁, h1⟩ := C35_answered KeySearch.std (e := 30) h (one_pos (α := ℝ)) (by norm_num)
  obtain ⟨v₂, h2⟩ := C35_answered KeySearch.std (e := 400) h (one_pos (α := ℝ)) (by norm_num)
  exact ⟨_, v₁, v₂, h, h1, h2, C35_monotone KeySearch.std h (by simp) (List.pairwise_singleton _ _)
    one_pos (by norm_num) (by norm_num) h1 h2⟩

end Verif
