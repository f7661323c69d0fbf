import Verif.Spec.QuoteErrors
import Verif.Props.CurveStrip
import Verif.Lemmas.Locality

/-!
# Lemmas on curves stripped from nearby quotes
-/

namespace Verif

open Classical Outcome

theorem StrippedNear.mono {ε δ : ℝ} (h : ε ≤ δ) {p p' : Pillar} (hp : StrippedNear ε p p') : StrippedNear δ p p' :=
  ⟨hp.1, hp.2.1, hp.2.2.1, hp.2.2.2.1, hp.2.2.2.2.trans h⟩

theorem stripped_dates {ε : ℝ} {ps ps' : List Pillar} (hn : List.Forall₂ (StrippedNear ε) ps ps') :
    ps'.map Pillar.date = ps.map Pillar.date := by
  induction hn with
  | nil => rfl
  | cons h _ ih => simp [h.2.1, ih]

theorem same_of_date {ps : List Pillar} (ho : (ps.map Pillar.date).Nodup) {a b : Pillar} (ha : a ∈ ps) (hb : b ∈ ps)
    (h : a.date = b.date) : a = b :=
  List.inj_on_of_nodup_map ho ha hb h

theorem scanRelated_near {ε : ℝ} {t : Int} {ps ps' : List Pillar} (hn : List.Forall₂ (StrippedNear ε) ps ps') :
    ∀ {f f' : Pillar}, StrippedNear ε f f' →
      StrippedNear ε (scanRelated t f ps).1 (scanRelated t f' ps').1 ∧
      (((scanRelated t f ps).2 = none ∧ (scanRelated t f' ps').2 = none) ∨
        ∃ s ∈ ps, ∃ s' ∈ ps', (scanRelated t f ps).2 = some s ∧ (scanRelated t f' ps').2 = some s' ∧
          StrippedNear ε s s') := by
  induction hn with
  | nil => intro f f' h; exact ⟨h, .inl ⟨rfl, rfl⟩⟩
  | @cons a b l l' hab _ ih =>
    intro f f' h
    rw [scanRelated.eq_def t f, scanRelated.eq_def t f']
    dsimp only
    by_cases hc : a.firstSettle < t ∧ t ≤ a.date
    · have hc' : b.firstSettle < t ∧ t ≤ b.date := by rw [hab.1, hab.2.1]; exact hc
      rw [if_pos hc, if_pos hc']
      exact ⟨h, .inr ⟨a, by simp, b, by simp, rfl, rfl, hab⟩⟩
    · have hc' : ¬ (b.firstSettle < t ∧ t ≤ b.date) := by rw [hab.1, hab.2.1]; exact hc
      rw [if_neg hc, if_neg hc']
      obtain ⟨k1, k2⟩ := ih hab
      refine ⟨k1, k2.imp id ?_⟩
      rintro ⟨s, hs, s', hs', k⟩
      exact ⟨s, by simp [hs], s', by simp [hs'], k⟩

theorem relatedPillar_near {ε : ℝ} {t : Int} {ps ps' : List Pillar} (hn : List.Forall₂ (StrippedNear ε) ps ps')
    (ho : (ps.map Pillar.date).Nodup) {p : Pillar} (h : relatedPillar ps t = .ok p) :
    ∃ p', relatedPillar ps' t = .ok p' ∧ StrippedNear ε p p' := by
  have ho' : (ps'.map Pillar.date).Nodup := by rw [stripped_dates hn]; exact ho
  cases hn with
  | nil => simp [relatedPillar] at h
  | @cons a b l l' hab hl =>
    obtain ⟨k1, k2⟩ := scanRelated_near (t := t) (.cons hab hl) hab
    have sec : ∃ s s', (scanRelated t a (a :: l)).2.getD a = s ∧ (scanRelated t b (b :: l')).2.getD b = s' ∧
        s ∈ a :: l ∧ s' ∈ b :: l' ∧ StrippedNear ε s s' := by
      rcases k2 with ⟨e, e'⟩ | ⟨s, hs, s', hs', e, e', hss⟩
      · exact ⟨a, b, by rw [e]; rfl, by rw [e']; rfl, by simp, by simp, hab⟩
      · exact ⟨s, s', by rw [e]; rfl, by rw [e']; rfl, hs, hs', hss⟩
    obtain ⟨s, s', e, e', hs, hs', hss⟩ := sec
    have heq : s = a ↔ s' = b := by
      constructor
      · intro g
        exact same_of_date ho' hs' (by simp) (by rw [hss.2.1, hab.2.1, g])
      · intro g
        exact same_of_date ho hs (by simp) (by rw [← hss.2.1, ← hab.2.1, g])
    have fst : ∃ c c', (if s = a then a else (scanRelated t a (a :: l)).1) = c ∧
        (if s' = b then b else (scanRelated t b (b :: l')).1) = c' ∧ StrippedNear ε c c' := by
      by_cases g : s = a
      · exact ⟨a, b, if_pos g, if_pos (heq.1 g), hab⟩
      · exact ⟨_, _, if_neg g, if_neg (fun x => g (heq.2 x)), k1⟩
    obtain ⟨c, c', ec, ec', hcc⟩ := fst
    rw [related_eq rfl e ec] at h
    rw [related_eq rfl e' ec']
    obtain rfl := ok.inj h
    refine ⟨_, rfl, ?_⟩
    rw [hss.2.1, hcc.2.1]
    split
    · exact hss
    · exact hcc

/-- The logarithm of a futures discount factor. -/
theorem futDiscount_log {tau r z t : ℝ} (h : 0 < 1 + tau * r) :
    Real.log (1 / (1 + tau * r) * Real.exp (-z * t)) = -Real.log (1 + tau * r) - z * t := by
  rw [Real.log_mul (by positivity) (Real.exp_ne_zero _), Real.log_exp, one_div, Real.log_inv]
  ring

theorem yf365_add (a b c : Int) : yf365 a b + yf365 b c = yf365 a c := by
  unfold yf365
  push_cast
  ring

theorem yf365_nonneg_of {a b : Int} (h : a ≤ b) : 0 ≤ yf365 a b := by
  unfold yf365
  refine div_nonneg ?_ (by norm_num)
  exact_mod_cast (by omega)

theorem yf365_pos_of {a b : Int} (h : a < b) : 0 < yf365 a b := by
  unfold yf365
  refine div_pos ?_ (by norm_num)
  exact_mod_cast (by omega)

theorem futDiscount_near {ε : ℝ} {val m : Int} {q q' : FuturesQuote} {ps ps' : List Pillar}
    (hq : FuturesNear ε val q q') (hn : List.Forall₂ (StrippedNear ε) ps ps') (ho : (ps.map Pillar.date).Nodup)
    (hm : q.maturityDate val = .ok m) {d : ℝ} (h : q.discount val ps = .ok d) :
    ∃ d', q'.discount val ps' = .ok d' ∧ 0 < d ∧ 0 < d' ∧ val < m ∧
      |Real.log d' - Real.log d| ≤ ε * yf365 val m := by
  obtain ⟨⟨v, c, rfl⟩, hb⟩ := hq
  obtain ⟨s, m1, tau, p, hs, hm1, ht, hp, rfl⟩ := futDiscount_ok h
  rw [hm] at hm1
  obtain rfl := ok.inj hm1
  obtain ⟨b1, b2, b3, b4, b5⟩ := hb s m tau hs hm ht
  obtain ⟨p', hp', hpp⟩ := relatedPillar_near hn ho hp
  refine ⟨1 / (1 + tau * FuturesQuote.impliedQuote { q with value := v, convexity := c }) *
    Real.exp (-p'.zeroRate * yf365 val s), ?_, by positivity, ?_, by omega, ?_⟩
  · unfold FuturesQuote.discount
    rw [show FuturesQuote.settleDate { q with value := v, convexity := c } val = .ok s from hs, ok_bind,
      show FuturesQuote.maturityDate { q with value := v, convexity := c } val = .ok m from hm, ok_bind, ht, ok_bind,
      hp', ok_bind]
  · exact mul_pos (one_div_pos.2 b4) (Real.exp_pos _)
  · rw [futDiscount_log b3, futDiscount_log b4, ← yf365_add val s m, mul_add]
    have e : |(p'.zeroRate - p.zeroRate) * yf365 val s| ≤ ε * yf365 val s := by
      rw [abs_mul, abs_of_nonneg (yf365_nonneg_of b1)]
      exact mul_le_mul_of_nonneg_right hpp.2.2.2.2 (yf365_nonneg_of b1)
    rw [abs_le] at e b5 ⊢
    constructor <;> nlinarith [e.1, e.2, b5.1, b5.2]

theorem sources_near {ε : ℝ} {ps ps' : List Pillar} (hn : List.Forall₂ (StrippedNear ε) ps ps') :
    (ps'.all fun p => decide (p.source ≠ .futures)) = (ps.all fun p => decide (p.source ≠ .futures)) := by
  induction hn with
  | nil => rfl
  | cons h _ ih => simp only [List.all_cons, ih, h.2.2.1]

theorem nextFutures_near {ε : ℝ} {val : Int} {q q' : FuturesQuote} {ps ps' : List Pillar}
    (hq : FuturesNear ε val q q') (hn : List.Forall₂ (StrippedNear ε) ps ps') (ho : (ps.map Pillar.date).Nodup)
    (hf : ∃ p ∈ ps, p.source = .futures) {z : ℝ} (h : q.zeroRate val ps = .ok z) :
    ∃ z', q'.zeroRate val ps' = .ok z' ∧ |z' - z| ≤ ε := by
  unfold FuturesQuote.zeroRate at h ⊢
  obtain ⟨d, hd, h⟩ := bind_eq_ok.1 h
  obtain ⟨m, hm, h⟩ := bind_eq_ok.1 h
  obtain ⟨d', hd', p1, p2, hvm, hb⟩ := futDiscount_near hq hn ho hm hd
  obtain ⟨⟨v, c, rfl⟩, -⟩ := hq
  have hc : ¬ (ps.all fun p => decide (p.source ≠ .futures)) = true := by
    obtain ⟨p, hp, hs⟩ := hf
    simp only [List.all_eq_true, decide_eq_true_eq, not_forall]
    exact ⟨p, hp, fun h => h hs⟩
  rw [if_neg hc] at h
  obtain rfl := ok.inj h
  rw [hd', ok_bind, show FuturesQuote.maturityDate { q with value := v, convexity := c } val = .ok m from hm, ok_bind,
    sources_near hn, if_neg hc]
  refine ⟨_, rfl, ?_⟩
  have hy := yf365_pos_of hvm
  rw [← sub_div, abs_div, abs_of_pos hy, div_le_iff₀ hy, neg_sub_neg, abs_sub_comm]
  exact hb

theorem addFutures_near {ε : ℝ} {val : Int} {qs qs' : List FuturesQuote}
    (hq : List.Forall₂ (FuturesNear ε val) qs qs') : ∀ {ps ps' out : List Pillar},
    List.Forall₂ (StrippedNear ε) ps ps' → (∃ p ∈ ps, p.source = .futures) → addFutures val qs ps = .ok out →
    (out.map Pillar.date).Nodup → ∃ out', addFutures val qs' ps' = .ok out' ∧ List.Forall₂ (StrippedNear ε) out out' := by
  induction hq with
  | nil =>
    intro ps ps' out hn _ h _
    rw [addFutures.eq_def] at h
    obtain rfl := ok.inj h
    exact ⟨ps', rfl, hn⟩
  | @cons q q' qs qs' hqq _ ih =>
    intro ps ps' out hn hf h ho
    have hsub : (ps.map Pillar.date).Nodup := by
      obtain ⟨l, rfl, -⟩ := addFutures_spec h
      rw [List.map_append] at ho
      exact (List.nodup_append.1 ho).1
    rw [addFutures.eq_def] at h
    simp only [bind_eq_ok] at h
    obtain ⟨s, hs, m, hm, z, hz, d, hd, h⟩ := h
    obtain ⟨z', hz', hzz⟩ := nextFutures_near hqq hn hsub hf hz
    obtain ⟨d', hd', -⟩ := futDiscount_near hqq hn hsub hm hd
    have hs' : q'.settleDate val = .ok s := by obtain ⟨⟨v, c, rfl⟩, -⟩ := hqq; exact hs
    have hm' : q'.maturityDate val = .ok m := by obtain ⟨⟨v, c, rfl⟩, -⟩ := hqq; exact hm
    have hn' : List.Forall₂ (StrippedNear ε) (ps ++ [⟨s, m, q.value, z, d, .futures, false⟩])
        (ps' ++ [⟨s, m, q'.value, z', d', .futures, false⟩]) :=
      List.rel_append hn (.cons ⟨rfl, rfl, rfl, rfl, hzz⟩ .nil)
    obtain ⟨out', h', hout⟩ := ih hn' (by obtain ⟨p, hp, e⟩ := hf; exact ⟨p, by simp [hp], e⟩) h ho
    refine ⟨out', ?_, hout⟩
    rw [addFutures.eq_def]
    simp only [hs', hm', hz', hd', ok_bind]
    exact h'

/-- The product of the loop, off by at most `ε` times the time to the last date. -/
theorem cumDiscount_near {ε : ℝ} {ps ps' : List Pillar} (hn : List.Forall₂ (StrippedNear ε) ps ps') :
    ∀ {start : Int} {acc acc' : ℝ}, 0 < acc → 0 < acc' →
    (ps.map Pillar.date).Pairwise (· < ·) → (∀ p ∈ ps, start ≤ p.date) →
    ∀ {l : Pillar}, ps.getLast? = some l →
      |Real.log (cumDiscount start ps' acc') - Real.log (cumDiscount start ps acc)|
        ≤ |Real.log acc' - Real.log acc| + ε * yf365 start l.date := by
  induction hn with
  | nil => intro _ _ _ _ _ _ _ l hl; simp at hl
  | @cons a b as bs hab hr ih =>
    intro start acc acc' h h' ho hst l hl
    rw [cumDiscount.eq_def start (b :: bs), cumDiscount.eq_def start (a :: as)]
    dsimp only
    rw [hab.2.1]
    have step : |Real.log (acc' * Real.exp (-b.zeroRate * yf365 start a.date)) -
        Real.log (acc * Real.exp (-a.zeroRate * yf365 start a.date))|
        ≤ |Real.log acc' - Real.log acc| + ε * yf365 start a.date := by
      rw [Real.log_mul h'.ne' (Real.exp_ne_zero _), Real.log_mul h.ne' (Real.exp_ne_zero _), Real.log_exp, Real.log_exp]
      have hy := yf365_nonneg_of (hst a (by simp))
      have e : |(b.zeroRate - a.zeroRate) * yf365 start a.date| ≤ ε * yf365 start a.date := by
        rw [abs_mul, abs_of_nonneg hy]
        exact mul_le_mul_of_nonneg_right hab.2.2.2.2 hy
      have := abs_add_le (Real.log acc' - Real.log acc) (-((b.zeroRate - a.zeroRate) * yf365 start a.date))
      rw [abs_neg] at this
      refine le_trans (le_of_eq ?_) (this.trans (add_le_add_right e _))
      congr 1
      ring
    rw [List.map_cons, List.pairwise_cons] at ho
    cases hr with
    | nil =>
      simp only [List.getLast?_singleton, Option.some.injEq] at hl
      subst hl
      exact step
    | @cons a2 b2 as2 bs2 hab2 hr2 =>
      have hl' : (a2 :: as2).getLast? = some l := by rwa [List.getLast?_cons_cons] at hl
      have k := ih (start := a.date) (mul_pos h (Real.exp_pos (-a.zeroRate * yf365 start a.date)))
        (mul_pos h' (Real.exp_pos (-b.zeroRate * yf365 start a.date))) ho.2
        (fun p hp => (ho.1 p.date (List.mem_map_of_mem hp)).le) hl'
      refine k.trans ?_
      rw [← yf365_add start a.date l.date, mul_add]
      linarith

theorem getLast_near {ε : ℝ} {ps ps' : List Pillar} (hn : List.Forall₂ (StrippedNear ε) ps ps') {l : Pillar}
    (h : ps.getLast? = some l) : ∃ l', ps'.getLast? = some l' ∧ StrippedNear ε l l' := by
  induction hn with
  | nil => simp at h
  | @cons a b as bs hab hr ih =>
    cases hr with
    | nil =>
      simp only [List.getLast?_singleton, Option.some.injEq] at h
      subst h
      exact ⟨b, rfl, hab⟩
    | cons hab2 hr2 =>
      rw [List.getLast?_cons_cons] at h ⊢
      exact ih h

theorem firstFutures_near {ε : ℝ} {val m : Int} {q q' : FuturesQuote} {ps ps' : List Pillar} {l : Pillar}
    (hq : FuturesNear ε val q q') (hn : List.Forall₂ (StrippedNear ε) ps ps')
    (ho : (ps.map Pillar.date).Pairwise (· < ·)) (hv : ∀ p ∈ ps, val ≤ p.date)
    (hf : ∀ p ∈ ps, p.source ≠ .futures) (hl : ps.getLast? = some l) (hm : q.maturityDate val = .ok m)
    (hlm : l.date < m) {z : ℝ} (h : q.zeroRate val ps = .ok z) :
    ∃ z', q'.zeroRate val ps' = .ok z' ∧
      |z' - z| ≤ ε * ((yf365 val m + yf365 val l.date) / (yf365 val m - yf365 val l.date)) := by
  have hnd : (ps.map Pillar.date).Nodup := ho.imp fun h => h.ne
  unfold FuturesQuote.zeroRate at h ⊢
  obtain ⟨d, hd, h⟩ := bind_eq_ok.1 h
  rw [hm, ok_bind] at h
  obtain ⟨d', hd', p1, p2, hvm, hb⟩ := futDiscount_near hq hn hnd hm hd
  obtain ⟨⟨v, c, rfl⟩, -⟩ := hq
  have hc : (ps.all fun p => decide (p.source ≠ .futures)) = true := by simpa using hf
  obtain ⟨l', hl', hll⟩ := getLast_near hn hl
  rw [if_pos hc, hl] at h
  obtain rfl := ok.inj h
  rw [hd', ok_bind, show FuturesQuote.maturityDate { q with value := v, convexity := c } val = .ok m from hm, ok_bind,
    sources_near hn, if_pos hc, hl']
  refine ⟨_, rfl, ?_⟩
  rw [hll.2.1]
  have hy := yf365_pos_of hlm
  have hcum := cumDiscount_near hn (start := val) one_pos one_pos ho hv hl
  have c1 := cumDiscount_pos ps val one_pos
  have c2 := cumDiscount_pos ps' val one_pos
  rw [sub_self, abs_zero, zero_add] at hcum
  rw [show yf365 val m - yf365 val l.date = yf365 l.date m by rw [← yf365_add val l.date m]; ring,
    ← sub_div, abs_div, abs_of_pos hy, mul_div_assoc', div_le_div_iff_of_pos_right hy,
    Real.log_div p2.ne' c2.ne', Real.log_div p1.ne' c1.ne', mul_add]
  rw [abs_le] at hb hcum ⊢
  constructor <;> linarith [hb.1, hb.2, hcum.1, hcum.2]

theorem deposit_near {ε : ℝ} {val : Int} {q q' : OisRate} (hq : DepositNear ε val q q') {p : Pillar}
    (h : q.pillar val = .ok p) : ∃ p', q'.pillar val = .ok p' ∧ StrippedNear ε p p' := by
  obtain ⟨hi, hb⟩ := hq
  obtain ⟨v, ix⟩ := q
  obtain ⟨v', ix'⟩ := q'
  dsimp only at hi hb
  subst hi
  unfold OisRate.pillar at h ⊢
  obtain ⟨s, hs, h⟩ := bind_eq_ok.1 h
  obtain ⟨m, hm, h⟩ := bind_eq_ok.1 h
  obtain ⟨z, hz, h⟩ := bind_eq_ok.1 h
  obtain ⟨d, hd, h⟩ := bind_eq_ok.1 h
  obtain rfl := ok.inj h
  unfold OisRate.zeroRate at hz
  rw [hs, ok_bind, hm, ok_bind] at hz
  obtain ⟨tau, ht, hz⟩ := bind_eq_ok.1 hz
  obtain rfl := ok.inj hz
  obtain ⟨b1, b2⟩ := hb s m tau hs hm ht
  have hs' : OisRate.settleDate ⟨v', ix'⟩ val = .ok s := hs
  have hm' : OisRate.maturityDate ⟨v', ix'⟩ val = .ok m := hm
  have hz' : OisRate.zeroRate ⟨v', ix'⟩ val = .ok (-(Real.log (1 / (1 + tau * v'))) / yf365 s m) := by
    unfold OisRate.zeroRate
    rw [hs', ok_bind, hm', ok_bind]
    dsimp only
    rw [ht, ok_bind]
  rw [hs', ok_bind, hm', ok_bind, hz', ok_bind, OisRate.discount, hz', ok_bind, hm', ok_bind]
  refine ⟨_, rfl, rfl, rfl, rfl, rfl, ?_⟩
  dsimp only
  have hy := yf365_pos_of b1
  rw [← sub_div, abs_div, abs_of_pos hy, div_le_iff₀ hy, one_div, one_div, Real.log_inv, Real.log_inv]
  simpa using b2

theorem cashAt_near {ε : ℝ} {val m : Int} {qs qs' : List OisRate} (hq : List.Forall₂ (DepositNear ε val) qs qs') :
    ∀ {out : List Pillar}, cashAt val m qs = .ok out →
      ∃ out', cashAt val m qs' = .ok out' ∧ List.Forall₂ (StrippedNear ε) out out' := by
  induction hq with
  | nil => intro out h; rw [cashAt] at h; obtain rfl := ok.inj h; exact ⟨[], rfl, .nil⟩
  | @cons q q' qs qs' hqq _ ih =>
    intro out h
    rw [cashAt] at h ⊢
    have hm : q'.maturityDate val = q.maturityDate val := by
      unfold OisRate.maturityDate OisRate.settleDate
      rw [hqq.1]
    rw [hm]
    obtain ⟨m', hm', h⟩ := bind_eq_ok.1 h
    rw [hm', ok_bind]
    by_cases hc : m' = m
    · rw [if_pos hc] at h ⊢
      obtain ⟨p, hp, h⟩ := bind_eq_ok.1 h
      obtain ⟨rest, hr, h⟩ := bind_eq_ok.1 h
      obtain rfl := ok.inj h
      obtain ⟨p', hp', hpp⟩ := deposit_near hqq hp
      obtain ⟨rest', hr', hrr⟩ := ih hr
      rw [hp', ok_bind, hr', ok_bind]
      exact ⟨_, rfl, .cons hpp hrr⟩
    · rw [if_neg hc] at h ⊢
      exact ih h

theorem cashPillars_near {ε : ℝ} {val : Int} {qs qs' : List OisRate} (hq : List.Forall₂ (DepositNear ε val) qs qs') :
    ∀ {ms : List Int} {out : List Pillar}, cashPillars val qs ms = .ok out →
      ∃ out', cashPillars val qs' ms = .ok out' ∧ List.Forall₂ (StrippedNear ε) out out' := by
  intro ms
  induction ms with
  | nil => intro out h; rw [cashPillars] at h; obtain rfl := ok.inj h; exact ⟨[], rfl, .nil⟩
  | cons m ms ih =>
    intro out h
    rw [cashPillars] at h ⊢
    obtain ⟨a, ha, h⟩ := bind_eq_ok.1 h
    obtain ⟨b, hb, h⟩ := bind_eq_ok.1 h
    obtain rfl := ok.inj h
    obtain ⟨a', ha', haa⟩ := cashAt_near hq ha
    obtain ⟨b', hb', hbb⟩ := ih hb
    rw [ha', ok_bind, hb', ok_bind]
    exact ⟨_, rfl, List.rel_append haa hbb⟩

theorem FuturesNear.mono {ε δ : ℝ} {val : Int} {q q' : FuturesQuote} (h : ε ≤ δ) (hq : FuturesNear ε val q q') :
    FuturesNear δ val q q' := by
  refine ⟨hq.1, fun s m tau hs hm ht => ?_⟩
  obtain ⟨b1, b2, b3, b4, b5⟩ := hq.2 s m tau hs hm ht
  exact ⟨b1, b2, b3, b4, b5.trans (mul_le_mul_of_nonneg_right h (yf365_pos_of b2).le)⟩

theorem cashAt_source {val m : Int} {qs : List OisRate} : ∀ {out : List Pillar}, cashAt val m qs = .ok out →
    ∀ p ∈ out, p.source = .ois := by
  induction qs with
  | nil => intro out h; rw [cashAt] at h; obtain rfl := ok.inj h; simp
  | cons q qs ih =>
    intro out h
    rw [cashAt] at h
    obtain ⟨m', hm', h⟩ := bind_eq_ok.1 h
    by_cases hc : m' = m
    · rw [if_pos hc] at h
      obtain ⟨p, hp, h⟩ := bind_eq_ok.1 h
      obtain ⟨rest, hr, h⟩ := bind_eq_ok.1 h
      obtain rfl := ok.inj h
      intro x hx
      rcases List.mem_cons.1 hx with rfl | hx
      · unfold OisRate.pillar at hp
        simp only [bind_eq_ok, ok.injEq] at hp
        obtain ⟨_, -, _, -, _, -, _, -, rfl⟩ := hp
        rfl
      · exact ih hr x hx
    · rw [if_neg hc] at h
      exact ih h

theorem cashPillars_source {val : Int} {qs : List OisRate} : ∀ {ms : List Int} {out : List Pillar},
    cashPillars val qs ms = .ok out → ∀ p ∈ out, p.source = .ois := by
  intro ms
  induction ms with
  | nil => intro out h; rw [cashPillars] at h; obtain rfl := ok.inj h; simp
  | cons m ms ih =>
    intro out h
    rw [cashPillars] at h
    obtain ⟨a, ha, h⟩ := bind_eq_ok.1 h
    obtain ⟨b, hb, h⟩ := bind_eq_ok.1 h
    obtain rfl := ok.inj h
    intro x hx
    rcases List.mem_append.1 hx with hx | hx
    · exact cashAt_source ha x hx
    · exact ih hb x hx

end Verif
