import Verif.Model.CurveStrip
import Verif.Props.YieldCurve
import Verif.Props.SwapValue
import Verif.Props.Imm
import Verif.Lemmas.Simulation

/-!
# C56, C57: futures quotes and the stripped curve
-/

namespace Verif

open Outcome Classical

/-! ### Helper lemmas -/

/-- On the first of a month one call of `next_date` decides. -/
theorem nextDate_first {y m f : Int} (h : fromYmdOpt y m 1 = some f) :
    ∃ r, immNextDate false 1 f = some (.ok r) ∧ isImmDate r false = true ∧ SameMonth r f ∧
      yearOf f = y ∧ monthOf f = m := by
  obtain ⟨hv, fy, fm, fd⟩ := fromYmdOpt_eq_some.1 h
  obtain ⟨r, hr, hs, -⟩ := immDate_of_month hv
  have hlt : f < r := by
    have := sameMonth_dayOf hs
    rw [isImmDate_iff] at hr
    omega
  refine ⟨r, ?_, hr, hs, fy, fm⟩
  rw [immNextDate_step hv hr hs, if_neg (by omega), if_pos hlt]

/-- The settlement date needs no more than one call of `next_date` each time: with any
amount of fuel `IMM::date` ends. -/
theorem futSettle_fuel (s : List Char) (ref : Int) : immDate 1 s ref ≠ none := by
  unfold immDate
  generalize isImmCode s false = c
  have hmain : ∀ y m f : Int, fromYmdOpt y m 1 = some f →
      (match immNextDate false 1 f with
        | some (ok r) =>
          if r < ref then
            match unwrap (fromYmdOpt (y + 10) m 1) with
            | ok f' => Option.map (fun o => some <$> o) (immNextDate false 1 f')
            | _ => some Outcome.panic
          else some (ok (some r))
        | some _ => some Outcome.panic
        | none => none) ≠ none := by
    intro y m f hf
    obtain ⟨r, hr, -⟩ := nextDate_first hf
    rw [hr]
    dsimp only
    split
    · unfold unwrap
      rcases hf' : fromYmdOpt (y + 10) m 1 with _ | f'
      · simp
      · obtain ⟨r', hr', -⟩ := nextDate_first hf'
        simp [hr']
    · simp
  rcases c with b | e | _
  · cases b
    · simp
    · dsimp only
      split
      · rename_i y m f hx
        refine hmain y m f ?_
        simp only [bind_eq_ok, ok.injEq, Prod.mk.injEq] at hx
        obtain ⟨_, _, _, _, _, _, _, _, g, hg, rfl, rfl, rfl⟩ := hx
        revert hg
        unfold unwrap
        split <;> simp_all
      · simp
  · simp
  · simp

theorem scanRelated_found {t : Int} {f b : Pillar} {pre post : List Pillar}
    (hpre : ∀ p ∈ pre, ¬ (p.firstSettle < t ∧ t ≤ p.date)) (hb : b.firstSettle < t ∧ t ≤ b.date) :
    scanRelated t f (pre ++ b :: post) = ((f :: pre).getLast (by simp), some b) := by
  induction pre generalizing f with
  | nil =>
    rw [List.nil_append, scanRelated.eq_def]
    dsimp only
    rw [if_pos hb]
    rfl
  | cons c pre ih =>
    rw [List.cons_append, scanRelated.eq_def]
    dsimp only
    rw [if_neg (hpre c (by simp)), ih fun p hp => hpre p (by simp [hp])]
    rw [List.getLast_cons (by simp : c :: pre ≠ [])]

theorem scanRelated_none {t : Int} {f : Pillar} {l : List Pillar}
    (hl : ∀ p ∈ l, ¬ (p.firstSettle < t ∧ t ≤ p.date)) : (scanRelated t f l).2 = none := by
  induction l generalizing f with
  | nil => rfl
  | cons c l ih =>
    rw [scanRelated.eq_def]
    dsimp only
    rw [if_neg (hl c (by simp))]
    exact ih fun p hp => hl p (by simp [hp])

theorem related_eq {t : Int} {p0 f b c : Pillar} {rest : List Pillar} {s : Option Pillar}
    (h : scanRelated t p0 (p0 :: rest) = (f, s)) (hb : s.getD p0 = b)
    (hc : (if b = p0 then p0 else f) = c) :
    relatedPillar (p0 :: rest) t = .ok (if b.date - t ≤ t - c.date then b else c) := by
  subst hb
  subst hc
  simp only [relatedPillar, h]
  exact (apply_ite Outcome.ok _ _ _).symm

/-- The dates and rate of a futures pillar. -/
theorem futDiscount_ok {q : FuturesQuote} {val : Int} {ps : List Pillar} {d : ℝ}
    (h : q.discount val ps = .ok d) :
    ∃ s m tau p, q.settleDate val = .ok s ∧ q.maturityDate val = .ok m ∧
      q.yearFraction s m = .ok tau ∧ relatedPillar ps s = .ok p ∧
      d = 1 / (1 + tau * q.impliedQuote) * Real.exp (-p.zeroRate * yf365 val s) := by
  unfold FuturesQuote.discount at h
  simp only [bind_eq_ok, ok.injEq] at h
  obtain ⟨s, hs, m, hm, tau, ht, p, hp, rfl⟩ := h
  exact ⟨s, m, tau, p, hs, hm, ht, hp, rfl⟩

theorem cumDiscount_pos (l : List Pillar) : ∀ (d : Int) {acc : ℝ}, 0 < acc → 0 < cumDiscount d l acc := by
  induction l with
  | nil => intro d acc h; exact h
  | cons p l ih => intro d acc h; exact ih _ (mul_pos h (Real.exp_pos _))

/-! ## C56: futures quotes -/

/-- C56: the settlement date of a futures quote is the earliest date from the valuation
date on that has the quote's code. -/
theorem C56_settle {q : FuturesQuote} {L D : Char} {val : Int} (hc : q.code = [L, D])
    (hL : L ∈ immLetters) (hD : D ∈ digits) (h1910 : 1910 ≤ yearOf val) (hmax : yearOf val ≤ 262120) :
    ∃ s, q.settleDate val = .ok s ∧ IsLeast {z | val ≤ z ∧ immCode z = .ok (some [L, D])} s := by
  obtain ⟨r, hr, hl⟩ := C21_date_isLeast hL hD h1910 hmax
  refine ⟨r, ?_, hl⟩
  unfold FuturesQuote.settleDate
  rw [hc, hr]

/-- C56: the maturity date is the third Wednesday of the month reached by advancing the
settlement date by the period of the contract. -/
theorem C56_maturity {q : FuturesQuote} {val m : Int} (h : q.maturityDate val = .ok m) :
    ∃ s t, q.settleDate val = .ok s ∧
      advance q.calendar s q.period q.convention q.endOfMonth = .ok t ∧
      yearOf m = yearOf t ∧ monthOf m = monthOf t ∧ weekdayOf m = .wed ∧ 15 ≤ dayOf m ∧ dayOf m ≤ 21 := by
  unfold FuturesQuote.maturityDate at h
  simp only [bind_eq_ok] at h
  obtain ⟨s, hs, t, ht, f, hf, h⟩ := h
  have hf' : fromYmdOpt (yearOf t) (monthOf t) 1 = some f := by
    revert hf
    unfold unwrap
    split <;> simp_all
  obtain ⟨r, hr, hi, hsm, hy, hm⟩ := nextDate_first hf'
  rw [hr] at h
  obtain rfl := ok.inj h
  rw [isImmDate_iff] at hi
  refine ⟨s, t, hs, ht, ?_⟩
  obtain ⟨e1, e2⟩ := hsm
  refine ⟨by omega, by omega, ?_⟩
  tauto

/-- C56: the pillar the settlement date of a futures is anchored on: the first pillar
whose span covers the date, or the pillar before it when that one is nearer.  Partial:
the date must be covered (see `C56_gap_false`). -/
theorem C56_anchor_partial {pre post : List Pillar} {a b : Pillar} {t : Int}
    (hn : ∀ p ∈ pre ++ [a], ¬ (p.firstSettle < t ∧ t ≤ p.date)) (hb : b.firstSettle < t ∧ t ≤ b.date) :
    relatedPillar (pre ++ a :: b :: post) t = .ok (if b.date - t ≤ t - a.date then b else a) := by
  have e : pre ++ a :: b :: post = (pre ++ [a]) ++ b :: post := by simp
  have hmain : ∀ p0 rest, pre ++ a :: b :: post = p0 :: rest →
      scanRelated t p0 (p0 :: rest) = (a, some b) ∧ b ≠ p0 := by
    intro p0 rest he
    constructor
    · rw [← he, e, scanRelated_found hn hb]
      rw [List.getLast_cons (by simp), List.getLast_append]
      simp
    · rintro rfl
      refine hn b ?_ hb
      cases pre with
      | nil => simp at he; simp [he.1]
      | cons c pre => simp at he; simp [he.1]
  have ht : t ≤ b.date := hb.2
  cases hl : pre ++ a :: b :: post with
  | nil => simp at hl
  | cons p0 rest =>
    obtain ⟨h1, h2⟩ := hmain p0 rest hl
    exact related_eq h1 rfl (if_neg h2)

/-- C56: a settlement date within the span of the first pillar is anchored on it. -/
theorem C56_anchor_first {rest : List Pillar} {a : Pillar} {t : Int}
    (ha : a.firstSettle < t ∧ t ≤ a.date) : relatedPillar (a :: rest) t = .ok a := by
  have h := scanRelated_found (f := a) (pre := []) (post := rest) (by simp) ha
  rw [related_eq h rfl (if_pos rfl)]
  split <;> rfl

/-- C56: a
settlement date beyond all pillars is anchored on the first one. -/
theorem C56_gap {rest : List Pillar} {a : Pillar} {t : Int}
    (hn : ∀ p ∈ a :: rest, ¬ (p.firstSettle < t ∧ t ≤ p.date)) : relatedPillar (a :: rest) t = .ok a := by
  have h : scanRelated t a (a :: rest) = ((scanRelated t a (a :: rest)).1, none) :=
    Prod.ext rfl (scanRelated_none hn)
  rw [related_eq h rfl (if_pos rfl)]
  split <;> rfl

theorem C56_gap_false :
    ¬ ∀ (ps : List Pillar) (t : Int) (p : Pillar), relatedPillar ps t = .ok p →
      ∀ q ∈ ps, |p.date - t| ≤ |q.date - t| := by
  intro h
  have := h [⟨0, 5, 0, 0, 1, .ois, false⟩, ⟨0, 50, 0, 0, 1, .ois, false⟩] 60 _
    (C56_gap (by simp)) ⟨0, 50, 0, 0, 1, .ois, false⟩ (by simp)
  norm_num at this

/-- C56: the discount factor of a futures pillar reproduces the quote: the simple forward
rate between settlement and maturity, taken from the anchor's rate, is the implied rate. -/
theorem C56_forward {q : FuturesQuote} {val : Int} {ps : List Pillar} {d : ℝ}
    (h : q.discount val ps = .ok d) :
    ∃ s m tau p, q.settleDate val = .ok s ∧ q.maturityDate val = .ok m ∧
      q.yearFraction s m = .ok tau ∧ relatedPillar ps s = .ok p ∧
      (tau ≠ 0 → 1 + tau * q.impliedQuote ≠ 0 →
        (Real.exp (-p.zeroRate * yf365 val s) / d - 1) / tau = q.impliedQuote) := by
  obtain ⟨s, m, tau, p, hs, hm, ht, hp, rfl⟩ := futDiscount_ok h
  refine ⟨s, m, tau, p, hs, hm, ht, hp, fun h0 h1 => ?_⟩
  have := (Real.exp_pos (-p.zeroRate * yf365 val s)).ne'
  field_simp
  ring

/-- C56: the rate implied by a futures price of `value` with a convexity adjustment. -/
theorem C56_implied (q : FuturesQuote) : q.impliedQuote * 100 = 100 - q.value + q.convexity := by
  unfold FuturesQuote.impliedQuote
  ring

/-- C56: once the curve contains a futures pillar, the zero rate of a futures is the
continuously compounded rate of its discount factor.  Partial: the first futures is
different (`C56_first_false`). -/
theorem C56_zero_partial {q : FuturesQuote} {val m : Int} {ps : List Pillar} {z d : ℝ}
    (hf : ∃ p ∈ ps, p.source = .futures) (hz : q.zeroRate val ps = .ok z)
    (hd : q.discount val ps = .ok d) (hm : q.maturityDate val = .ok m) (hne : m ≠ val) (hpos : 0 < d) :
    Real.exp (-z * yf365 val m) = d := by
  unfold FuturesQuote.zeroRate at hz
  rw [hd, ok_bind, hm, ok_bind, if_neg] at hz
  · obtain rfl := ok.inj hz
    have : yf365 val m ≠ 0 := by
      unfold yf365
      have : ((m - val : Int) : ℝ) ≠ 0 := by exact_mod_cast sub_ne_zero.2 hne
      positivity
    rw [neg_div, neg_neg, div_mul_cancel₀ _ this, Real.exp_log hpos]
  · obtain ⟨p, hp, hs⟩ := hf
    simp only [List.all_eq_true, decide_eq_true_eq, not_forall]
    exact ⟨p, hp, fun h => h hs⟩

/-- C56: the zero rate of the first futures is the forward rate from the last pillar to
its maturity that leads from the product of the pillars' discount factors to its own. -/
theorem C56_first {q : FuturesQuote} {val m : Int} {ps : List Pillar} {l : Pillar} {z d : ℝ}
    (hf : ∀ p ∈ ps, p.source ≠ .futures) (hl : ps.getLast? = some l) (hz : q.zeroRate val ps = .ok z)
    (hd : q.discount val ps = .ok d) (hm : q.maturityDate val = .ok m) (hne : m ≠ l.date) (hpos : 0 < d) :
    cumDiscount val ps 1 * Real.exp (-z * yf365 l.date m) = d := by
  unfold FuturesQuote.zeroRate at hz
  rw [hd, ok_bind, hm, ok_bind, if_pos (by simpa using hf), hl] at hz
  obtain rfl := ok.inj hz
  have : yf365 l.date m ≠ 0 := by
    unfold yf365
    have : ((m - l.date : Int) : ℝ) ≠ 0 := by exact_mod_cast sub_ne_zero.2 hne
    positivity
  have hc := cumDiscount_pos ps val one_pos
  rw [neg_div, neg_neg, div_mul_cancel₀ _ this, Real.exp_log (div_pos hpos hc)]
  field_simp

/-- A futures quote on the December 2023 contract at par, on a calendar without holidays. -/
noncomputable def sampleFutures (code : List Char) (value : ℝ) : FuturesQuote :=
  ⟨value, code, 0, .months 3, weekendsOnly, .following, false, fun a b => .ok (yf365 a b)⟩

theorem sampleFutures_settle (value : ℝ) :
    (sampleFutures ['Z', '3'] value).settleDate (ymd 2023 10 27) = .ok (ymd 2023 12 20) := by
  have : immDate 1 ['Z', '3'] (ymd 2023 10 27) = some (.ok (some (ymd 2023 12 20))) := by decide +kernel
  unfold FuturesQuote.settleDate sampleFutures
  rw [this]

theorem sampleFutures_maturity (value : ℝ) :
    (sampleFutures ['Z', '3'] value).maturityDate (ymd 2023 10 27) = .ok (ymd 2024 3 20) := by
  unfold FuturesQuote.maturityDate
  rw [sampleFutures_settle, ok_bind]
  have h1 : advance weekendsOnly (ymd 2023 12 20) (.months 3) .following false = .ok (ymd 2024 3 20) := by
    decide +kernel
  have h2 : fromYmdOpt (yearOf (ymd 2024 3 20)) (monthOf (ymd 2024 3 20)) 1 = some (ymd 2024 3 1) := by
    decide +kernel
  have h3 : immNextDate false 1 (ymd 2024 3 1) = some (.ok (ymd 2024 3 20)) := by decide +kernel
  show (advance weekendsOnly _ (.months 3) .following false >>= _) = _
  rw [h1, ok_bind, h2]
  show (match immNextDate false 1 (ymd 2024 3 1) with | some o => o | none => Outcome.panic) = _
  rw [h3]

/-- C56 refuted as stated for the first futures: its zero rate is not the rate of its
discount factor.  One cash pillar at 3% and a futures quoted at par (implied rate 0). -/
theorem C56_first_false :
    ¬ ∀ (q : FuturesQuote) (val m : Int) (ps : List Pillar) (z d : ℝ), q.zeroRate val ps = .ok z →
      q.discount val ps = .ok d → q.maturityDate val = .ok m → val < m → 0 < d →
      Real.exp (-z * yf365 val m) = d := by
  intro h
  have e2 : ymd 2023 12 20 = ymd 2023 10 27 + 54 := by decide +kernel
  have e3 : ymd 2024 3 20 = ymd 2023 10 27 + 145 := by decide +kernel
  set val := ymd 2023 10 27 with hval
  set p : Pillar := ⟨val, val + 34, 0, 3 / 100, 1, .ois, false⟩ with hp
  have hset := sampleFutures_settle 100
  have hmat := sampleFutures_maturity 100
  rw [e2] at hset
  rw [e3] at hmat
  have hrel : relatedPillar [p] (val + 54) = .ok p := C56_gap (by simp [hp])
  have hi : (sampleFutures ['Z', '3'] 100).impliedQuote = 0 := by
    norm_num [FuturesQuote.impliedQuote, sampleFutures]
  have hd : (sampleFutures ['Z', '3'] 100).discount val [p] =
      .ok (Real.exp (-(3 / 100) * yf365 val (val + 54))) := by
    unfold FuturesQuote.discount
    rw [hset, ok_bind, hmat, ok_bind]
    show ((Outcome.ok _ : Outcome ℝ) >>= _) = _
    rw [ok_bind, hrel, ok_bind, hi]
    norm_num [hp]
  have hz : ∃ z, (sampleFutures ['Z', '3'] 100).zeroRate val [p] = .ok z := by
    unfold FuturesQuote.zeroRate
    rw [hd, ok_bind, hmat, ok_bind, if_pos (by simp [hp])]
    exact ⟨_, rfl⟩
  obtain ⟨z, hz⟩ := hz
  have k1 := h _ _ _ _ _ _ hz hd hmat (by omega) (Real.exp_pos _)
  have k2 := C56_first (l := p) (by simp [hp]) rfl hz hd hmat (by simp [hp]) (Real.exp_pos _)
  simp only [cumDiscount, one_mul] at k2
  rw [← Real.exp_add, Real.exp_eq_exp] at k2
  rw [Real.exp_eq_exp] at k1
  simp only [yf365, hp] at k1 k2
  push_cast at k1 k2
  ring_nf at k1 k2
  linarith

/-- Non-vacuity of C56: a settlement date, a maturity, a discount factor and a zero rate
on a curve with a futures pillar that covers the settlement date. -/
example : ∃ z d, let p : Pillar := ⟨ymd 2023 9 20, ymd 2023 12 20, 95, 3 / 100, 1, .futures, false⟩
    let ps := [⟨ymd 2023 10 27, ymd 2023 11 30, 3, 3 / 100, 1, .ois, false⟩, p]
    relatedPillar ps (ymd 2023 12 20) = .ok p ∧
      (sampleFutures ['Z', '3'] 96).discount (ymd 2023 10 27) ps = .ok d ∧
      (sampleFutures ['Z', '3'] 96).zeroRate (ymd 2023 10 27) ps = .ok z ∧
      0 < d ∧ Real.exp (-z * yf365 (ymd 2023 10 27) (ymd 2024 3 20)) = d := by
  have b1 : ymd 2023 9 20 < ymd 2023 12 20 := by decide +kernel
  have b2 : ymd 2023 11 30 < ymd 2023 12 20 := by decide +kernel
  have b3 : ymd 2024 3 20 = ymd 2023 12 20 + 91 := by decide +kernel
  have b4 : ymd 2024 3 20 ≠ ymd 2023 10 27 := by decide +kernel
  set p : Pillar := ⟨ymd 2023 9 20, ymd 2023 12 20, 95, 3 / 100, 1, .futures, false⟩ with hp
  set ps : List Pillar := [⟨ymd 2023 10 27, ymd 2023 11 30, 3, 3 / 100, 1, .ois, false⟩, p] with hps
  have hr : relatedPillar ps (ymd 2023 12 20) = .ok p := by
    have := C56_anchor_partial (pre := []) (post := []) (t := ymd 2023 12 20)
      (a := ⟨ymd 2023 10 27, ymd 2023 11 30, 3, 3 / 100, 1, .ois, false⟩) (b := p)
      (by simp; omega) (by simp [hp, b1])
    rw [if_pos (by simp only [hp]; omega)] at this
    exact this
  have hd : ∃ d, (sampleFutures ['Z', '3'] 96).discount (ymd 2023 10 27) ps = .ok d ∧ 0 < d := by
    unfold FuturesQuote.discount
    rw [sampleFutures_settle, ok_bind, sampleFutures_maturity, ok_bind]
    refine ⟨1 / (1 + yf365 (ymd 2023 12 20) (ymd 2024 3 20) * (sampleFutures ['Z', '3'] 96).impliedQuote) *
      Real.exp (-p.zeroRate * yf365 (ymd 2023 10 27) (ymd 2023 12 20)), ?_, ?_⟩
    · show ((Outcome.ok _ : Outcome ℝ) >>= _) = _
      rw [ok_bind, hr, ok_bind]
    · refine mul_pos ?_ (Real.exp_pos _)
      rw [b3]
      norm_num [FuturesQuote.impliedQuote, sampleFutures, yf365]
  obtain ⟨d, hd, hpos⟩ := hd
  have hz : ∃ z, (sampleFutures ['Z', '3'] 96).zeroRate (ymd 2023 10 27) ps = .ok z := by
    unfold FuturesQuote.zeroRate
    rw [hd, ok_bind, sampleFutures_maturity, ok_bind, if_neg (by simp [hps, hp])]
    exact ⟨_, rfl⟩
  obtain ⟨z, hz⟩ := hz
  exact ⟨z, d, hr, hd, hz, hpos, C56_zero_partial ⟨p, by simp [hps], rfl⟩ hz hd (sampleFutures_maturity _) b4 hpos⟩

/-! ## C57: the stripped curve -/

/-- What is asked of the cash pillar `p` of a quote `q`. -/
def CashPillar (val : Int) (q : OisRate) (p : Pillar) : Prop :=
  q.settleDate val = .ok p.firstSettle ∧ q.maturityDate val = .ok p.date ∧
    q.zeroRate val = .ok p.zeroRate ∧ q.discount val = .ok p.discount ∧
    p.marketRate = q.value ∧ p.source = .ois ∧ (p.hidden = true ↔ q.index.period = .weeks 1)

/-- What is asked of the futures pillar `p` of a quote `q` added to `before`. -/
def FuturesPillar (val : Int) (q : FuturesQuote) (before : List Pillar) (p : Pillar) : Prop :=
  q.settleDate val = .ok p.firstSettle ∧ q.maturityDate val = .ok p.date ∧
    q.zeroRate val before = .ok p.zeroRate ∧ q.discount val before = .ok p.discount ∧
    p.marketRate = q.value ∧ p.source = .futures ∧ p.hidden = false

/-- What is asked of the swap pillar `p` added to `before`: the swap is worth nothing, up
to `eps`, on the curve ending with `p`. -/
def SwapPillar (eps : ℝ) (val : Int) (s : Swap) (before : List Pillar) (p : Pillar) : Prop :=
  s.settleDate val = .ok p.firstSettle ∧ s.maturityDate val = .ok p.date ∧
    p.source = .swap ∧ p.hidden = false ∧ p.discount = 0 ∧
    ∃ r, s.npv val ⟨val, before ++ [p]⟩ = .ok r ∧ |r| ≤ eps

/-- Contract of the root finder: what it returns is a root up to `eps`. -/
def RateSolver.Sound (eps : ℝ) (solve : RateSolver) : Prop :=
  ∀ f x, solve f = .ok x → ∃ r, f x = .ok r ∧ |r| ≤ eps

theorem unwrapResult_ok {α : Type} {o : Outcome α} {a : α} : unwrapResult o = .ok a ↔ o = .ok a := by
  cases o <;> simp [unwrapResult]

theorem isOneWeek_iff (p : Period) : isOneWeek p = true ↔ p = .weeks 1 := by
  unfold isOneWeek
  split <;> simp_all

theorem cash_pillar {q : OisRate} {val : Int} {p : Pillar} (h : q.pillar val = .ok p) :
    CashPillar val q p := by
  unfold OisRate.pillar at h
  simp only [bind_eq_ok, ok.injEq] at h
  obtain ⟨s, hs, m, hm, z, hz, d, hd, rfl⟩ := h
  exact ⟨hs, hm, hz, hd, rfl, rfl, isOneWeek_iff _⟩

theorem cashMaturities_spec {val : Int} {qs : List OisRate} {ms : List Int}
    (h : cashMaturities val qs = .ok ms) : List.Forall₂ (fun q m => q.maturityDate val = .ok m) qs ms := by
  induction qs generalizing ms with
  | nil =>
    rw [cashMaturities.eq_def] at h
    obtain rfl := ok.inj h
    exact .nil
  | cons q qs ih =>
    rw [cashMaturities.eq_def] at h
    simp only [bind_eq_ok, unwrapResult_ok, ok.injEq] at h
    obtain ⟨m, hm, rest, hr, rfl⟩ := h
    exact .cons hm (ih hr)

theorem cashAt_spec {val m : Int} {qs : List OisRate} {l : List Pillar}
    (h : cashAt val m qs = .ok l) :
    (∀ q ∈ qs, q.maturityDate val = .ok m → ∃ p, q.pillar val = .ok p) ∧
      ∀ ps, List.Forall₂ (fun q p => q.pillar val = .ok p) qs ps → l = ps.filter fun p => p.date = m := by
  induction qs generalizing l with
  | nil =>
    rw [cashAt.eq_def] at h
    obtain rfl := ok.inj h
    refine ⟨by simp, fun ps hps => ?_⟩
    cases hps
    rfl
  | cons q qs ih =>
    rw [cashAt.eq_def] at h
    dsimp only at h
    rw [bind_eq_ok] at h
    obtain ⟨m', hm', h⟩ := h
    rw [unwrapResult_ok] at hm'
    split at h
    · rename_i e
      subst e
      simp only [bind_eq_ok, ok.injEq] at h
      obtain ⟨p, hp, rest, hr, rfl⟩ := h
      obtain ⟨i1, i2⟩ := ih hr
      refine ⟨?_, ?_⟩
      · intro q' hq' hm
        rcases List.mem_cons.1 hq' with rfl | hq'
        · exact ⟨p, hp⟩
        · exact i1 q' hq' hm
      · rintro ps (_ | ⟨h1, h2⟩)
        rename_i p' ps
        rw [hp] at h1
        obtain rfl := ok.inj h1
        have hd := (cash_pillar hp).2.1
        rw [hm'] at hd
        have hd := ok.inj hd
        rw [List.filter_cons_of_pos (by simp [hd]), ← i2 ps h2]
    · rename_i e
      obtain ⟨i1, i2⟩ := ih h
      refine ⟨?_, ?_⟩
      · intro q' hq' hm
        rcases List.mem_cons.1 hq' with rfl | hq'
        · rw [hm'] at hm
          exact absurd (ok.inj hm) e
        · exact i1 q' hq' hm
      · rintro ps (_ | ⟨h1, h2⟩)
        rename_i p' ps
        have hd := (cash_pillar h1).2.1
        rw [hm'] at hd
        have hd := ok.inj hd
        rw [List.filter_cons_of_neg (by simp [← hd, e]), ← i2 ps h2]

theorem cashPillars_spec {val : Int} {qs : List OisRate} {ms : List Int} {l : List Pillar}
    (h : cashPillars val qs ms = .ok l) :
    (∀ q ∈ qs, ∀ m ∈ ms, q.maturityDate val = .ok m → ∃ p, q.pillar val = .ok p) ∧
      ∀ ps, List.Forall₂ (fun q p => q.pillar val = .ok p) qs ps →
        l = ms.flatMap fun m => ps.filter fun p => p.date = m := by
  induction ms generalizing l with
  | nil =>
    rw [cashPillars.eq_def] at h
    obtain rfl := ok.inj h
    exact ⟨by simp, by simp⟩
  | cons m ms ih =>
    rw [cashPillars.eq_def] at h
    simp only [bind_eq_ok, ok.injEq] at h
    obtain ⟨a, ha, b, hb, rfl⟩ := h
    obtain ⟨i1, i2⟩ := ih hb
    obtain ⟨j1, j2⟩ := cashAt_spec ha
    refine ⟨?_, ?_⟩
    · intro q hq m' hm'
      rcases List.mem_cons.1 hm' with rfl | hm'
      · exact j1 q hq
      · exact i1 q hq m' hm'
    · intro ps hps
      rw [List.flatMap_cons, ← i2 ps hps, ← j2 ps hps]

/-- The cash block for any quotes: the pillars of the quotes by maturity, once for every
quote with that maturity. -/
theorem cash_block {val : Int} {qs : List OisRate} {ms : List Int} {l : List Pillar}
    (h1 : cashMaturities val qs = .ok ms)
    (h2 : cashPillars val qs (ms.mergeSort fun a b => decide (a ≤ b)) = .ok l) :
    ∃ ps, List.Forall₂ (fun q p => q.pillar val = .ok p) qs ps ∧ ms = ps.map Pillar.date ∧
      l = (ms.mergeSort fun a b => decide (a ≤ b)).flatMap fun m => ps.filter fun p => p.date = m := by
  have k1 := cashMaturities_spec h1
  obtain ⟨k2, k3⟩ := cashPillars_spec h2
  have hex : ∀ qs' ms' : List _, List.Forall₂ (fun (q : OisRate) m => q.maturityDate val = .ok m) qs' ms' →
      qs' ⊆ qs → ms' ⊆ ms → ∃ ps, List.Forall₂ (fun q p => q.pillar val = .ok p) qs' ps ∧
        ms' = ps.map Pillar.date := by
    intro qs' ms' hf
    induction hf with
    | nil => exact fun _ _ => ⟨[], .nil, rfl⟩
    | @cons q m qs' ms' hqm _ ih =>
      intro s1 s2
      obtain ⟨ps, hps, e⟩ := ih (fun x hx => s1 (by simp [hx])) fun x hx => s2 (by simp [hx])
      obtain ⟨p, hp⟩ := k2 q (s1 (by simp)) m (by rw [List.mem_mergeSort]; exact s2 (by simp)) hqm
      have hd := (cash_pillar hp).2.1
      rw [hqm] at hd
      have hd := ok.inj hd
      exact ⟨p :: ps, .cons hp hps, by simp [hd, e]⟩
  obtain ⟨ps, hps, e⟩ := hex qs ms k1 (fun _ h => h) fun _ h => h
  exact ⟨ps, hps, e, k3 ps hps⟩

theorem addFutures_spec {val : Int} {qs : List FuturesQuote} {pre out : List Pillar}
    (h : addFutures val qs pre = .ok out) :
    ∃ l, out = pre ++ l ∧ l.length = qs.length ∧ ∀ i (hi : i < qs.length) (hi' : i < l.length),
      FuturesPillar val qs[i] (pre ++ l.take i) l[i] := by
  induction qs generalizing pre with
  | nil =>
    rw [addFutures.eq_def] at h
    obtain rfl := ok.inj h
    exact ⟨[], by simp⟩
  | cons q qs ih =>
    rw [addFutures.eq_def] at h
    simp only [bind_eq_ok] at h
    obtain ⟨s, hs, m, hm, z, hz, d, hd, h⟩ := h
    obtain ⟨l, rfl, hl, hp⟩ := ih h
    refine ⟨⟨s, m, q.value, z, d, .futures, false⟩ :: l, by simp, by simp [hl], ?_⟩
    intro i hi hi'
    cases i with
    | zero =>
      simp only [List.take_zero, List.append_nil, List.getElem_cons_zero]
      exact ⟨hs, hm, hz, hd, rfl, rfl, rfl⟩
    | succ i =>
      have := hp i (by simpa using hi) (by simpa using hi')
      simpa using this

theorem addSwaps_spec {eps : ℝ} {solve : RateSolver} (hsound : solve.Sound eps) {val : Int}
    {ss : List Swap} {pre out : List Pillar} (h : addSwaps solve val ss pre = .ok out) :
    ∃ l, out = pre ++ l ∧ l.length = ss.length ∧ ∀ i (hi : i < ss.length) (hi' : i < l.length),
      SwapPillar eps val ss[i] (pre ++ l.take i) l[i] := by
  induction ss generalizing pre with
  | nil =>
    rw [addSwaps.eq_def] at h
    obtain rfl := ok.inj h
    exact ⟨[], by simp⟩
  | cons s ss ih =>
    rw [addSwaps.eq_def] at h
    simp only [bind_eq_ok] at h
    obtain ⟨p, hp, z, hz, h⟩ := h
    obtain ⟨l, rfl, hl, hps⟩ := ih h
    refine ⟨{ p with zeroRate := z } :: l, by simp, by simp [hl], ?_⟩
    intro i hi hi'
    cases i with
    | zero =>
      simp only [List.take_zero, List.append_nil, List.getElem_cons_zero]
      unfold Swap.seedPillar at hp
      simp only [bind_eq_ok] at hp
      obtain ⟨st, hst, m, hm, hp⟩ := hp
      unfold Swap.solveZeroRate at hz
      rw [unwrapResult_ok] at hz
      obtain ⟨r, hr, hb⟩ := hsound _ _ hz
      rw [unwrapResult_ok] at hr
      unfold Swap.calculateNpv amendLast at hr
      simp only [List.getLast?_append, List.getLast?_singleton, Option.some_or, List.dropLast_concat] at hr
      cases hlg : s.legs with
      | nil => rw [hlg] at hp; cases hp
      | cons lg lgs =>
        rw [hlg] at hp
        obtain rfl := ok.inj hp
        exact ⟨hst, hm, rfl, rfl, rfl, r, hr, hb⟩
    | succ i =>
      have := hps i (by simpa using hi) (by simpa using hi')
      simpa using this

/-- C57: the stripped curve consists of the cash pillars, then one pillar for each
futures in the order given, then one for each swap in the order given; every futures
pillar is computed from the pillars before it; and every swap is worth nothing (up to
the tolerance of the root finder) on the curve that ends with its own pillar.  Partial:
on the final curve the swaps are not repriced (`C57_repriced_false`). -/
theorem C57_blocks_partial {eps : ℝ} {solve : RateSolver} (hsound : solve.Sound eps) {val : Int}
    {cash : List OisRate} {futures : List FuturesQuote} {swaps : List Swap} {out : List Pillar}
    (h : strippedCurve solve val cash futures swaps = .ok out) :
    ∃ c f s, out = c ++ f ++ s ∧ f.length = futures.length ∧ s.length = swaps.length ∧
      (∀ p ∈ c, ∃ q ∈ cash, CashPillar val q p) ∧ (∀ q ∈ cash, ∃ p ∈ c, CashPillar val q p) ∧
      (∀ i (hi : i < futures.length) (hi' : i < f.length),
        FuturesPillar val futures[i] (c ++ f.take i) f[i]) ∧
      ∀ i (hi : i < swaps.length) (hi' : i < s.length),
        SwapPillar eps val swaps[i] (c ++ f ++ s.take i) s[i] := by
  unfold strippedCurve at h
  simp only [bind_eq_ok] at h
  obtain ⟨ms, hms, c, hc, cf, hf, hs⟩ := h
  obtain ⟨ps, k1, k2, k3⟩ := cash_block hms hc
  obtain ⟨f, rfl, f1, f2⟩ := addFutures_spec hf
  obtain ⟨s, rfl, s1, s2⟩ := addSwaps_spec hsound hs
  refine ⟨c, f, s, rfl, f1, s1, ?_, ?_, f2, s2⟩
  · intro p hp
    rw [k3, List.mem_flatMap] at hp
    obtain ⟨m, -, hp⟩ := hp
    have hp := List.mem_of_mem_filter hp
    obtain ⟨i, hi, rfl⟩ := List.mem_iff_getElem.1 hp
    have hl := k1.length_eq
    exact ⟨cash[i], List.getElem_mem _, cash_pillar (List.forall₂_iff_get.1 k1 |>.2 i (by omega) hi)⟩
  · intro q hq
    obtain ⟨i, hi, rfl⟩ := List.mem_iff_getElem.1 hq
    have hl := k1.length_eq
    refine ⟨ps[i], ?_, cash_pillar (List.forall₂_iff_get.1 k1 |>.2 i hi (by omega))⟩
    rw [k3, List.mem_flatMap]
    refine ⟨ps[i].date, ?_, by simp⟩
    rw [List.mem_mergeSort, k2]
    exact List.mem_map_of_mem (List.getElem_mem _)

/-- C57: when no two cash quotes mature on the same day, the cash block has exactly one
pillar per quote, in strictly increasing order of maturity.  Partial: with equal
maturities pillars are repeated (`C57_cash_false`). -/
theorem C57_cash_partial {solve : RateSolver} {val : Int} {cash : List OisRate} {out : List Pillar}
    (hd : cash.Pairwise fun a b => ∀ m, a.maturityDate val = .ok m → b.maturityDate val ≠ .ok m)
    (h : strippedCurve solve val cash [] [] = .ok out) :
    ∃ ps, List.Forall₂ (CashPillar val) cash ps ∧ out.Perm ps ∧
      out.Pairwise fun a b => a.date < b.date := by
  unfold strippedCurve at h
  simp only [bind_eq_ok, addFutures, addSwaps, ok.injEq] at h
  obtain ⟨ms, hms, c, hc, cf, rfl, rfl⟩ := h
  obtain ⟨ps, k1, k2, k3⟩ := cash_block hms hc
  have hnd : ms.Nodup := by
    have k := cashMaturities_spec hms
    clear hms hc k1 k2 k3
    induction k with
    | nil => exact List.nodup_nil
    | @cons q m qs ms hqm hr ih =>
      rw [List.pairwise_cons] at hd
      refine List.nodup_cons.2 ⟨fun hm => ?_, ih hd.2⟩
      obtain ⟨i, hi, rfl⟩ := List.mem_iff_getElem.1 hm
      have hl := hr.length_eq
      exact hd.1 _ (List.getElem_mem (by omega)) _ hqm (List.forall₂_iff_get.1 hr |>.2 i (by omega) hi)
  have hfilter : ∀ p ∈ ps, (ps.filter fun x => decide (x.date = p.date)) = [p] := by
    intro p hp
    rw [k2] at hnd
    clear k1 k2 k3 hms hc
    induction ps with
    | nil => simp at hp
    | cons a ps ih =>
      rw [List.map_cons, List.nodup_cons] at hnd
      rcases List.mem_cons.1 hp with rfl | hp
      · rw [List.filter_cons_of_pos (by simp)]
        congr 1
        rw [List.filter_eq_nil_iff]
        intro x hx
        simp only [decide_eq_true_eq]
        intro e
        exact hnd.1 (e ▸ List.mem_map_of_mem hx)
      · rw [List.filter_cons_of_neg, ih hnd.2 hp]
        simp only [decide_eq_true_eq]
        intro e
        exact hnd.1 (e ▸ List.mem_map_of_mem hp)
  have hsorted := mergeSort_dates ms
  have hperm := List.mergeSort_perm ms fun a b => decide (a ≤ b)
  have hmap : c.map Pillar.date = ms.mergeSort fun a b => decide (a ≤ b) := by
    rw [k3, List.map_flatMap]
    have : ∀ l : List Int, l ⊆ ms → (l.flatMap fun m => (ps.filter fun p => decide (p.date = m)).map Pillar.date) = l := by
      intro l hl
      induction l with
      | nil => rfl
      | cons m l ih =>
        have hm : m ∈ ps.map Pillar.date := k2 ▸ hl (by simp)
        obtain ⟨p, hp, rfl⟩ := List.mem_map.1 hm
        rw [List.flatMap_cons, hfilter p hp, ih fun x hx => hl (by simp [hx])]
        rfl
    exact this _ fun x hx => hperm.mem_iff.1 hx
  refine ⟨ps, k1.imp fun _ _ h => cash_pillar h, ?_, ?_⟩
  · rw [k3]
    refine (hperm.flatMap_right _).trans ?_
    rw [k2, List.flatMap_map]
    have : ∀ l : List Pillar, l ⊆ ps → (l.flatMap fun a => ps.filter fun p => decide (p.date = a.date)) = l := by
      intro l hl
      induction l with
      | nil => rfl
      | cons a l ih =>
        rw [List.flatMap_cons, hfilter a (hl (by simp)), ih fun x hx => hl (by simp [hx])]
        rfl
    rw [this ps fun _ h => h]
  · have hs : (ms.mergeSort fun a b => decide (a ≤ b)).Pairwise (· < ·) := by
      have h1 : (ms.mergeSort fun a b => decide (a ≤ b)).Nodup := hperm.nodup_iff.2 hnd
      exact (hsorted.and h1).imp fun ⟨a, b⟩ => lt_of_le_of_ne a b
    rw [← hmap, List.pairwise_map] at hs
    exact hs

/-- C57 refuted as stated ("one pillar per cash quote"): two quotes maturing on the same
day give four pillars. -/
theorem C57_cash_repeat {solve : RateSolver} {val : Int} {q q' : OisRate} {p p' : Pillar}
    (h : q.pillar val = .ok p) (h' : q'.pillar val = .ok p') (hd : p.date = p'.date) :
    strippedCurve solve val [q, q'] [] [] = .ok [p, p', p, p'] := by
  have m1 := (cash_pillar h).2.1
  have m2 := (cash_pillar h').2.1
  have hm : cashMaturities val [q, q'] = .ok [p.date, p.date] := by
    simp [cashMaturities, m1, m2, unwrapResult, hd]
  have hc : cashAt val p.date [q, q'] = .ok [p, p'] := by
    simp [cashAt, m1, m2, unwrapResult, hd, h, h']
  have hs : [p.date, p.date].mergeSort (fun a b => decide (a ≤ b)) = [p.date, p.date] :=
    List.mergeSort_of_pairwise (by simp)
  unfold strippedCurve
  rw [hm, ok_bind, hs]
  simp [cashPillars, hc, addFutures, addSwaps]

/-- The sample deposit has a pillar. -/
theorem sampleDeposit_pillar : ∃ p, sampleDeposit.pillar (ymd 2023 10 16) = .ok p := by
  have h1 : sampleDeposit.settleDate (ymd 2023 10 16) = .ok (ymd 2023 10 16) := by
    unfold sampleDeposit OisRate.settleDate; decide +kernel
  have h2 : sampleDeposit.maturityDate (ymd 2023 10 16) = .ok (ymd 2024 1 16) := by
    unfold OisRate.maturityDate
    rw [h1, ok_bind]
    unfold sampleDeposit; decide +kernel
  have h3 : sampleDeposit.index.yearFraction (ymd 2023 10 16) (ymd 2024 1 16) =
      .ok (((ymd 2024 1 16 - ymd 2023 10 16 : Int) : ℝ) / 360) := rfl
  have h4 := ois_zeroRate h1 h2 h3
  unfold OisRate.pillar
  rw [h1, ok_bind, h2, ok_bind, h4, ok_bind]
  unfold OisRate.discount
  rw [h4, ok_bind, h2]
  exact ⟨_, rfl⟩

theorem C57_cash_false :
    ¬ ∀ (solve : RateSolver) (val : Int) (cash : List OisRate) (out : List Pillar),
      strippedCurve solve val cash [] [] = .ok out → out.length = cash.length := by
  intro h
  obtain ⟨p, hp⟩ := sampleDeposit_pillar
  have := h (fun _ => .panic) _ _ _ (C57_cash_repeat hp hp rfl)
  simp at this

/-- C57: futures without any cash quote make the construction panic or fail. -/
theorem C57_needs_cash {solve : RateSolver} {val : Int} {q : FuturesQuote} {futures : List FuturesQuote}
    {swaps : List Swap} {out : List Pillar} :
    strippedCurve solve val [] (q :: futures) swaps ≠ .ok out := by
  intro h
  unfold strippedCurve at h
  simp only [bind_eq_ok] at h
  obtain ⟨ms, hms, c, hc, cf, hf, hs⟩ := h
  obtain rfl := ok.inj hms
  rw [List.mergeSort_nil, cashPillars] at hc
  obtain rfl := ok.inj hc
  rw [addFutures.eq_def] at hf
  simp only [bind_eq_ok] at hf
  obtain ⟨s, -, m, -, z, -, d, hd, -⟩ := hf
  obtain ⟨s, m, tau, p, -, -, -, hp, -⟩ := futDiscount_ok hd
  simp [relatedPillar] at hp

/-- C57: with futures whose dates resolve and no cash quote the failure is a panic, not an error: the
lookup of the anchor unwraps the first pillar of an empty list. -/
theorem C57_needs_cash_panic {solve : RateSolver} {val s m : Int} {tau : ℝ} {q : FuturesQuote}
    {futures : List FuturesQuote} {swaps : List Swap} (hs : q.settleDate val = .ok s)
    (hm : q.maturityDate val = .ok m) (ht : q.yearFraction s m = .ok tau) :
    strippedCurve solve val [] (q :: futures) swaps = .panic := by
  have hd : q.discount val [] = .panic := by
    rw [FuturesQuote.discount, hs, ok_bind, hm, ok_bind, ht, ok_bind]
    rfl
  have hz : q.zeroRate val [] = .panic := by rw [FuturesQuote.zeroRate, hd, panic_bind]
  have hf : addFutures val (q :: futures) [] = .panic := by
    rw [addFutures.eq_def]
    simp only [hs, hm, hz, ok_bind, panic_bind]
  unfold strippedCurve
  rw [cashMaturities, ok_bind, List.mergeSort_nil, cashPillars, ok_bind, hf, panic_bind]

/-- C57: consecutive futures compound: when a futures settles on the maturity of the one
before it (itself not the first), their discount factors differ by exactly the implied
growth over the contract. -/
theorem C57_futures_chain {val : Int} {pre : List Pillar} {q1 q2 : FuturesQuote} {p1 : Pillar} {d2 : ℝ}
    (hf : ∃ p ∈ pre, p.source = .futures) (h1 : FuturesPillar val q1 pre p1)
    (hs : q2.settleDate val = .ok p1.date) (hspan : p1.firstSettle < p1.date) (hval : p1.date ≠ val)
    (hcov : ∀ p ∈ pre, ¬ (p.firstSettle < p1.date ∧ p1.date ≤ p.date))
    (hord : ∀ p ∈ pre, p.date ≤ p1.date)
    (hpos : 0 < p1.discount) (h2 : q2.discount val (pre ++ [p1]) = .ok d2) :
    ∃ m tau, q2.maturityDate val = .ok m ∧ q2.yearFraction p1.date m = .ok tau ∧
      (1 + tau * q2.impliedQuote ≠ 0 → d2 * (1 + tau * q2.impliedQuote) = p1.discount) := by
  obtain ⟨g1, g2, g3, g4, -⟩ := h1
  have hz := C56_zero_partial hf g3 g4 g2 hval hpos
  obtain ⟨s, m, tau, p, k1, k2, k3, k4, rfl⟩ := futDiscount_ok h2
  rw [hs] at k1
  obtain rfl := ok.inj k1
  refine ⟨m, tau, k2, k3, fun hne => ?_⟩
  have hp : p = p1 := by
    obtain ⟨x, hx, -⟩ := hf
    obtain ⟨pre', a, rfl⟩ : ∃ pre' a, pre = pre' ++ [a] := by
      rcases List.eq_nil_or_concat pre with rfl | ⟨pre', a, rfl⟩
      · simp at hx
      · exact ⟨pre', a, by simp⟩
    have := C56_anchor_partial (post := []) (b := p1) hcov ⟨hspan, le_rfl⟩
    rw [List.append_assoc, List.singleton_append, this] at k4
    rw [if_pos (by have := hord a (by simp); omega)] at k4
    exact (ok.inj k4).symm
  subst hp
  rw [hz]
  field_simp

/-- C57 refuted in its strong form: the discount factor at a swap's own maturity, on the
curve ending with the swap's pillar, is that of the first pillar's rate whatever rate was
solved for. -/
theorem C57_blind {val : Int} {p0 p : Pillar} {rest : List Pillar}
    (hv : ∀ q ∈ p0 :: rest ++ [p], q.hidden = false) (hd : ∀ q ∈ p0 :: rest, q.date ≤ p.date)
    (hval : Valid (p.date + 1)) (x : ℝ) :
    (Curve.mk val (p0 :: rest ++ [{ p with zeroRate := x }])).discount p.date =
      .ok (Real.exp (-p0.zeroRate * yf365 val p.date)) := by
  have hn : ∀ q ∈ p0 :: (rest ++ [{ p with zeroRate := x }]), ¬ Passes (p.date + 1) q := by
    rintro q hq ⟨h, -⟩
    rw [← List.cons_append, List.mem_append] at hq
    rcases hq with hq | hq
    · have := hd q hq
      omega
    · rw [List.mem_singleton] at hq
      subst hq
      simp at h
  have htf : trueFirst p0 (p0 :: (rest ++ [{ p with zeroRate := x }])) = p0 := by
    have := hv p0 (by simp)
    simp [trueFirst, this]
  have hz : (Curve.mk val (p0 :: rest ++ [{ p with zeroRate := x }])).zeroRate p.date = .ok p0.zeroRate := by
    rw [zeroRate_of_eq rfl hval (scan_none hn) (by rw [htf]; rfl), htf]
  unfold Curve.discount
  rw [hz, ok_bind]

/-! ### A swap of one period on a given schedule -/

/-- Fixed coupon `c` against floating, one period from day 0 to day `T`. -/
noncomputable def oneLeg (k : LegKind) (dir : Direction) (T : Int) : SwapLeg :=
  { sampleLeg .annual (.years 1) (.years 1) with
    kind := k, direction := dir, schedule := [⟨0, T, T, 0, 0, 1⟩] }

noncomputable def oneSwap (c : ℝ) (T : Int) : Swap :=
  ⟨[oneLeg (.fixed c) .buy T, oneLeg (.float 0) .sell T]⟩

theorem oneSwap_npv {c D : ℝ} {T : Int} {cv : Curve} (hT : T ≠ 0) (h0 : cv.valuation = 0)
    (hD : cv.discount T = .ok D) :
    (oneSwap c T).npv 0 cv = .ok ((c * (T / 365) + 1) * D - 1) := by
  have hne : cv.pillars ≠ [] := ((C36_discount_exists).1 ⟨_, hD⟩).1
  have hv1 : Valid (0 + 1) := by decide
  obtain ⟨d0, hd0⟩ := (C36_discount_exists (cv := cv) (d := 0)).2 ⟨hne, hv1⟩
  have e0 : d0 = 1 := C36_discount_valuation (cv := cv) (by rw [h0]; exact hd0)
  subst e0
  have hc : Contiguous [(⟨0, T, T, 0, 0, 1⟩ : SchedPeriod)] := by simp [Contiguous]
  have hD' : ∀ q ∈ [(⟨0, T, T, 0, 0, 1⟩ : SchedPeriod)],
      cv.discount q.start = .ok (if q.start = T then D else 1) ∧
      cv.discount q.fin = .ok (if q.fin = T then D else 1) := by
    simp only [List.mem_singleton, forall_eq]
    rw [if_neg (Ne.symm hT)]
    simp only [if_true]
    exact ⟨hd0, hD⟩
  have hfix := C42_fixed (l := oneLeg (.fixed c) .buy T) (c := c) (N := 1) (val := 0) (cv := cv)
    (D := fun d => if d = T then D else 1) (tau := yf365) (ps := [⟨0, T, T, 0, 0, 1⟩]) rfl rfl
    (by simp) (fun q _ => ⟨⟨_, rfl⟩, rfl⟩) (by
      simp only [List.mem_singleton, forall_eq]
      simp only [if_true]
      exact hD)
  have hflt := C42_float (l := oneLeg (.float 0) .sell T) (N := 1) (val := 0) (cv := cv)
    (D := fun d => if d = T then D else 1) (p := ⟨0, T, T, 0, 0, 1⟩) (ps := []) rfl rfl hc
    (by simp) (by
      simp only [List.mem_singleton, forall_eq]
      refine ⟨⟨_, rfl⟩, yf365 0 T, ?_, rfl⟩
      unfold yf365
      have : ((T - 0 : Int) : ℝ) ≠ 0 := by exact_mod_cast (by simpa using hT)
      positivity) hD'
  unfold oneSwap
  rw [← List.singleton_append, npv_append, hflt]
  rw [show oneLeg (.fixed c) .buy T = (oneLeg (.fixed c) .buy T).withCoupon c from rfl, hfix]
  simp only [ok_bind, ok.injEq, annuity, List.map_cons, List.map_nil, List.sum_cons, List.sum_nil, yf365]
  rw [if_neg (Ne.symm hT)]
  simp [oneLeg, Direction.sign]
  ring

theorem oneSwap_settle (c : ℝ) (T : Int) : ∃ st, (oneSwap c T).settleDate 0 = .ok st := by
  have : advance weekendsOnly 0 (.days 2) .modifiedFollowing false = .ok 2 := by decide +kernel
  exact ⟨2, this⟩

theorem oneSwap_seed (c : ℝ) (T : Int) : ∃ st, (oneSwap c T).seedPillar 0 =
    .ok ⟨st, T, c, 5 / 1000, 0, .swap, false⟩ := by
  obtain ⟨st, hst⟩ := oneSwap_settle c T
  refine ⟨st, ?_⟩
  unfold Swap.seedPillar
  rw [hst, ok_bind]
  have : (oneSwap c T).maturityDate 0 = .ok T := by
    show Outcome.ok (max T T) = _
    rw [max_self]
  rw [this, ok_bind]
  rfl

/-- C57 refuted in its strong form: a swap for which no zero rate makes any difference. -/
theorem C57_solvable_false : ∃ (before : List Pillar) (s : Swap) (v : ℝ), v < 0 ∧
    ∀ x, s.calculateNpv x 0 before = .ok v := by
  refine ⟨[pillarAt 365 (1 / 20) false, pillarAt 730 0 false], oneSwap 0 730, Real.exp (-(1 / 10)) - 1, ?_, ?_⟩
  · have := Real.exp_lt_one_iff.2 (show -(1 / 10 : ℝ) < 0 by norm_num)
    linarith
  · intro x
    unfold Swap.calculateNpv
    have e : amendLast x [pillarAt 365 (1 / 20) false, pillarAt 730 0 false] =
      pillarAt 365 (1 / 20) false :: [] ++ [{ pillarAt 730 0 false with zeroRate := x }] := rfl
    have hd := C57_blind (val := 0) (p0 := pillarAt 365 (1 / 20) false) (rest := [])
      (p := pillarAt 730 0 false) (by simp [pillarAt]) (by simp [pillarAt])
      (show Valid (730 + 1) by decide) x
    rw [e]
    refine (oneSwap_npv (T := 730) (by norm_num) rfl hd).trans ?_
    simp only [pillarAt, yf365]
    norm_num

/-- A root finder that tries 10% and 5%. -/
noncomputable def tryRates : RateSolver := fun f =>
  if f (1 / 10) = .ok 0 then .ok (1 / 10) else if f (1 / 20) = .ok 0 then .ok (1 / 20) else .fail .invalidData

theorem tryRates_sound : tryRates.Sound 0 := by
  intro f x h
  unfold tryRates at h
  by_cases h1 : f (1 / 10) = .ok 0
  · rw [if_pos h1] at h
    rw [← ok.inj h]
    exact ⟨0, h1, by simp⟩
  · rw [if_neg h1] at h
    by_cases h2 : f (1 / 20) = .ok 0
    · rw [if_pos h2] at h
      rw [← ok.inj h]
      exact ⟨0, h2, by simp⟩
    · rw [if_neg h2] at h
      simp at h

/-- Stripping the one-year and the two-year swap at 5%. -/
theorem twoSwaps_stripped : ∃ st st' : Int,
    strippedCurve tryRates 0 [] [] [oneSwap (Real.exp (1 / 20) - 1) 365, oneSwap ((Real.exp (1 / 10) - 1) / 2) 730] =
      .ok [⟨st, 365, Real.exp (1 / 20) - 1, 1 / 20, 0, .swap, false⟩,
        ⟨st', 730, (Real.exp (1 / 10) - 1) / 2, 1 / 10, 0, .swap, false⟩] := by
  obtain ⟨st, h1⟩ := oneSwap_seed (Real.exp (1 / 20) - 1) 365
  obtain ⟨st', h2⟩ := oneSwap_seed ((Real.exp (1 / 10) - 1) / 2) 730
  refine ⟨st, st', ?_⟩
  have n1 : ∀ x, (oneSwap (Real.exp (1 / 20) - 1) 365).calculateNpv x 0
      ([] ++ [⟨st, 365, Real.exp (1 / 20) - 1, 5 / 1000, 0, .swap, false⟩]) =
      .ok (Real.exp (1 / 20 - x) - 1) := by
    intro x
    unfold Swap.calculateNpv
    have hd : (Curve.mk 0 (amendLast x ([] ++ [⟨st, 365, Real.exp (1 / 20) - 1, 5 / 1000, 0, .swap, false⟩]))).discount 365 =
        .ok (Real.exp (-x * yf365 0 365)) := by
      unfold Curve.discount
      rw [zeroRate_of_eq (p0 := ⟨st, 365, Real.exp (1 / 20) - 1, x, 0, .swap, false⟩) (rest := [])
        rfl (by decide) (scan_none (by simp [Passes])) (by simp [trueFirst])]
      simp [trueFirst]
    rw [oneSwap_npv (by norm_num) rfl hd, sub_eq_add_neg (1 / 20) x, Real.exp_add]
    norm_num [yf365]
  have n2 : ∀ x, (oneSwap ((Real.exp (1 / 10) - 1) / 2) 730).calculateNpv x 0
      ([⟨st, 365, Real.exp (1 / 20) - 1, 1 / 20, 0, .swap, false⟩] ++
        [⟨st', 730, (Real.exp (1 / 10) - 1) / 2, 5 / 1000, 0, .swap, false⟩]) = .ok 0 := by
    intro x
    unfold Swap.calculateNpv
    have hd := C57_blind (val := 0) (p0 := ⟨st, 365, Real.exp (1 / 20) - 1, 1 / 20, 0, .swap, false⟩)
      (rest := []) (p := ⟨st', 730, (Real.exp (1 / 10) - 1) / 2, 5 / 1000, 0, .swap, false⟩)
      (by simp) (by simp) (show Valid (730 + 1) by decide) x
    refine (oneSwap_npv (by norm_num) rfl hd).trans ?_
    have : Real.exp (1 / 10) * Real.exp (-(1 / 10)) = 1 := by rw [← Real.exp_add]; norm_num
    norm_num [yf365]
    norm_num at this
    linear_combination this
  have s1 : (oneSwap (Real.exp (1 / 20) - 1) 365).solveZeroRate tryRates 0
      ([] ++ [⟨st, 365, Real.exp (1 / 20) - 1, 5 / 1000, 0, .swap, false⟩]) = .ok (1 / 20) := by
    unfold Swap.solveZeroRate tryRates
    rw [unwrapResult_ok, if_neg, if_pos]
    · beta_reduce; rw [n1]; norm_num [unwrapResult]
    · beta_reduce
      rw [n1]
      have := Real.exp_lt_one_iff.2 (show (1 / 20 - 1 / 10 : ℝ) < 0 by norm_num)
      simp only [unwrapResult, ok.injEq]
      linarith
  have s2 : (oneSwap ((Real.exp (1 / 10) - 1) / 2) 730).solveZeroRate tryRates 0
      ([⟨st, 365, Real.exp (1 / 20) - 1, 1 / 20, 0, .swap, false⟩] ++
        [⟨st', 730, (Real.exp (1 / 10) - 1) / 2, 5 / 1000, 0, .swap, false⟩]) = .ok (1 / 10) := by
    unfold Swap.solveZeroRate tryRates
    rw [unwrapResult_ok, if_pos]
    beta_reduce
    rw [n2]
    rfl
  unfold strippedCurve
  simp only [cashMaturities, ok_bind, List.mergeSort_nil, cashPillars, addFutures]
  rw [addSwaps.eq_def]
  dsimp only
  rw [h1, ok_bind, s1, ok_bind, addSwaps.eq_def]
  dsimp only
  rw [h2, ok_bind]
  show ((oneSwap _ _).solveZeroRate tryRates 0 ([_] ++ [_]) >>= _) = _
  rw [s2, ok_bind]
  rfl

/-- C57 refuted in its strong form ("the instruments reprice on the stripped curve"): with
a one-year and a two-year swap the one-year swap is worth less than nothing on the final
curve, even for an exact root finder. -/
theorem C57_repriced_false :
    ¬ ∀ (solve : RateSolver) (val : Int) (swaps : List Swap) (out : List Pillar), solve.Sound 0 →
      strippedCurve solve val [] [] swaps = .ok out → ∀ s ∈ swaps, s.npv val ⟨val, out⟩ = .ok 0 := by
  intro h
  obtain ⟨st, st', hs⟩ := twoSwaps_stripped
  have k := h _ _ _ _ tryRates_sound hs _ (List.mem_cons_self ..)
  have hz : ((Curve.mk 0 [⟨st, 365, Real.exp (1 / 20) - 1, 1 / 20, 0, .swap, false⟩,
        ⟨st', 730, (Real.exp (1 / 10) - 1) / 2, 1 / 10, 0, .swap, false⟩]).zeroRate 365) =
      .ok ((1 * (1 / 10) + 364 * (1 / 20)) / 365) := by
    rw [zeroRate_of_ne rfl (by decide) (scan_found
      (pre := [⟨st, 365, Real.exp (1 / 20) - 1, 1 / 20, 0, .swap, false⟩]) (by simp [Passes])
      (s := ⟨st', 730, (Real.exp (1 / 10) - 1) / 2, 1 / 10, 0, .swap, false⟩) (post := []) (by simp [Passes]))
      (by simp [trueFirst])]
    simp only [weighted, List.getLast?_singleton, Option.getD_some, ok.injEq]
    norm_num
  have hd : ((Curve.mk 0 [⟨st, 365, Real.exp (1 / 20) - 1, 1 / 20, 0, .swap, false⟩,
        ⟨st', 730, (Real.exp (1 / 10) - 1) / 2, 1 / 10, 0, .swap, false⟩]).discount 365) =
      .ok (Real.exp (-((1 * (1 / 10) + 364 * (1 / 20)) / 365) * yf365 0 365)) := by
    unfold Curve.discount
    rw [hz, ok_bind]
  rw [oneSwap_npv (by norm_num) rfl hd] at k
  have k := ok.inj k
  have e : ((Real.exp (1 / 20) - 1) * (((365 : Int) : ℝ) / 365) + 1) = Real.exp (1 / 20) := by norm_num
  rw [e, ← Real.exp_add] at k
  have := Real.exp_lt_one_iff.2 (show 1 / 20 + -((1 * (1 / 10) + 364 * (1 / 20)) / 365) * yf365 0 365 < 0 by
    norm_num [yf365])
  linarith

/-- Non-vacuity of C57: a curve from one deposit, a curve from two swaps, and a sound root
finder. -/
example : ∃ out, strippedCurve tryRates (ymd 2023 10 16) [sampleDeposit] [] [] = .ok out := by
  obtain ⟨p, hp⟩ := sampleDeposit_pillar
  have m1 := (cash_pillar hp).2.1
  refine ⟨[p], ?_⟩
  unfold strippedCurve
  simp [cashMaturities, m1, unwrapResult, cashPillars, cashAt, hp, addFutures, addSwaps]

example : ∃ out, strippedCurve tryRates 0 [] []
    [oneSwap (Real.exp (1 / 20) - 1) 365, oneSwap ((Real.exp (1 / 10) - 1) / 2) 730] = .ok out := by
  obtain ⟨st, st', h⟩ := twoSwaps_stripped
  exact ⟨_, h⟩

end Verif
