import Verif.Spec.Cap
import Verif.Props.YieldCurve
import Verif.Props.Options
import Mathlib.Analysis.SpecialFunctions.Integrals.Basic

/-!
# Helper lemmas for caps and floors
-/

namespace Verif

open Outcome

/-! ### Total variance -/

theorem decay_integral_in {sigma ts te t : ℝ} (h : ts < te) (h1 : ts ≤ t) (h2 : t ≤ te) :
    accumulatedVariance sigma ts te t = sigma * sigma * (te - t) ^ 3 / (3 * (te - ts) * (te - ts)) := by
  have hL : te - ts ≠ 0 := by linarith
  unfold accumulatedVariance
  have e : ∫ u in t..te, decayVol sigma ts te u ^ 2 =
      ∫ u in t..te, (sigma ^ 2 / (te - ts) ^ 2) * (te - u) ^ 2 := by
    refine intervalIntegral.integral_congr fun u hu => ?_
    rw [Set.uIcc_of_le h2] at hu
    have : (te - u) / (te - ts) ≤ 1 := by
      rw [div_le_one (by linarith)]; linarith [hu.1]
    simp only [decayVol, min_eq_right this]
    field_simp
  rw [e, intervalIntegral.integral_const_mul,
    intervalIntegral.integral_comp_sub_left (fun x => x ^ 2) te, integral_pow]
  field_simp
  ring

theorem decay_integral_before {sigma ts te t : ℝ} (h : ts < te) (h1 : t ≤ ts) :
    accumulatedVariance sigma ts te t = sigma * sigma * (ts - t + (te - ts) / 3) := by
  have hL : te - ts ≠ 0 := by linarith
  have hc : Continuous fun u => decayVol sigma ts te u ^ 2 := by
    unfold decayVol; fun_prop
  have hsplit := intervalIntegral.integral_add_adjacent_intervals
    (hc.intervalIntegrable (μ := MeasureTheory.volume) t ts) (hc.intervalIntegrable ts te)
  have e : ∫ u in t..ts, decayVol sigma ts te u ^ 2 = ∫ u in t..ts, sigma ^ 2 := by
    refine intervalIntegral.integral_congr fun u hu => ?_
    rw [Set.uIcc_of_le h1] at hu
    have : 1 ≤ (te - u) / (te - ts) := by
      rw [le_div_iff₀ (by linarith)]; linarith [hu.2]
    simp only [decayVol, min_eq_left this, mul_one]
  have e2 := decay_integral_in (sigma := sigma) h le_rfl h.le
  unfold accumulatedVariance at e2 ⊢
  rw [← hsplit, e, e2, intervalIntegral.integral_const]
  simp only [smul_eq_mul]
  field_simp

/-- The code's backward-looking variance is the accumulated variance of a linearly decaying
volatility. -/
theorem backward_eq_integral {sigma ts te t : ℝ} (h : ts < te) (h2 : t ≤ te) :
    capletTotalVariance .backwardCompounded sigma (ts - t) (te - t) =
      accumulatedVariance sigma ts te t := by
  unfold capletTotalVariance
  rcases h2.lt_or_eq with h2 | rfl
  · rw [if_neg (by linarith)]
    dsimp only
    rcases le_or_gt t ts with h1 | h1
    · rw [if_pos (by linarith), decay_integral_before h h1]
      ring
    · rw [if_neg (by linarith), decay_integral_in h h1.le h2.le]
      congr 1
      ring
  · rw [if_pos (by linarith), accumulatedVariance, intervalIntegral.integral_same]

/-! ### Values of caps -/

theorem addCaplets_acc (c : CapFloor) (cv : Curve) (vs : List CapletPillar) (r v : ℝ)
    (ps : List SchedPeriod) (acc : ℝ) :
    c.addCaplets cv vs r v ps acc = (fun x => acc + x) <$> c.addCaplets cv vs r v ps 0 := by
  induction ps generalizing acc with
  | nil => simp [CapFloor.addCaplets]
  | cons p ps ih =>
    rw [CapFloor.addCaplets, CapFloor.addCaplets]
    rcases c.market p cv vs r v with m | e | _
    · simp only [ok_bind]
      rw [ih, ih (0 + _)]
      rcases c.addCaplets cv vs r v ps 0 with w | e | _ <;> simp [add_assoc]
    · rfl
    · rfl

/-- The market inputs of a list of caplets. -/
noncomputable def marketList (c : CapFloor) (cv : Curve) (vs : List CapletPillar) (r v : ℝ) :
    List SchedPeriod → Outcome (List CapletMarket)
  | [] => .ok []
  | p :: ps => do
    let m ← c.market p cv vs r v
    let ms ← marketList c cv vs r v ps
    .ok (m :: ms)

/-- The value is the sum over the caplets' market inputs. -/
theorem addCaplets_eq (c : CapFloor) (cv : Curve) (vs : List CapletPillar) (r v : ℝ)
    (ps : List SchedPeriod) (acc : ℝ) :
    c.addCaplets cv vs r v ps acc = (fun ms : List CapletMarket => acc + (ms.map fun m =>
        c.direction.sign * c.notional * m.tau * m.dfPay * optionValue c.kind c.strike m).sum) <$>
      marketList c cv vs r v ps := by
  induction ps generalizing acc with
  | nil => simp [CapFloor.addCaplets, marketList]
  | cons p ps ih =>
    rw [CapFloor.addCaplets, marketList]
    rcases c.market p cv vs r v with m | e | _
    · simp only [ok_bind, ih]
      rcases marketList c cv vs r v ps with w | e | _ <;> simp [add_assoc]
    · rfl
    · rfl

/-- Market inputs do not depend on kind or direction. -/
theorem marketList_congr {c c' : CapFloor} (cv : Curve) (vs : List CapletPillar) (r v : ℝ)
    (h1 : c'.style = c.style) (h2 : c'.strike = c.strike) (h3 : c'.valuation = c.valuation)
    (h4 : c'.yearFraction = c.yearFraction) (ps : List SchedPeriod) :
    marketList c' cv vs r v ps = marketList c cv vs r v ps := by
  have : ∀ p, c'.market p cv vs r v = c.market p cv vs r v := by
    intro p; unfold CapFloor.market; rw [h1, h2, h3, h4]
  induction ps with
  | nil => rfl
  | cons p ps ih => rw [marketList, marketList, this, ih]

theorem market_ok {c : CapFloor} {p : SchedPeriod} {cv : Curve} {vs : List CapletPillar} {r v : ℝ}
    {m : CapletMarket} :
    c.market p cv vs r v = .ok m ↔ ∃ tau ds de dp s, c.yearFraction p.start p.fin = .ok tau ∧
      cv.shiftedDiscount p.start r = .ok ds ∧ cv.shiftedDiscount p.fin r = .ok de ∧
      cv.shiftedDiscount p.pay r = .ok dp ∧ capletVolatility vs p.start c.strike = .ok s ∧
      m = ⟨tau, dp, (ds / de - 1) / tau, capletTotalVariance c.style (s + v * (1 / 10000))
        (yf365 c.valuation p.start) (yf365 c.valuation p.fin)⟩ := by
  unfold CapFloor.market
  simp only [bind_eq_ok, ok.injEq]
  constructor
  · rintro ⟨tau, h1, ds, h2, de, h3, dp, h4, s, h5, rfl⟩
    exact ⟨tau, ds, de, dp, s, h1, h2, h3, h4, h5, rfl⟩
  · rintro ⟨tau, ds, de, dp, s, h1, h2, h3, h4, h5, rfl⟩
    exact ⟨tau, h1, ds, h2, de, h3, dp, h4, s, h5, rfl⟩

theorem marketList_ok {c : CapFloor} {cv : Curve} {vs : List CapletPillar} {r v : ℝ}
    {ps : List SchedPeriod} {ms : List CapletMarket} :
    marketList c cv vs r v ps = .ok ms ↔
      List.Forall₂ (fun p m => c.market p cv vs r v = .ok m) ps ms := by
  induction ps generalizing ms with
  | nil =>
    simp only [marketList, ok.injEq, List.forall₂_nil_left_iff]
    exact eq_comm
  | cons p ps ih =>
    simp only [marketList, bind_eq_ok, ok.injEq, List.forall₂_cons_left_iff]
    constructor
    · rintro ⟨m, hm, ms', h, rfl⟩
      exact ⟨m, ms', hm, ih.1 h, rfl⟩
    · rintro ⟨m, ms', hm, h, rfl⟩
      exact ⟨m, hm, ms', ih.2 h, rfl⟩

theorem pv_ok {c : CapFloor} {cv : Curve} {vs : List CapletPillar} {r v x : ℝ} :
    c.pv cv vs r v = .ok x ↔ ∃ ms, List.Forall₂ (fun p m => c.market p cv vs r v = .ok m) c.schedule ms ∧
      x = (ms.map fun m => c.direction.sign * c.notional * m.tau * m.dfPay *
        optionValue c.kind c.strike m).sum := by
  unfold CapFloor.pv
  rw [addCaplets_eq, map_eq_ok]
  constructor
  · rintro ⟨ms, h, rfl⟩
    exact ⟨ms, marketList_ok.1 h, by simp⟩
  · rintro ⟨ms, h, rfl⟩
    exact ⟨ms, marketList_ok.2 h, by simp⟩

theorem shifted_pos {cv : Curve} {d : Int} {r x : ℝ} (h : cv.shiftedDiscount d r = .ok x) : 0 < x := by
  unfold Curve.shiftedDiscount at h
  simp only [bind_eq_ok, ok.injEq] at h
  obtain ⟨y, hy, rfl⟩ := h
  have := C36_discount_pos hy
  positivity

theorem market_congr {cv cv' : Curve} {r r' : ℝ}
    (h : ∀ d, cv.shiftedDiscount d r = cv'.shiftedDiscount d r') (c : CapFloor) (p : SchedPeriod)
    (vs : List CapletPillar) (v : ℝ) : c.market p cv vs r v = c.market p cv' vs r' v := by
  unfold CapFloor.market
  simp only [h]

theorem pv_congr {cv cv' : Curve} {r r' : ℝ}
    (h : ∀ d, cv.shiftedDiscount d r = cv'.shiftedDiscount d r') (c : CapFloor)
    (vs : List CapletPillar) (v : ℝ) : c.pv cv vs r v = c.pv cv' vs r' v := by
  unfold CapFloor.pv
  generalize (0 : ℝ) = acc
  generalize c.schedule = ps
  induction ps generalizing acc with
  | nil => rfl
  | cons p ps ih =>
    rw [CapFloor.addCaplets, CapFloor.addCaplets, market_congr h]
    simp only [ih]

theorem forall2_sum {R : SchedPeriod → CapletMarket → Prop} {f : CapletMarket → ℝ}
    {F : SchedPeriod → ℝ} {ps : List SchedPeriod} {ms : List CapletMarket} (h : List.Forall₂ R ps ms)
    (hf : ∀ p ∈ ps, ∀ m, R p m → f m = F p) : (ms.map f).sum = (ps.map F).sum := by
  induction h with
  | nil => rfl
  | cons hm _ ih =>
    rw [List.map_cons, List.map_cons, List.sum_cons, List.sum_cons, hf _ (by simp) _ hm,
      ih fun q hq => hf q (List.mem_cons_of_mem _ hq)]

theorem forall2_sum_le {R : SchedPeriod → CapletMarket → Prop} {f : CapletMarket → ℝ}
    {F : SchedPeriod → ℝ} {ps : List SchedPeriod} {ms : List CapletMarket} (h : List.Forall₂ R ps ms)
    (hf : ∀ p ∈ ps, ∀ m, R p m → F p ≤ f m) : (ps.map F).sum ≤ (ms.map f).sum := by
  induction h with
  | nil => exact le_rfl
  | cons hm _ ih =>
    rw [List.map_cons, List.map_cons, List.sum_cons, List.sum_cons]
    exact add_le_add (hf _ (by simp) _ hm) (ih fun q hq => hf q (List.mem_cons_of_mem _ hq))

theorem forall2_sum_le2 {R S : SchedPeriod → CapletMarket → Prop} {f g : CapletMarket → ℝ}
    {ps : List SchedPeriod} {ms ms' : List CapletMarket} (h : List.Forall₂ R ps ms)
    (h' : List.Forall₂ S ps ms') (hf : ∀ p ∈ ps, ∀ m m', R p m → S p m' → f m ≤ g m') :
    (ms.map f).sum ≤ (ms'.map g).sum := by
  induction h generalizing ms' with
  | nil => cases h'; exact le_rfl
  | cons hm _ ih =>
    cases h' with
    | cons hm' ht' =>
      rw [List.map_cons, List.map_cons, List.sum_cons, List.sum_cons]
      exact add_le_add (hf _ (by simp) _ _ hm hm') (ih ht' fun q hq => hf q (List.mem_cons_of_mem _ hq))

theorem forall2_unique {f : SchedPeriod → Outcome CapletMarket}
    {ps : List SchedPeriod} {ms ms' : List CapletMarket}
    (h : List.Forall₂ (fun p m => f p = .ok m) ps ms)
    (h' : List.Forall₂ (fun p m => f p = .ok m) ps ms') : ms = ms' := by
  induction h generalizing ms' with
  | nil => cases h'; rfl
  | cons hm _ ih =>
    cases h' with
    | cons hm' ht' =>
      rw [hm] at hm'
      rw [ok.inj hm', ih ht']

theorem sum_map_sub' {α : Type*} (f g : α → ℝ) (l : List α) :
    (l.map f).sum - (l.map g).sum = (l.map fun a => f a - g a).sum := by
  induction l with
  | nil => simp
  | cons a l ih => simp only [List.map_cons, List.sum_cons]; rw [← ih]; ring

theorem sum_map_neg' {α : Type*} (f : α → ℝ) (l : List α) :
    -(l.map f).sum = (l.map fun a => -f a).sum := by
  induction l with
  | nil => simp
  | cons a l ih => simp only [List.map_cons, List.sum_cons]; rw [← ih]; ring

theorem unpack_some (vs : List CapletPillar) : unpackSurface (some vs) = .ok vs := rfl

end Verif
