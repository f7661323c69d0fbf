import Verif.Spec.Locality
import Verif.Props.CurveStrip
import Verif.Props.CapletSurface
import Verif.Props.TdSabrCal
import Verif.Props.Dupire
import Verif.Props.FxVol
import Verif.Props.Forwards

/-!
# Which quotes a result depends on

The bootstraps append to what they have built, so that results for a list of quotes begin with those
for any initial part; the lookups read the neighbouring pillars only.
-/

namespace Verif

open Outcome Classical

/-! ## Loops that only append -/

theorem addSwaps_append (solve : RateSolver) (val : Int) (ts : List Swap) : ∀ (ss : List Swap)
    (out : List Pillar), addSwaps solve val (ss ++ ts) out = addSwaps solve val ss out >>= addSwaps solve val ts
  | [], out => by simp [addSwaps]
  | s :: ss, out => by
    simp only [List.cons_append, addSwaps]
    cases s.seedPillar val with
    | ok p =>
      simp only [ok_bind]
      cases s.solveZeroRate solve val (out ++ [p]) with
      | ok z => exact addSwaps_append solve val ts ss _
      | fail e => rfl
      | panic => rfl
    | fail e => rfl
    | panic => rfl

theorem addSwaps_prefix (solve : RateSolver) (val : Int) : ∀ (ss : List Swap) (out ps : List Pillar),
    addSwaps solve val ss out = .ok ps → ∃ new, ps = out ++ new ∧ new.length = ss.length
  | [], out, ps, h => by
    cases h
    exact ⟨[], by simp, rfl⟩
  | s :: ss, out, ps, h => by
    rw [addSwaps] at h
    obtain ⟨p, -, h⟩ := bind_eq_ok.1 h
    obtain ⟨z, -, h⟩ := bind_eq_ok.1 h
    obtain ⟨new, e, hl⟩ := addSwaps_prefix solve val ss _ ps h
    exact ⟨[_] ++ new, by rw [e, List.append_assoc], by simp [hl]⟩

theorem addFutures_append (val : Int) (rs : List FuturesQuote) : ∀ (qs : List FuturesQuote)
    (out : List Pillar), addFutures val (qs ++ rs) out = addFutures val qs out >>= addFutures val rs
  | [], out => by simp [addFutures]
  | q :: qs, out => by
    simp only [List.cons_append, addFutures]
    cases q.settleDate val with
    | ok s =>
      simp only [ok_bind]
      cases q.maturityDate val with
      | ok m =>
        simp only [ok_bind]
        cases q.zeroRate val out with
        | ok z =>
          simp only [ok_bind]
          cases q.discount val out with
          | ok d => exact addFutures_append val rs qs _
          | fail e => rfl
          | panic => rfl
        | fail e => rfl
        | panic => rfl
      | fail e => rfl
      | panic => rfl
    | fail e => rfl
    | panic => rfl

theorem addFutures_prefix (val : Int) : ∀ (qs : List FuturesQuote) (out ps : List Pillar),
    addFutures val qs out = .ok ps → ∃ new, ps = out ++ new ∧ new.length = qs.length
  | [], out, ps, h => by
    cases h
    exact ⟨[], by simp, rfl⟩
  | q :: qs, out, ps, h => by
    rw [addFutures] at h
    obtain ⟨s, -, h⟩ := bind_eq_ok.1 h
    obtain ⟨m, -, h⟩ := bind_eq_ok.1 h
    obtain ⟨z, -, h⟩ := bind_eq_ok.1 h
    obtain ⟨d, -, h⟩ := bind_eq_ok.1 h
    obtain ⟨new, e, hl⟩ := addFutures_prefix val qs _ ps h
    exact ⟨[_] ++ new, by rw [e, List.append_assoc], by simp [hl]⟩

theorem stripQuotes_append (solve : RootFinder) (cv : Curve) (val : Int) (rs : List CapQuote) :
    ∀ (qs : List CapQuote) (strip : List StripPoint), stripQuotes solve cv val (qs ++ rs) strip =
      stripQuotes solve cv val qs strip >>= stripQuotes solve cv val rs
  | [], strip => by simp [stripQuotes]
  | q :: qs, strip => by
    rw [List.cons_append, stripQuotes, stripQuotes]
    cases q.lastStart with
    | ok last =>
      simp only [ok_bind]
      have hs : (solve (q.residual cv val strip) >>= fun sigma =>
          stripQuotes solve cv val (qs ++ rs) (strip ++ [⟨last, sigma⟩])) =
          (solve (q.residual cv val strip) >>= fun sigma =>
            stripQuotes solve cv val qs (strip ++ [⟨last, sigma⟩])) >>= stripQuotes solve cv val rs := by
        cases solve (q.residual cv val strip) with
        | ok x => exact stripQuotes_append solve cv val rs qs _
        | fail e => rfl
        | panic => rfl
      split
      · split_ifs
        · exact stripQuotes_append solve cv val rs qs strip
        · exact hs
      · exact hs
    | fail e => rfl
    | panic => rfl

theorem growNu_append (qs : List (ℝ × Sabr)) : ∀ (ps : List (ℝ × Sabr)) (ks nus : List ℝ),
    growNu ks nus (ps ++ qs) = growNu ks nus ps >>= fun out => growNu (ks ++ ps.map Prod.fst) out qs
  | [], ks, nus => by simp [growNu]
  | (T, m) :: ps, ks, nus => by
    simp only [List.cons_append, growNu]
    cases tdSolve (nuGap (ks ++ [T]) nus T m) (max (m.nu * 2) 0.1) with
    | ok nu => simpa using growNu_append qs ps (ks ++ [T]) (nus ++ [nu])
    | fail e => rfl
    | panic => rfl

theorem growAlpha_append (nus : List ℝ) (qs : List (ℝ × Sabr)) : ∀ (ps : List (ℝ × Sabr)) (ks als : List ℝ),
    growAlpha nus ks als (ps ++ qs) =
      growAlpha nus ks als ps >>= fun out => growAlpha nus (ks ++ ps.map Prod.fst) out qs
  | [], ks, als => by simp [growAlpha]
  | (T, m) :: ps, ks, als => by
    simp only [List.cons_append, growAlpha]
    cases tdSolve (alphaGap (ks ++ [T]) (nus.take (als.length + 1)) als T m) (max (m.alpha * 4) 0.5) with
    | ok a => simpa using growAlpha_append nus qs ps (ks ++ [T]) (als ++ [a])
    | fail e => rfl
    | panic => rfl

theorem growAlpha_take (nus more : List ℝ) : ∀ (ps : List (ℝ × Sabr)) (ks als : List ℝ),
    als.length + ps.length ≤ nus.length → growAlpha (nus ++ more) ks als ps = growAlpha nus ks als ps
  | [], ks, als, _ => rfl
  | (T, m) :: ps, ks, als, h => by
    simp only [List.length_cons] at h
    rw [growAlpha, growAlpha, List.take_append_of_le_length (by omega)]
    congr 1
    funext a
    exact growAlpha_take nus more ps _ _ (by simp; omega)

theorem growRho_append (nus als : List ℝ) (qs : List (ℝ × Sabr)) : ∀ (ps : List (ℝ × Sabr)) (ks : List ℝ)
    (prev : ℝ) (rhos : List ℝ) (tail : ℝ) (out : List ℝ),
    growRho nus als ks prev rhos tail (ps ++ qs) = .ok out →
    ∃ mid, growRho nus als ks prev rhos tail ps = .ok mid ∧ mid <+: out
  | [], ks, prev, rhos, tail, out, h => by
    refine ⟨rhos, rfl, ?_⟩
    induction qs generalizing ks prev rhos tail with
    | nil => cases h; exact List.prefix_rfl
    | cons q qs ih =>
      obtain ⟨T, m⟩ := q
      rw [List.nil_append, growRho] at h
      obtain ⟨_, _, h⟩ := bind_eq_ok.1 h
      obtain ⟨_, _, h⟩ := bind_eq_ok.1 h
      obtain ⟨_, _, h⟩ := bind_eq_ok.1 h
      obtain ⟨_, _, h⟩ := bind_eq_ok.1 h
      obtain ⟨_, _, h⟩ := bind_eq_ok.1 h
      obtain ⟨_, _, h⟩ := bind_eq_ok.1 h
      dsimp only at h
      split_ifs at h
      exact (List.prefix_append _ _).trans (ih _ _ _ _ h)
  | (T, m) :: ps, ks, prev, rhos, tail, out, h => by
    rw [List.cons_append, growRho] at h
    obtain ⟨a1, h1, h⟩ := bind_eq_ok.1 h
    obtain ⟨a2, h2, h⟩ := bind_eq_ok.1 h
    obtain ⟨a3, h3, h⟩ := bind_eq_ok.1 h
    obtain ⟨a4, h4, h⟩ := bind_eq_ok.1 h
    obtain ⟨a5, h5, h⟩ := bind_eq_ok.1 h
    obtain ⟨a6, h6, h⟩ := bind_eq_ok.1 h
    dsimp only at h
    split_ifs at h with hs
    obtain ⟨mid, hm, hp⟩ := growRho_append nus als qs ps _ _ _ _ _ h
    refine ⟨mid, ?_, hp⟩
    rw [growRho, h1, ok_bind, h2, ok_bind, h3, ok_bind, h4, ok_bind, h5, ok_bind, h6, ok_bind]
    dsimp only
    rw [if_pos hs]
    exact hm

theorem growRho_take (nus als mn ma : List ℝ) : ∀ (ps : List (ℝ × Sabr)) (ks : List ℝ) (prev : ℝ)
    (rhos : List ℝ) (tail : ℝ), rhos.length + ps.length ≤ nus.length → rhos.length + ps.length ≤ als.length →
    growRho (nus ++ mn) (als ++ ma) ks prev rhos tail ps = growRho nus als ks prev rhos tail ps
  | [], ks, prev, rhos, tail, _, _ => rfl
  | (T, m) :: ps, ks, prev, rhos, tail, h, h' => by
    simp only [List.length_cons] at h h'
    rw [growRho, growRho, List.take_append_of_le_length (by omega), List.take_append_of_le_length (by omega),
      List.getElem?_append_left (by omega), List.getElem?_append_left (by omega)]
    have ih := fun ks prev x tail => growRho_take nus als mn ma ps ks prev (rhos ++ [x]) tail
      (by simp; omega) (by simp; omega)
    simp only [ih]

theorem tdStages_prefix {ps qs : List (ℝ × Sabr)} {beta f0 : ℝ} {p : TdSabr} (h0 : ps ≠ [])
    (h : tdStages (ps ++ qs) beta f0 = .ok p) : ∃ p0, tdStages ps beta f0 = .ok p0 ∧
      p0.nu.knots = 0 :: ps.map Prod.fst ∧ p.nu.knots = p0.nu.knots ++ qs.map Prod.fst ∧
      p0.nu.values = p.nu.values.take ps.length ∧ p0.alpha.values = p.alpha.values.take ps.length ∧
      p0.rho.values = p.rho.values.take ps.length := by
  obtain ⟨h1, h2, h3, k1, k2, k3, b1, b2, hc, -, b3, b4, b5, q1, q2, q3⟩ := tdStages_parts h
  rw [growNu_append] at h1
  obtain ⟨nus, n1, n2⟩ := bind_eq_ok.1 h1
  obtain ⟨nn, e1, l1, -⟩ := growNu_spec _ _ _ _ n1
  obtain ⟨nm, e2, -, -⟩ := growNu_spec _ _ _ _ n2
  rw [List.nil_append] at e1
  subst e1
  rw [growAlpha_append] at h2
  obtain ⟨als, a1, a2⟩ := bind_eq_ok.1 h2
  obtain ⟨an, f1, l2, -⟩ := growAlpha_spec _ _ _ _ _ a1
  obtain ⟨am, f2, -, -⟩ := growAlpha_spec _ _ _ _ _ a2
  rw [List.nil_append] at f1
  subst f1
  rw [e2, growAlpha_take _ _ _ _ _ (by simp [l1])] at a1
  rw [e2, f2] at h3
  obtain ⟨rhos, r1, r2⟩ := growRho_append _ _ _ _ _ _ _ _ _ h3
  rw [growRho_take _ _ _ _ _ _ _ _ _ (by simp [l1]) (by simp [l2])] at r1
  obtain ⟨rw, l3, e3, -⟩ := growRho_spec _ _ _ _ _ _ _ _ (by simp) (by simp) r1
  have l3' : rhos.length = ps.length := by rw [e3]; simp [l3]
  have hc' : (0 :: ps.map Prod.fst).IsChain (· < ·) := by
    rw [List.map_append, ← List.cons_append] at hc
    exact (List.isChain_append.1 hc).1
  have hlen : 2 ≤ (0 :: ps.map Prod.fst).length := by
    have := List.length_pos_iff.2 h0
    simp; omega
  have hnew : ∀ vs : List ℝ, vs.length = ps.length → PieceConst.new (0 :: ps.map Prod.fst) vs =
      .ok ⟨0 :: ps.map Prod.fst, vs⟩ := fun vs hv =>
    new_ok_iff.2 ⟨hlen, by simp [hv], by simp, hc', rfl⟩
  rw [e2] at q2
  rw [f2] at q1
  refine ⟨⟨⟨0 :: ps.map Prod.fst, als⟩, ⟨0 :: ps.map Prod.fst, rhos⟩, ⟨0 :: ps.map Prod.fst, nus⟩, beta, f0⟩, ?_,
    rfl, ?_, ?_, ?_, ?_⟩
  · unfold tdStages
    dsimp only
    rw [n1, ok_bind, hnew _ l1, ok_bind, a1, ok_bind, hnew _ l2, ok_bind, r1, ok_bind, hnew _ l3', ok_bind]
    unfold TdSabr.new
    rw [if_pos rfl, if_pos rfl, if_pos ⟨b3, b4⟩, if_pos b5,
      if_pos (fun a ha => q1 a (List.mem_append_left _ ha)),
      if_pos (fun a ha => q2 a (List.mem_append_left _ ha)),
      if_pos (fun a ha => q3 a (r2.subset ha))]
  · rw [k1]; simp
  · rw [e2, ← l1, List.take_left']; rfl
  · rw [f2, ← l2, List.take_left']; rfl
  · rw [← l3']; exact List.prefix_iff_eq_take.1 r2

/-! ## Lookups -/

theorem scanPillars_append (t : Int) (rs : List Pillar) : ∀ (ps : List Pillar) (f : Pillar),
    (∃ p ∈ ps, t ≤ p.date ∧ p.hidden = false) → scanPillars t f (ps ++ rs) = scanPillars t f ps
  | [], f, h => by simp at h
  | p :: ps, f, h => by
    rw [List.cons_append, scanPillars, scanPillars]
    by_cases hp : t ≤ p.date ∧ p.hidden = false
    · rw [if_pos hp, if_pos hp]
    · rw [if_neg hp, if_neg hp]
      refine scanPillars_append t rs ps p ?_
      obtain ⟨q, hq, h'⟩ := h
      rcases List.mem_cons.1 hq with rfl | hq
      · exact absurd h' hp
      · exact ⟨q, hq, h'⟩

theorem zeroRate_append (v d : Int) (ps rs : List Pillar) (h : ∃ p ∈ ps, d + 1 ≤ p.date ∧ p.hidden = false) :
    (Curve.mk v (ps ++ rs)).zeroRate d = (Curve.mk v ps).zeroRate d := by
  cases ps with
  | nil => simp at h
  | cons p ps =>
    unfold Curve.zeroRate
    by_cases hv : addDays d 1 = .ok (d + 1)
    · rw [hv, ok_bind, ok_bind]
      have hf : (p :: ps ++ rs).find? (fun p => !p.hidden) = (p :: ps).find? (fun p => !p.hidden) := by
        rw [List.find?_append]
        obtain ⟨q, hq, -, hh⟩ := h
        cases hc : (p :: ps).find? (fun p => !p.hidden) with
        | none => exact absurd (List.find?_eq_none.1 hc q hq) (by simp [hh])
        | some x => rfl
      have hs := scanPillars_append (d + 1) rs (p :: ps) p h
      simp only [List.cons_append] at hf hs ⊢
      rw [hs, hf]
    · have : addDays d 1 = .ok (d + 1) ∨ addDays d 1 = .panic := by
        unfold addDays
        split_ifs <;> simp
      rcases this with h' | h'
      · exact absurd h' hv
      · rw [h']; rfl

/-! ## Cash quotes -/

theorem maturity_of_index {q q' : OisRate} (h : q'.index = q.index) (val : Int) :
    q'.maturityDate val = q.maturityDate val := by
  unfold OisRate.maturityDate OisRate.settleDate
  rw [h]

theorem cashMaturities_congr {val : Int} {qs qs' : List OisRate}
    (h : List.Forall₂ (fun q q' => q'.index = q.index) qs qs') :
    cashMaturities val qs' = cashMaturities val qs := by
  induction h with
  | nil => rfl
  | cons h _ ih => rw [cashMaturities, cashMaturities, maturity_of_index h, ih]

theorem cashAt_congr {val m M : Int} (hm : m ≠ M) {qs qs' : List OisRate}
    (h : List.Forall₂ (fun q q' => q'.index = q.index ∧ (q.maturityDate val ≠ .ok M → q' = q)) qs qs') :
    cashAt val m qs' = cashAt val m qs := by
  induction h with
  | nil => rfl
  | cons h _ ih =>
    rename_i q q' l l' _
    rw [cashAt, cashAt, maturity_of_index h.1, ih]
    cases hq : q.maturityDate val with
    | ok d =>
      by_cases hd : d = M
      · simp only [unwrapResult, ok_bind]
        rw [if_neg (by omega), if_neg (by omega)]
      · rw [h.2 (by rw [hq]; simpa using hd)]
    | fail e => rfl
    | panic => rfl

theorem cashAt_dates {val m : Int} : ∀ {qs : List OisRate} {l : List Pillar}, cashAt val m qs = .ok l →
    ∀ p ∈ l, p.date = m
  | [], l, h => by cases h; simp
  | q :: qs, l, h => by
    rw [cashAt] at h
    obtain ⟨m', hm', h⟩ := bind_eq_ok.1 h
    rw [unwrapResult_ok] at hm'
    split_ifs at h with e
    · obtain ⟨p, hp, h⟩ := bind_eq_ok.1 h
      obtain ⟨r, hr, h⟩ := bind_eq_ok.1 h
      cases h
      intro x hx
      rcases List.mem_cons.1 hx with rfl | hx
      · have := (cash_pillar hp).2.1
        rw [hm'] at this
        rw [← e]
        exact (ok.inj this).symm
      · exact cashAt_dates hr x hx
    · exact cashAt_dates h

theorem cashPillars_congr {val M : Int} {qs qs' : List OisRate}
    (h : List.Forall₂ (fun q q' => q'.index = q.index ∧ (q.maturityDate val ≠ .ok M → q' = q)) qs qs') :
    ∀ {ms : List Int} {l l' : List Pillar}, cashPillars val qs ms = .ok l → cashPillars val qs' ms = .ok l' →
      l'.filter (fun p => decide (p.date ≠ M)) = l.filter fun p => decide (p.date ≠ M)
  | [], l, l', h1, h2 => by cases h1; cases h2; rfl
  | m :: ms, l, l', h1, h2 => by
    rw [cashPillars] at h1 h2
    obtain ⟨a, ha, h1⟩ := bind_eq_ok.1 h1
    obtain ⟨b, hb, h1⟩ := bind_eq_ok.1 h1
    obtain ⟨a', ha', h2⟩ := bind_eq_ok.1 h2
    obtain ⟨b', hb', h2⟩ := bind_eq_ok.1 h2
    cases h1; cases h2
    rw [List.filter_append, List.filter_append, cashPillars_congr h hb hb']
    congr 1
    by_cases hm : m = M
    · subst hm
      rw [List.filter_eq_nil_iff.2, List.filter_eq_nil_iff.2]
      · intro p hp; simp [cashAt_dates ha p hp]
      · intro p hp; simp [cashAt_dates ha' p hp]
    · rw [cashAt_congr hm h, ha] at ha'
      rw [ok.inj ha']

/-! ## Caplet columns -/

theorem stripQuotes_mem {solve : RootFinder} {cv : Curve} {val : Int} : ∀ {qs : List CapQuote}
    {pre out : List StripPoint}, stripQuotes solve cv val qs pre = .ok out →
    ∃ new, out = pre ++ new ∧ ∀ p ∈ new, ∃ q ∈ qs, q.lastStart = .ok p.expiry
  | [], pre, out, h => by cases h; exact ⟨[], by simp, by simp⟩
  | q :: qs, pre, out, h => by
    obtain ⟨last, hl, ⟨-, h⟩ | ⟨-, sigma, -, h⟩⟩ := stripQuotes_cons.1 h
    · obtain ⟨new, e, hn⟩ := stripQuotes_mem h
      exact ⟨new, e, fun p hp => let ⟨x, hx, h'⟩ := hn p hp; ⟨x, List.mem_cons_of_mem _ hx, h'⟩⟩
    · obtain ⟨new, e, hn⟩ := stripQuotes_mem h
      refine ⟨[⟨last, sigma⟩] ++ new, by rw [e, List.append_assoc], fun p hp => ?_⟩
      rcases List.mem_append.1 hp with hp | hp
      · rw [List.mem_singleton.1 hp]
        exact ⟨q, List.mem_cons_self .., hl⟩
      · obtain ⟨x, hx, h'⟩ := hn p hp
        exact ⟨x, List.mem_cons_of_mem _ hx, h'⟩

/-- Quotes of one strike in the order of their last fixing: the strip of the first ones begins the
strip of all. -/
theorem stripOneStrike_append {solve : RootFinder} {cv : Curve} {val : Int} {qs rs : List CapQuote}
    {out : List StripPoint} (hs : (qs ++ rs).Pairwise fun a b => a.sortKey val ≤ b.sortKey val)
    (h : stripOneStrike solve cv val (qs ++ rs) = .ok out) :
    ∃ first later, stripOneStrike solve cv val qs = .ok first ∧ out = first ++ later ∧
      (∀ p ∈ first, ∃ q ∈ qs, q.lastStart = .ok p.expiry) ∧ ∀ p ∈ later, ∃ q ∈ rs, q.lastStart = .ok p.expiry := by
  unfold stripOneStrike at h ⊢
  rw [List.mergeSort_of_pairwise (hs.imp fun {a b} h => by simpa using h), stripQuotes_append] at h
  rw [List.mergeSort_of_pairwise ((List.pairwise_append.1 hs).1.imp fun {a b} h => by simpa using h)]
  obtain ⟨first, h1, h2⟩ := bind_eq_ok.1 h
  obtain ⟨later, e, hl⟩ := stripQuotes_mem h2
  obtain ⟨new, e', hf⟩ := stripQuotes_mem h1
  rw [List.nil_append] at e'
  subst e'
  exact ⟨first, later, h1, e, hf, hl⟩

/-- Columns that agree up to the date `E`. -/
def ColumnsExtend (E : Int) (c c' : ℝ × List StripPoint) : Prop :=
  c'.1 = c.1 ∧ ∃ later, c'.2 = c.2 ++ later ∧ (∀ p ∈ c.2, p.expiry ≤ E) ∧ ∀ p ∈ later, E < p.expiry

theorem pillarNodes_extend {E x : Int} {cs cs' : List (ℝ × List StripPoint)}
    (h : List.Forall₂ (ColumnsExtend E) cs cs') (hx : x ≤ E) : pillarNodes cs' x = pillarNodes cs x := by
  unfold pillarNodes
  congr 1
  induction h with
  | nil => rfl
  | cons h _ ih =>
    obtain ⟨h1, later, h2, -, h3⟩ := h
    rw [List.filterMap_cons, List.filterMap_cons, ih, h1, h2, List.reverse_append, List.find?_append]
    rw [show later.reverse.find? (fun p => decide (p.expiry ≤ x)) = none by
      rw [List.find?_eq_none]
      intro p hp
      have := h3 p (List.mem_reverse.1 hp)
      simp; omega]
    rfl

theorem columnExpiries_extend {E : Int} {cs cs' : List (ℝ × List StripPoint)}
    (h : List.Forall₂ (ColumnsExtend E) cs cs') :
    ∃ rest, columnExpiries cs' = columnExpiries cs ++ rest ∧ ∀ x ∈ rest, E < x := by
  have s' := columnExpiries_sorted cs'
  have s := columnExpiries_sorted cs
  have hmem : ∀ x, x ∈ columnExpiries cs ↔ x ∈ columnExpiries cs' ∧ x ≤ E := by
    intro x
    rw [mem_columnExpiries, mem_columnExpiries]
    clear s s'
    induction h with
    | nil => simp
    | cons h _ ih =>
      obtain ⟨h1, later, h2, h3, h4⟩ := h
      simp only [List.mem_cons, exists_eq_or_imp, ih, h2, List.mem_append]
      constructor
      · rintro (⟨p, hp, rfl⟩ | ⟨h, hE⟩)
        · exact ⟨.inl ⟨p, .inl hp, rfl⟩, h3 p hp⟩
        · exact ⟨.inr h, hE⟩
      · rintro ⟨⟨p, hp | hp, rfl⟩ | h, hE⟩
        · exact .inl ⟨p, hp, rfl⟩
        · have := h4 p hp; omega
        · exact .inr ⟨h, hE⟩
  generalize columnExpiries cs = l at s hmem ⊢
  generalize columnExpiries cs' = l' at s' hmem ⊢
  clear h
  have e : l = l'.filter fun x => decide (x ≤ E) := by
    refine List.Perm.eq_of_pairwise' (r := (· ≤ ·)) (s.imp fun h => h.le) ((s'.filter _).imp fun h => h.le) ?_
    refine (List.perm_ext_iff_of_nodup (s.imp fun h => h.ne) ((s'.filter _).imp fun h => h.ne)).2 ?_
    intro x
    rw [hmem]
    simp
  refine ⟨l'.filter fun x => decide (E < x), ?_, by simp⟩
  rw [e]
  clear e hmem s l
  induction l' with
  | nil => rfl
  | cons a l ih =>
    obtain ⟨h1, h2⟩ := List.pairwise_cons.1 s'
    by_cases ha : a ≤ E
    · rw [List.filter_cons_of_pos (by simpa using ha), List.filter_cons_of_neg (by simpa using ha),
        List.cons_append, ← ih h2]
    · have hl : ∀ x ∈ l, E < x := fun x hx => by have := h1 x hx; omega
      rw [List.filter_eq_nil_iff.2, List.nil_append, List.filter_eq_self.2]
      · intro x hx
        rcases List.mem_cons.1 hx with rfl | hx
        · simpa using ha
        · simpa using hl x hx
      · intro x hx
        rcases List.mem_cons.1 hx with rfl | hx
        · simpa using ha
        · simpa using hl x hx

theorem assemble_extend {E : Int} {cs cs' : List (ℝ × List StripPoint)}
    (h : List.Forall₂ (ColumnsExtend E) cs cs') :
    ∃ rest, assemblePillars cs' = assemblePillars cs ++ rest ∧ (∀ p ∈ assemblePillars cs, p.expiry ≤ E) ∧
      ∀ p ∈ rest, E < p.expiry := by
  obtain ⟨rest, e, hr⟩ := columnExpiries_extend h
  have hle : ∀ x ∈ columnExpiries cs, x ≤ E := by
    intro x hx
    obtain ⟨c, hc, p, hp, rfl⟩ := mem_columnExpiries.1 hx
    clear e hr hx
    induction h with
    | nil => simp at hc
    | cons h _ ih =>
      rcases List.mem_cons.1 hc with rfl | hc
      · obtain ⟨-, -, -, h3, -⟩ := h
        exact h3 p hp
      · exact ih hc
  rw [assemblePillars_eq, assemblePillars_eq, e, List.filterMap_append]
  refine ⟨_, congrArg₂ (· ++ ·) ?_ rfl, ?_, ?_⟩
  · refine List.filterMap_congr fun x hx => ?_
    rw [pillarNodes_extend h (hle x hx)]
  · intro p hp
    obtain ⟨x, hx, hp⟩ := List.mem_filterMap.1 hp
    split at hp
    · simp at hp
    · simp only [Option.some.injEq] at hp
      subst hp
      exact hle x hx
  · intro p hp
    obtain ⟨x, hx, hp⟩ := List.mem_filterMap.1 hp
    split at hp
    · simp at hp
    · simp only [Option.some.injEq] at hp
      subst hp
      exact hr x hx

theorem pickPillar_append {e : Int} {ps rest : List CapletPillar} (h : ∃ p ∈ ps, e ≤ p.expiry) :
    pickPillar e (ps ++ rest) = pickPillar e ps := by
  unfold pickPillar
  rw [List.find?_append]
  obtain ⟨p, hp, he⟩ := h
  cases hc : ps.find? (fun p => decide (e ≤ p.expiry)) with
  | none => exact absurd (List.find?_eq_none.1 hc p hp) (by simpa using he)
  | some x => rfl

/-! ## Groups of caplet quotes -/

/-- One group and the same group with more quotes at its end. -/
structure GroupExt where
  strike : ℝ
  first : List CapQuote
  more : List CapQuote

def GroupExt.before (g : GroupExt) : ℝ × List CapQuote := (g.strike, g.first)
def GroupExt.after (g : GroupExt) : ℝ × List CapQuote := (g.strike, g.first ++ g.more)

theorem addToGroups_known {q : CapQuote} {S : CapQuote → Prop} (hS : S q) : ∀ (zs : List GroupExt),
    (∃ z ∈ zs, |z.strike - q.strike| < 1 / 1000000000000) → (∀ z ∈ zs, ∀ x ∈ z.more, S x) →
    ∃ zs' : List GroupExt, zs'.map GroupExt.before = zs.map GroupExt.before ∧
      zs'.map GroupExt.after = addToGroups q (zs.map GroupExt.after) ∧ ∀ z ∈ zs', ∀ x ∈ z.more, S x
  | [], h, _ => by simp at h
  | z :: zs, h, hm => by
    rw [List.map_cons, List.map_cons, addToGroups]
    by_cases hz : |z.strike - q.strike| < 1 / 1000000000000
    · refine ⟨⟨z.strike, z.first, z.more ++ [q]⟩ :: zs, by simp [GroupExt.before], ?_, ?_⟩
      · rw [if_pos (by simpa [GroupExt.after] using hz)]
        simp [GroupExt.after]
      · intro y hy x hx
        rcases List.mem_cons.1 hy with rfl | hy
        · rcases List.mem_append.1 hx with hx | hx
          · exact hm z (List.mem_cons_self ..) x hx
          · rw [List.mem_singleton.1 hx]; exact hS
        · exact hm y (List.mem_cons_of_mem _ hy) x hx
    · obtain ⟨y, hy, hq⟩ := h
      rcases List.mem_cons.1 hy with rfl | hy
      · exact absurd hq hz
      · obtain ⟨zs', h1, h2, h3⟩ := addToGroups_known hS zs ⟨y, hy, hq⟩
          fun z hz => hm z (List.mem_cons_of_mem _ hz)
        refine ⟨z :: zs', by rw [List.map_cons, h1], ?_, ?_⟩
        · rw [if_neg (by simpa [GroupExt.after] using hz), List.map_cons, h2]
        · intro y hy
          rcases List.mem_cons.1 hy with rfl | hy
          · exact hm y (List.mem_cons_self ..)
          · exact h3 y hy

theorem groups_known {S : CapQuote → Prop} {rs : List CapQuote} (hS : ∀ r ∈ rs, S r) : ∀ (zs : List GroupExt),
    (∀ r ∈ rs, ∃ z ∈ zs, |z.strike - r.strike| < 1 / 1000000000000) → (∀ z ∈ zs, ∀ x ∈ z.more, S x) →
    ∃ zs' : List GroupExt, zs'.map GroupExt.before = zs.map GroupExt.before ∧
      zs'.map GroupExt.after = rs.foldl (fun gs q => addToGroups q gs) (zs.map GroupExt.after) ∧
      ∀ z ∈ zs', ∀ x ∈ z.more, S x := by
  induction rs with
  | nil => exact fun zs _ h => ⟨zs, rfl, rfl, h⟩
  | cons r rs ih =>
    intro zs h hm
    obtain ⟨ys, h1, h2, h5⟩ := addToGroups_known (hS r (List.mem_cons_self ..)) zs
      (h r (List.mem_cons_self ..)) hm
    have hy : ∀ r ∈ rs, ∃ z ∈ ys, |z.strike - r.strike| < 1 / 1000000000000 := by
      intro q hq
      obtain ⟨z, hz, hk⟩ := h q (List.mem_cons_of_mem _ hq)
      have hm : z.strike ∈ ys.map GroupExt.strike := by
        have e : ys.map GroupExt.strike = zs.map GroupExt.strike := by
          have := congrArg (List.map Prod.fst) h1
          simpa [GroupExt.before, Function.comp_def] using this
        rw [e]
        exact List.mem_map_of_mem hz
      obtain ⟨y, hy, e⟩ := List.mem_map.1 hm
      exact ⟨y, hy, by rw [e]; exact hk⟩
    obtain ⟨xs, h3, h4, h6⟩ := ih (fun q hq => hS q (List.mem_cons_of_mem _ hq)) ys hy h5
    exact ⟨xs, h3.trans h1, by rw [h4, h2]; rfl, h6⟩

/-- Groups are made of quotes in their order. -/
theorem addToGroups_pairwise {R : CapQuote → CapQuote → Prop} {q : CapQuote} : ∀ {gs : List (ℝ × List CapQuote)},
    (∀ g ∈ gs, g.2.Pairwise R ∧ ∀ x ∈ g.2, R x q) → ∀ g ∈ addToGroups q gs, g.2.Pairwise R ∧
      ∀ x ∈ g.2, x = q ∨ ∃ g' ∈ gs, x ∈ g'.2
  | [], _, g, hg => by
    rw [addToGroups] at hg
    rw [List.mem_singleton.1 hg]
    simp
  | a :: gs, h, g, hg => by
    rw [addToGroups] at hg
    split_ifs at hg with hc
    · rcases List.mem_cons.1 hg with rfl | hg
      · obtain ⟨h1, h2⟩ := h a (List.mem_cons_self ..)
        refine ⟨List.pairwise_append.2 ⟨h1, List.pairwise_singleton _ _, ?_⟩, ?_⟩
        · intro x hx y hy
          rw [List.mem_singleton.1 hy]
          exact h2 x hx
        · intro x hx
          rcases List.mem_append.1 hx with hx | hx
          · exact .inr ⟨a, List.mem_cons_self .., hx⟩
          · exact .inl (List.mem_singleton.1 hx)
      · exact ⟨(h g (List.mem_cons_of_mem _ hg)).1, fun x hx => .inr ⟨g, List.mem_cons_of_mem _ hg, hx⟩⟩
    · rcases List.mem_cons.1 hg with rfl | hg
      · exact ⟨(h g (List.mem_cons_self ..)).1, fun x hx => .inr ⟨g, List.mem_cons_self .., hx⟩⟩
      · obtain ⟨h1, h2⟩ := addToGroups_pairwise (fun g hg => h g (List.mem_cons_of_mem _ hg)) g hg
        refine ⟨h1, fun x hx => ?_⟩
        rcases h2 x hx with h' | ⟨g', hg', h'⟩
        · exact .inl h'
        · exact .inr ⟨g', List.mem_cons_of_mem _ hg', h'⟩

theorem foldGroups_pairwise {R : CapQuote → CapQuote → Prop} : ∀ {qs : List CapQuote} {gs : List (ℝ × List CapQuote)},
    qs.Pairwise R → (∀ g ∈ gs, g.2.Pairwise R ∧ ∀ x ∈ g.2, ∀ q ∈ qs, R x q) →
    ∀ g ∈ qs.foldl (fun gs q => addToGroups q gs) gs, g.2.Pairwise R
  | [], gs, _, h, g, hg => (h g hg).1
  | q :: qs, gs, hq, h, g, hg => by
    obtain ⟨h1, h2⟩ := List.pairwise_cons.1 hq
    have k := addToGroups_pairwise (R := R) (q := q) (gs := gs)
      fun g hg => ⟨(h g hg).1, fun x hx => (h g hg).2 x hx q (List.mem_cons_self ..)⟩
    refine foldGroups_pairwise h2 (fun g hg => ⟨(k g hg).1, fun x hx y hy => ?_⟩) g hg
    rcases (k g hg).2 x hx with rfl | ⟨g', hg', h'⟩
    · exact h1 y hy
    · exact (h g' hg').2 x h' y (List.mem_cons_of_mem _ hy)

theorem groupMembers {qs : List CapQuote} : ∀ {gs : List (ℝ × List CapQuote)} {S : CapQuote → Prop},
    (∀ g ∈ gs, ∀ x ∈ g.2, S x) → (∀ q ∈ qs, S q) →
    ∀ g ∈ qs.foldl (fun gs q => addToGroups q gs) gs, ∀ x ∈ g.2, S x := by
  induction qs with
  | nil => exact fun h _ => h
  | cons q qs ih =>
    intro gs S h hq
    refine ih (fun g hg x hx => ?_) fun r hr => hq r (List.mem_cons_of_mem _ hr)
    have k := addToGroups_pairwise (R := fun _ _ => True) (q := q) (gs := gs)
      (fun g hg => ⟨List.pairwise_of_forall (by simp), by simp⟩) g hg
    rcases k.2 x hx with rfl | ⟨g', hg', h'⟩
    · exact hq _ (List.mem_cons_self ..)
    · exact h g' hg' x h'

theorem addToGroups_strike (q : CapQuote) : ∀ (gs : List (ℝ × List CapQuote)),
    ∃ g ∈ addToGroups q gs, |g.1 - q.strike| < 1 / 1000000000000
  | [] => ⟨(q.strike, [q]), by simp [addToGroups], by simp⟩
  | g :: gs => by
    rw [addToGroups]
    split_ifs with h
    · exact ⟨_, List.mem_cons_self .., h⟩
    · obtain ⟨x, hx, hk⟩ := addToGroups_strike q gs
      exact ⟨x, List.mem_cons_of_mem _ hx, hk⟩

theorem addToGroups_keeps {q : CapQuote} {k : ℝ} : ∀ {gs : List (ℝ × List CapQuote)},
    (∃ g ∈ gs, g.1 = k) → ∃ g ∈ addToGroups q gs, g.1 = k
  | [], h => by simp at h
  | a :: gs, ⟨g, hg, e⟩ => by
    rw [addToGroups]
    split_ifs with h
    · rcases List.mem_cons.1 hg with rfl | hg
      · exact ⟨_, List.mem_cons_self .., e⟩
      · exact ⟨g, List.mem_cons_of_mem _ hg, e⟩
    · rcases List.mem_cons.1 hg with rfl | hg
      · exact ⟨_, List.mem_cons_self .., e⟩
      · obtain ⟨x, hx, hk⟩ := addToGroups_keeps ⟨g, hg, e⟩
        exact ⟨x, List.mem_cons_of_mem _ hx, hk⟩

theorem foldGroups_keeps {k : ℝ} : ∀ {qs : List CapQuote} {gs : List (ℝ × List CapQuote)},
    (∃ g ∈ gs, g.1 = k) → ∃ g ∈ qs.foldl (fun gs q => addToGroups q gs) gs, g.1 = k
  | [], _, h => h
  | _ :: qs, _, h => foldGroups_keeps (qs := qs) (addToGroups_keeps h)

theorem foldGroups_strike : ∀ {qs : List CapQuote} {gs : List (ℝ × List CapQuote)} {q : CapQuote}, q ∈ qs →
    ∃ g ∈ qs.foldl (fun gs q => addToGroups q gs) gs, |g.1 - q.strike| < 1 / 1000000000000
  | a :: qs, gs, q, h => by
    rw [List.foldl_cons]
    rcases List.mem_cons.1 h with rfl | h
    · obtain ⟨g, hg, hk⟩ := addToGroups_strike q gs
      obtain ⟨x, hx, e⟩ := foldGroups_keeps (qs := qs) ⟨g, hg, rfl⟩
      exact ⟨x, hx, by rw [e]; exact hk⟩
    · exact foldGroups_strike h

theorem stripColumns_of {solve : RootFinder} {cv : Curve} {val : Int} {gs : List (ℝ × List CapQuote)}
    {cols : List (ℝ × List StripPoint)}
    (h : List.Forall₂ (fun g c => c.1 = g.1 ∧ stripOneStrike solve cv val g.2 = .ok c.2) gs cols) :
    stripColumns solve cv val gs = .ok cols := by
  induction h with
  | nil => rfl
  | cons h _ ih =>
    rw [stripColumns, h.2, ok_bind, ih, ok_bind, ← h.1]

/-- Quotes with later fixings, of strikes already quoted, leave the columns as they are and add to their
end. -/
theorem strip_extend {solve : RootFinder} {cv : Curve} {val E : Int} {qs rs : List CapQuote}
    {vs' : List CapletPillar} (hs : (qs ++ rs).Pairwise fun a b => a.sortKey val ≤ b.sortKey val)
    (hq : ∀ q ∈ qs, ∀ d, q.lastStart = .ok d → d ≤ E) (hr : ∀ q ∈ rs, ∀ d, q.lastStart = .ok d → E < d)
    (hk : ∀ r ∈ rs, ∃ q ∈ qs, r.strike = q.strike) (h : stripCapletVols solve cv val (qs ++ rs) = .ok vs') :
    ∃ vs rest, stripCapletVols solve cv val qs = .ok vs ∧ vs' = vs ++ rest ∧ (∀ p ∈ vs, p.expiry ≤ E) ∧
      ∀ p ∈ rest, E < p.expiry := by
  unfold stripCapletVols at h ⊢
  dsimp only at h ⊢
  obtain ⟨cols', h1, h⟩ := bind_eq_ok.1 h
  cases h
  have hp := foldGroups_pairwise (gs := []) hs (by simp)
  have hm := groupMembers (qs := qs) (gs := []) (S := fun q => q ∈ qs) (by simp) fun q hq => hq
  have hst := fun q (hq : q ∈ qs) => foldGroups_strike (gs := []) hq
  rw [List.foldl_append] at h1 hp
  generalize qs.foldl (fun gs q => addToGroups q gs) [] = G at *
  have e0 : (G.map fun g => (⟨g.1, g.2, []⟩ : GroupExt)).map GroupExt.before = G := by
    simp [GroupExt.before, Function.comp_def]
  have e1 : (G.map fun g => (⟨g.1, g.2, []⟩ : GroupExt)).map GroupExt.after = G := by
    simp [GroupExt.after, Function.comp_def]
  obtain ⟨zs, z1, z2, z3⟩ := groups_known (S := fun q => q ∈ rs) (rs := rs) (fun r hr => hr)
    (G.map fun g => ⟨g.1, g.2, []⟩) (fun r hr => by
      obtain ⟨q, hq, e⟩ := hk r hr
      obtain ⟨g, hg, hd⟩ := hst q hq
      exact ⟨⟨g.1, g.2, []⟩, List.mem_map_of_mem hg, by rw [e]; exact hd⟩) (by
      intro z hz x hx
      obtain ⟨g, -, rfl⟩ := List.mem_map.1 hz
      simp at hx)
  rw [e0] at z1
  rw [e1] at z2
  rw [← z2] at h1 hp
  rw [← z1] at hm ⊢
  rw [← List.map_mergeSort (r := fun a b => decide (a.strike ≤ b.strike)) (by intros; rfl)] at h1 ⊢
  have hperm := List.mergeSort_perm zs fun a b => decide (a.strike ≤ b.strike)
  generalize zs.mergeSort (fun a b => decide (a.strike ≤ b.strike)) = ws at *
  have hf := stripColumns_strikes h1
  have key : ∃ cols, List.Forall₂ (ColumnsExtend E) cols cols' ∧
      List.Forall₂ (fun g c => c.1 = g.1 ∧ stripOneStrike solve cv val g.2 = .ok c.2)
        (ws.map GroupExt.before) cols := by
    have hw : ∀ z ∈ ws, z ∈ zs := fun z hz => hperm.mem_iff.1 hz
    clear h h1 hperm
    induction ws generalizing cols' with
    | nil => cases hf; exact ⟨[], .nil, .nil⟩
    | cons z ws ih =>
      rw [List.map_cons] at hf
      rcases hf with _ | ⟨⟨c1, c2⟩, hf⟩
      rename_i c cols'
      obtain ⟨cols, i1, i2⟩ := ih cols' hf fun y hy => hw y (List.mem_cons_of_mem _ hy)
      have hz := hw z (List.mem_cons_self ..)
      obtain ⟨first, later, s1, s2, s3, s4⟩ := stripOneStrike_append
        (hp z.after (List.mem_map_of_mem hz)) c2
      refine ⟨(z.strike, first) :: cols, .cons ⟨c1, later, s2, ?_, ?_⟩ i1, .cons ⟨rfl, s1⟩ i2⟩
      · intro p hp'
        obtain ⟨q, hq', e⟩ := s3 p hp'
        exact hq q (hm _ (List.mem_map_of_mem hz) q hq') _ e
      · intro p hp'
        obtain ⟨q, hq', e⟩ := s4 p hp'
        exact hr q (z3 z hz q hq') _ e
  obtain ⟨cols, k1, k2⟩ := key
  obtain ⟨rest, a1, a2, a3⟩ := assemble_extend k1
  exact ⟨_, rest, by rw [stripColumns_of k2]; rfl, a1, a2, a3⟩

/-! ## Volatility surfaces -/

theorem buildSmiles_from {val : Int} {ps : List VolPillar} {l : List Smile}
    (h : buildSmiles val ps = .ok l) {sm : Smile} (hs : sm ∈ l) :
    ∃ p ∈ ps, Smile.fromPillar p (yf365 val p.expiry) = .ok sm := by
  induction ps generalizing l with
  | nil => rw [buildSmiles] at h; cases h; simp at hs
  | cons p ps ih =>
    rw [buildSmiles, bind_eq_ok] at h
    obtain ⟨s, h1, h⟩ := h
    rw [bind_eq_ok] at h
    obtain ⟨r, h2, h⟩ := h
    cases h
    rcases List.mem_cons.1 hs with rfl | hs
    · exact ⟨p, by simp, h1⟩
    · obtain ⟨q, hq, e⟩ := ih h2 hs
      exact ⟨q, by simp [hq], e⟩

theorem surface_from {val : Int} {ps : List VolPillar} {s : FxVolSurface}
    (h : FxVolSurface.new val ps = .ok s) {sm : Smile} (hs : sm ∈ s.smiles) :
    ∃ p ∈ ps, Smile.fromPillar p (yf365 val p.expiry) = .ok sm := by
  unfold FxVolSurface.new at h
  rcases ps with _ | ⟨p, ps⟩
  · cases h
  dsimp only at h
  rw [bind_eq_ok] at h
  obtain ⟨l, hl, h⟩ := h
  cases h
  exact buildSmiles_from hl ((List.mergeSort_perm _ _).mem_iff.1 hs)

theorem forall₂_mem_right {α β : Type} {R : α → β → Prop} {l : List α} {l' : List β}
    (h : List.Forall₂ R l l') {b : β} (hb : b ∈ l') : ∃ a ∈ l, R a b := by
  induction h with
  | nil => simp at hb
  | cons h1 _ ih =>
    rcases List.mem_cons.1 hb with rfl | hb
    · exact ⟨_, by simp, h1⟩
    · obtain ⟨a, ha, hr⟩ := ih hb
      exact ⟨a, by simp [ha], hr⟩

theorem eq_of_mem_distinct {α : Type} {f : α → Int} {l : List α} (hn : (l.map f).Nodup) {a b : α}
    (ha : a ∈ l) (hb : b ∈ l) (he : f a = f b) : a = b :=
  List.inj_on_of_nodup_map hn ha hb he

theorem surface_neighbour {val : Int} {ps ps' : List VolPillar} {s s' : FxVolSurface} {e : Int}
    (hn : (ps.map VolPillar.expiry).Nodup)
    (hp : List.Forall₂ (fun p p' : VolPillar => p'.expiry = p.expiry ∧
      (Neighbour (ps.map VolPillar.expiry) p.expiry e → p' = p)) ps ps')
    (h : FxVolSurface.new val ps = .ok s) (h' : FxVolSurface.new val ps' = .ok s') :
    s'.smiles.map Smile.expiry = s.smiles.map Smile.expiry ∧
    ∀ (i : ℕ) (sm sm' : Smile), s.smiles[i]? = some sm → s'.smiles[i]? = some sm' →
      Neighbour (s.smiles.map Smile.expiry) sm.expiry e → sm' = sm := by
  obtain ⟨-, -, p1, o1, -⟩ := surface_new h
  obtain ⟨-, -, p2, o2, -⟩ := surface_new h'
  have hm : ps'.map VolPillar.expiry = ps.map VolPillar.expiry := by
    have := hp.imp (S := fun p p' : VolPillar => p'.expiry = p.expiry) fun _ _ h => h.1
    clear * - this
    induction this with
    | nil => rfl
    | cons h1 _ ih => rw [List.map_cons, List.map_cons, h1, ih]
  rw [hm] at p2
  have he : s'.smiles.map Smile.expiry = s.smiles.map Smile.expiry :=
    (p2.trans p1.symm).eq_of_pairwise (fun a b _ _ => le_antisymm) o2 o1
  refine ⟨he, ?_⟩
  intro i sm sm' hi hi' hnb
  have hee : sm'.expiry = sm.expiry := by
    have := congrArg (·[i]?) he
    simpa [List.getElem?_map, hi, hi'] using this
  obtain ⟨p, hpm, hf⟩ := surface_from h (List.mem_of_getElem? hi)
  obtain ⟨p', hpm', hf'⟩ := surface_from h' (List.mem_of_getElem? hi')
  obtain ⟨q, hq, hq1, hq2⟩ := forall₂_mem_right hp hpm'
  have e1 := (fromPillar_dates hf).2.1
  have e2 := (fromPillar_dates hf').2.1
  have : q = p := eq_of_mem_distinct hn hq hpm (by rw [← hq1, ← e2, hee, e1])
  subst this
  have hN : Neighbour (ps.map VolPillar.expiry) q.expiry e := by
    intro x hx
    rw [← e1]
    exact hnb x (p1.mem_iff.2 hx)
  have := hq2 hN
  subst this
  rw [hf] at hf'
  cases hf'
  rfl

theorem volatility_neighbour (ks : KeySearch) {s s' : FxVolSurface} {e : Int} (K : ℝ)
    (hv : s'.valuation = s.valuation) (ho : (s.smiles.map Smile.expiry).Pairwise (· ≤ ·))
    (he : s'.smiles.map Smile.expiry = s.smiles.map Smile.expiry)
    (hs : ∀ (i : ℕ) (sm sm' : Smile), s.smiles[i]? = some sm → s'.smiles[i]? = some sm' →
      Neighbour (s.smiles.map Smile.expiry) sm.expiry e → sm' = sm) :
    s'.volatility ks e K = s.volatility ks e K := by
  have hlen : s'.smiles.length = s.smiles.length := by simpa using congrArg List.length he
  have get : ∀ i : ℕ, (∀ sm : Smile, s.smiles[i]? = some sm →
      Neighbour (s.smiles.map Smile.expiry) sm.expiry e) → s'.smiles[i]? = s.smiles[i]? := by
    intro i h
    cases h1 : s.smiles[i]? with
    | none => rw [List.getElem?_eq_none_iff] at h1 ⊢; omega
    | some sm =>
      have hl := (List.getElem?_eq_some_iff.1 h1).1
      rw [← hlen] at hl
      have h2 := List.getElem?_eq_getElem hl
      rw [h2, hs i sm _ h1 h2 (h sm h1)]
  unfold FxVolSurface.volatility
  rw [hv, he]
  refine if_congr Iff.rfl rfl ?_
  dsimp only
  refine if_congr Iff.rfl rfl ?_
  cases hf : ks.search (s.smiles.map Smile.expiry) e with
  | found i =>
    have h1 := ks.found _ _ _ ho hf
    rw [List.getElem?_map] at h1
    dsimp only
    rw [get i]
    intro sm hsm x hx
    rw [hsm] at h1
    simp only [Option.map_some, Option.some.injEq] at h1
    omega
  | missing i =>
    obtain ⟨hi, hlt, hgt⟩ := ks.missing _ _ _ ho hf
    rw [List.length_map] at hi
    dsimp only
    have mono : ∀ (a b : ℕ) (x y : Smile), a ≤ b → s.smiles[a]? = some x → s.smiles[b]? = some y →
        x.expiry ≤ y.expiry := by
      intro a b x y hab hx hy
      rcases Nat.eq_or_lt_of_le hab with rfl | hab
      · rw [hx] at hy; cases hy; exact le_rfl
      · rw [List.pairwise_map] at ho
        obtain ⟨hla, ea⟩ := List.getElem?_eq_some_iff.1 hx
        obtain ⟨hlb, eb⟩ := List.getElem?_eq_some_iff.1 hy
        have := List.pairwise_iff_getElem.1 ho a b hla hlb hab
        rw [ea, eb] at this
        exact this
    have low : ∀ (a : ℕ) (x : Smile), a < i → s.smiles[a]? = some x → x.expiry < e := by
      intro a x ha hx
      refine hlt _ ?_
      rw [← List.map_take]
      exact List.mem_map_of_mem (List.mem_of_getElem? (by rw [List.getElem?_take_of_lt ha]; exact hx))
    have high : ∀ (a : ℕ) (x : Smile), i ≤ a → s.smiles[a]? = some x → e < x.expiry := by
      intro a x ha hx
      refine hgt _ ?_
      rw [← List.map_drop]
      refine List.mem_map_of_mem (List.mem_of_getElem? (i := a - i) ?_)
      rw [List.getElem?_drop, Nat.add_sub_cancel' ha]
      exact hx
    have idx : ∀ x ∈ s.smiles.map Smile.expiry, ∃ (a : ℕ) (sm : Smile), s.smiles[a]? = some sm ∧ sm.expiry = x := by
      intro x hx
      obtain ⟨sm, hsm, rfl⟩ := List.mem_map.1 hx
      obtain ⟨a, ha⟩ := List.getElem?_of_mem hsm
      exact ⟨a, sm, ha, rfl⟩
    have gl : i ≠ 0 → s'.smiles[i - 1]? = s.smiles[i - 1]? := by
      intro h0
      refine get _ fun sm hsm x hx => ?_
      obtain ⟨a, y, ha, rfl⟩ := idx x hx
      have := low _ _ (by omega) hsm
      rcases Nat.lt_or_ge a i with h | h
      · have := mono a (i - 1) y sm (by omega) ha hsm
        omega
      · have := high a y h ha
        omega
    have gh : s'.smiles[i]? = s.smiles[i]? := by
      refine get _ fun sm hsm x hx => ?_
      obtain ⟨a, y, ha, rfl⟩ := idx x hx
      have := high _ _ le_rfl hsm
      rcases Nat.lt_or_ge a i with h | h
      · have := low a y h ha
        omega
      · have := mono i a sm y h hsm ha
        omega
    by_cases h0 : i = 0
    · rw [if_pos h0, if_pos h0]
      subst h0
      rw [gh]
    · rw [if_neg h0, if_neg h0, hlen, gl h0, gh]

/-! ## Forward points -/

theorem forall₂_dates {e : Int} {D : List Int} {l l' : List (Int × ℝ)}
    (h : List.Forall₂ (fun p p' : Int × ℝ => p'.1 = p.1 ∧ (Neighbour D p.1 e → p' = p)) l l') :
    l'.map Prod.fst = l.map Prod.fst := by
  induction h with
  | nil => rfl
  | cons h1 _ ih => rw [List.map_cons, List.map_cons, h1.1, ih]

theorem neighbour_kept {e : Int} {l l' : List (Int × ℝ)} (hn : (l.map Prod.fst).Nodup)
    (h : List.Forall₂ (fun p p' : Int × ℝ => p'.1 = p.1 ∧
      (Neighbour (l.map Prod.fst) p.1 e → p' = p)) l l') {q' q : Int × ℝ} (h' : q' ∈ l') (hq : q ∈ l)
    (he : q'.1 = q.1) (hb : Neighbour (l.map Prod.fst) q.1 e) : q' = q := by
  obtain ⟨a, ha, h1, h2⟩ := forall₂_mem_right h h'
  have : a = q := eq_of_mem_distinct hn ha hq (by rw [← h1, he])
  subst this
  exact h2 hb

theorem forward_neighbour {ops : SliceOps} {h h' : FwdHelper} {c : Cal} {t : Int}
    {l l' : List (Int × ℝ)} (hd : Dated h c l) (hd' : Dated h' c l') (hv : h'.valuation = h.valuation)
    (hn : (l.map Prod.fst).Nodup)
    (hl : List.Forall₂ (fun p p' : Int × ℝ => p'.1 = p.1 ∧
      (Neighbour (l.map Prod.fst) p.1 t → p' = p)) l l') :
    getForward ops h' t c = getForward ops h t c := by
  have hm := forall₂_dates hl
  have hlen : l'.length = l.length := hl.length_eq.symm
  have hn' : (l'.map Prod.fst).Nodup := by rw [hm]; exact hn
  have mem : ∀ q ∈ l', ∃ p ∈ l, p.1 = q.1 := by
    intro q hq
    have : q.1 ∈ l.map Prod.fst := by rw [← hm]; exact List.mem_map_of_mem hq
    obtain ⟨p, hp, e⟩ := List.mem_map.1 this
    exact ⟨p, hp, e⟩
  have mem' : ∀ q ∈ l, ∃ p ∈ l', p.1 = q.1 := by
    intro q hq
    have : q.1 ∈ l'.map Prod.fst := by rw [hm]; exact List.mem_map_of_mem hq
    obtain ⟨p, hp, e⟩ := List.mem_map.1 this
    exact ⟨p, hp, e⟩
  by_cases ht : h.valuation < t
  swap
  · rw [C30_none_before (by omega), C30_none_before (by omega)]
  by_cases hs : h.quotes.length < 2
  · rw [C30_none_few hd hs, C30_none_few hd' (by rw [hd'.length_eq, hlen, ← hd.length_eq]; exact hs)]
  rcases C30_cases (ops := ops) hd ht (by omega) with ⟨v, h1, h2⟩ | ⟨h1, h2⟩ | ⟨a, b, h1, h2⟩
  · rw [h2]
    obtain ⟨q', hq', e⟩ := mem' _ h1
    have : q' = (t, v) := neighbour_kept hn hl hq' h1 e (by intro x hx; dsimp only; omega)
    subst this
    refine C30_exact hd' (by omega) (by rw [hd'.length_eq, hlen, ← hd.length_eq]; omega) hq' ?_
    intro w hw
    exact congrArg Prod.snd (eq_of_mem_distinct hn' hw hq' rfl)
  · rw [h2]
    refine C30_none_outside hd' ?_
    rcases h1 with h1 | h1
    · left
      intro q hq
      obtain ⟨p, hp, e⟩ := mem q hq
      rw [← e]; exact h1 p hp
    · right
      intro q hq
      obtain ⟨p, hp, e⟩ := mem q hq
      rw [← e]; exact h1 p hp
  · obtain ⟨ha, hb, hat, htb, hgap⟩ := h1
    rw [h2]
    obtain ⟨a', ha', ea⟩ := mem' a ha
    obtain ⟨b', hb', eb⟩ := mem' b hb
    have xa : a' = a := neighbour_kept hn hl ha' ha ea (by
      intro x hx
      obtain ⟨q, hq, rfl⟩ := List.mem_map.1 hx
      have := hgap q hq
      omega)
    have xb : b' = b := neighbour_kept hn hl hb' hb eb (by
      intro x hx
      obtain ⟨q, hq, rfl⟩ := List.mem_map.1 hx
      have := hgap q hq
      omega)
    subst xa xb
    refine C30_linear hd' (by omega) ⟨ha', hb', hat, htb, ?_⟩ ?_ ?_
    · intro q hq
      obtain ⟨p, hp, e⟩ := mem q hq
      rw [← e]; exact hgap p hp
    · intro q hq e
      exact eq_of_mem_distinct hn' hq ha' e
    · intro q hq e
      exact eq_of_mem_distinct hn' hq hb' e

/-! ## Local volatility -/

theorem gridPrice_local {expiries strikes : List ℝ} {vols vols' : List (List ℝ)} {spot rd rf : ℝ}
    {i j : ℕ} (h : (vols'.getD i []).getD j 0 = (vols.getD i []).getD j 0) :
    gridPrice expiries strikes vols' spot rd rf i j = gridPrice expiries strikes vols spot rd rf i j := by
  unfold gridPrice
  rw [h]

theorem nodeVariance_local {expiries strikes : List ℝ} {vols vols' : List (List ℝ)} {spot rd rf : ℝ}
    {i j : ℕ} (hn : 3 ≤ expiries.length) (hm : 3 ≤ strikes.length) (hi : i < expiries.length)
    (hj : j < strikes.length)
    (h1 : ∀ a, a ≤ i + 1 → i ≤ a + 1 → (vols'.getD a []).getD j 0 = (vols.getD a []).getD j 0)
    (h2 : ∀ b, b ≤ max (j + 1) 2 → min (j - 1) (strikes.length - 3) ≤ b →
      (vols'.getD i []).getD b 0 = (vols.getD i []).getD b 0) :
    nodeVariance expiries strikes vols' spot rd rf i j =
      nodeVariance expiries strikes vols spot rd rf i j := by
  have hc := fun a (x : a ≤ i + 1) (y : i ≤ a + 1) =>
    gridPrice_local (expiries := expiries) (strikes := strikes) (spot := spot) (rd := rd) (rf := rf)
      (h1 a x y)
  have hr := fun b (x : b ≤ max (j + 1) 2) (y : min (j - 1) (strikes.length - 3) ≤ b) =>
    gridPrice_local (expiries := expiries) (strikes := strikes) (spot := spot) (rd := rd) (rf := rf)
      (h2 b x y)
  have e0 : gridPrice expiries strikes vols' spot rd rf i j =
      gridPrice expiries strikes vols spot rd rf i j := hc i (by omega) (by omega)
  have eT : fdT (fun i => gridPrice expiries strikes vols' spot rd rf i j) expiries i =
      fdT (fun i => gridPrice expiries strikes vols spot rd rf i j) expiries i := by
    unfold fdT
    dsimp only
    by_cases c1 : i = 0
    · rw [if_pos c1, if_pos c1, hc 1 (by omega) (by omega), hc 0 (by omega) (by omega)]
    rw [if_neg c1, if_neg c1]
    by_cases c2 : i = expiries.length - 1
    · rw [if_pos c2, if_pos c2, hc _ (by omega) (by omega), hc (expiries.length - 2) (by omega) (by omega)]
    rw [if_neg c2, if_neg c2, hc _ (by omega) (by omega), hc (i - 1) (by omega) (by omega)]
  have eK : fdK (gridPrice expiries strikes vols' spot rd rf i) strikes j =
      fdK (gridPrice expiries strikes vols spot rd rf i) strikes j := by
    unfold fdK
    dsimp only
    by_cases c1 : j = 0
    · rw [if_pos c1, if_pos c1, hr 1 (by omega) (by omega), hr 0 (by omega) (by omega)]
    rw [if_neg c1, if_neg c1]
    by_cases c2 : j = strikes.length - 1
    · rw [if_pos c2, if_pos c2, hr _ (by omega) (by omega), hr (strikes.length - 2) (by omega) (by omega)]
    rw [if_neg c2, if_neg c2, hr _ (by omega) (by omega), hr (j - 1) (by omega) (by omega)]
  have inner : ∀ m, m + 1 ≤ max (j + 1) 2 → min (j - 1) (strikes.length - 3) ≤ m - 1 →
      fdKKInner (gridPrice expiries strikes vols' spot rd rf i) strikes m =
      fdKKInner (gridPrice expiries strikes vols spot rd rf i) strikes m := by
    intro m x y
    unfold fdKKInner
    dsimp only
    rw [hr (m + 1) (by omega) (by omega), hr m (by omega) (by omega), hr (m - 1) (by omega) (by omega)]
  have eKK : fdKK (gridPrice expiries strikes vols' spot rd rf i) strikes j =
      fdKK (gridPrice expiries strikes vols spot rd rf i) strikes j := by
    unfold fdKK
    dsimp only
    by_cases c1 : j = 0
    · rw [if_pos c1, if_pos c1, inner 1 (by omega) (by omega)]
    rw [if_neg c1, if_neg c1]
    by_cases c2 : j = strikes.length - 1
    · rw [if_pos c2, if_pos c2, inner (strikes.length - 2) (by omega) (by omega)]
    rw [if_neg c2, if_neg c2, inner j (by omega) (by omega)]
  unfold nodeVariance
  dsimp only
  rw [eT, eK, eKK, e0, h1 i (by omega) (by omega)]

theorem bracketLoop_le {xs : List ℝ} {x : ℝ} {i : ℕ} (hx : x ≤ xs.getD i 0) (k m : ℕ) (hm : m ≤ i)
    (hk : i < m + k) : (bracketLoop xs x (List.range' m k)).1 ≤ i ∧
      (bracketLoop xs x (List.range' m k)).2.1 ≤ i := by
  induction k generalizing m with
  | zero => omega
  | succ k ih =>
    rw [List.range'_succ, bracketLoop]
    by_cases h : x ≤ xs.getD m 0
    · rw [if_pos h]; dsimp only; omega
    · rw [if_neg h]
      have : m ≠ i := by rintro rfl; exact h hx
      exact ih (m + 1) (by omega) (by omega)

theorem bracketAt_le {xs : List ℝ} {x : ℝ} {i : ℕ} (hs : windowsIncrease xs) (hi : i < xs.length)
    (hx : x ≤ xs.getD i 0) :
    ∃ i0 i1 w, bracketAt xs x = .ok (i0, i1, w) ∧ i0 ≤ i ∧ i1 ≤ i := by
  have h0 : xs[0]? = some xs[0] := List.getElem?_eq_getElem (by omega)
  unfold bracketAt
  rw [h0]
  change ∃ i0 i1 w, (if x ≤ xs[0] then _ else _) = _ ∧ _
  by_cases c : x ≤ xs[0]
  · rw [if_pos c]
    exact ⟨0, 0, 0, rfl, by omega, by omega⟩
  rw [if_neg c, List.getLast?_eq_getElem?, List.getElem?_eq_getElem (by omega)]
  change ∃ i0 i1 w, (if xs[xs.length - 1] ≤ x then _ else _) = _ ∧ _
  by_cases c2 : xs[xs.length - 1] ≤ x
  · rw [if_pos c2]
    refine ⟨_, _, _, rfl, ?_⟩
    have : xs.length - 1 ≤ i := by
      by_contra hc
      have hp := (windowsIncrease_iff xs).1 hs
      have := List.pairwise_iff_getElem.1 hp i (xs.length - 1) hi (by omega) (by omega)
      rw [List.getD_eq_getElem _ _ hi] at hx
      linarith
    exact ⟨this, this⟩
  · rw [if_neg c2]
    have i1 : i ≠ 0 := by
      rintro rfl
      rw [List.getD_eq_getElem _ _ hi] at hx
      exact c hx
    obtain ⟨a, b⟩ := bracketLoop_le hx (xs.length - 1) 1 (by omega) (by omega)
    exact ⟨_, _, _, rfl, a, b⟩

/-! ## Sorted cash pillars -/

theorem cashPillars_sorted {val : Int} {qs : List OisRate} : ∀ {ms : List Int} {l : List Pillar},
    ms.Pairwise (· ≤ ·) → cashPillars val qs ms = .ok l → l.Pairwise fun a b => a.date ≤ b.date
  | [], l, _, h => by cases h; exact .nil
  | m :: ms, l, hs, h => by
    rw [cashPillars] at h
    obtain ⟨a, ha, h⟩ := bind_eq_ok.1 h
    obtain ⟨b, hb, h⟩ := bind_eq_ok.1 h
    obtain rfl := ok.inj h
    obtain ⟨h1, h2⟩ := List.pairwise_cons.1 hs
    have da := cashAt_dates ha
    refine List.pairwise_append.2 ⟨?_, cashPillars_sorted h2 hb, ?_⟩
    · exact List.pairwise_of_forall_mem_list fun x hx y hy => by rw [da x hx, da y hy]
    · intro x hx y hy
      rw [da x hx]
      obtain ⟨m', hm', e⟩ := cashPillars_dates hb y hy
      rw [e]
      exact h1 m' hm'
where
  cashPillars_dates : ∀ {ms : List Int} {l : List Pillar}, cashPillars val qs ms = .ok l →
      ∀ p ∈ l, ∃ m ∈ ms, p.date = m
    | [], l, h => by cases h; simp
    | m :: ms, l, h => by
      rw [cashPillars] at h
      obtain ⟨a, ha, h⟩ := bind_eq_ok.1 h
      obtain ⟨b, hb, h⟩ := bind_eq_ok.1 h
      obtain rfl := ok.inj h
      intro p hp
      rcases List.mem_append.1 hp with hp | hp
      · exact ⟨m, by simp, cashAt_dates ha p hp⟩
      · obtain ⟨m', h1, h2⟩ := cashPillars_dates hb p hp
        exact ⟨m', by simp [h1], h2⟩

theorem pillars_split {l : List Pillar} (h : l.Pairwise fun a b => a.date ≤ b.date) (M : Int) :
    ∃ r, l = l.filter (fun p => decide (p.date < M)) ++ r := by
  induction l with
  | nil => exact ⟨[], rfl⟩
  | cons p l ih =>
    obtain ⟨h1, h2⟩ := List.pairwise_cons.1 h
    by_cases c : p.date < M
    · obtain ⟨r, e⟩ := ih h2
      refine ⟨r, ?_⟩
      rw [List.filter_cons_of_pos (by simpa using c), List.cons_append, ← e]
    · refine ⟨p :: l, ?_⟩
      rw [List.filter_eq_nil_iff.2, List.nil_append]
      intro q hq
      simp only [decide_eq_true_eq]
      rcases List.mem_cons.1 hq with rfl | hq
      · exact c
      · have := h1 q hq
        omega

/-- A gap that is not negative at the first upper end is solved below it. -/
theorem tdSolve_within {f : ℝ → Outcome ℝ} {hi0 v : ℝ} (h0 : 1 / 10 ^ 6 ≤ hi0)
    (hf : ∀ x, 1 / 10 ^ 6 ≤ x → x ≤ hi0 → ∃ v, f x = .ok v) (hv : f hi0 = .ok v) (hv0 : 0 ≤ v) :
    ∃ r, tdSolve f hi0 = .ok r ∧ 1 / 10 ^ 6 ≤ r ∧ r ≤ hi0 := by
  obtain ⟨vl, hl⟩ := hf _ le_rfl h0
  by_cases hl0 : vl ≤ 0
  · obtain ⟨r, a, b, va, vb, s1, s2, s3, s4, s5, -⟩ := tdSolve_bracket h0 hf hv hv0 hl hl0
    exact ⟨r, s1, s2.trans s3, s4.trans s5⟩
  · refine ⟨1 / 10 ^ 6, ?_, le_rfl, h0⟩
    unfold tdSolve
    rw [hv, ok_bind, tdBump, if_neg (not_lt.2 hv0), ok_bind, if_pos hv0]
    unfold tdBisect
    rw [hl, ok_bind, hv, ok_bind, if_pos (not_le.1 hl0)]

theorem expInt_one_ge {c : ℝ} (hc : 0 ≤ c) : 1 ≤ expInt c 1 := by
  have := expInt_mono (c := 0) (c' := c) (d := 1) zero_le_one hc
  rwa [expInt_zero] at this

theorem expInt_two_le {c : ℝ} (hc : 0 ≤ c) : expInt c 2 ≤ 2 * Real.exp (2 * c) := by
  unfold expInt
  have : ∫ t in (0 : ℝ)..2, Real.exp (c * t) ≤ ∫ t in (0 : ℝ)..2, Real.exp (2 * c) := by
    apply intervalIntegral.integral_mono_on zero_le_two
    · exact (by fun_prop : Continuous fun t => Real.exp (c * t)).intervalIntegrable _ _
    · exact continuous_const.intervalIntegrable _ _
    · intro x hx
      exact Real.exp_le_exp.2 (by nlinarith [hx.2])
  simpa using this

/-- Two segments of one year with a moderate vol-vol: both effective parameters exist. -/
theorem twoSeg {a b c d : ℝ} (ha0 : 0 ≤ a) (ha : a ≤ 0.51) (hb0 : 0 ≤ b) (hb : b ≤ 0.1) (hc : 0 < c)
    (hd : 0 < d) : ∃ g w, effectiveVolVol ⟨[0, 1, 2], [a, b]⟩ ⟨[0, 1, 2], [c, d]⟩ 2 = .ok g ∧
      effectiveTermStructure ⟨[0, 1, 2], [a, b]⟩ ⟨[0, 1, 2], [c, d]⟩ 2 = .ok w ∧ 0 ≤ g ∧ 0 < w ∧
      d ^ 2 ≤ 7 * w ^ 2 := by
  have hE : EndsAt [0, 1, 2] 2 := ⟨by simp, rfl, by norm_num, rfl⟩
  obtain ⟨γ, hg⟩ := hE.schedule (vs := [a, b]) rfl
  obtain ⟨ω, ho⟩ := hE.schedule (vs := [c, d]) rfl
  have hne : ∀ o ∈ [c, d], o ≠ 0 := by simp [hc.ne', hd.ne']
  have hm := hE.moment1_pos hg ho hne
  obtain ⟨segs, e1, e2, e3, e4, -, -⟩ := aligned_ok hg ho hg hE.expiry
  obtain ⟨f1, f2, -⟩ := hE.segs hg ho
  rw [f1] at e1
  cases e1
  have hvar := segVar_eq _ 0 e2 fun s hs => (e3 s hs).1
  rw [e4, zero_add] at hvar
  rw [mkSegs_cons, mkSegs_cons, mkSegs_single] at hvar f2
  simp only [segVar, iX] at hvar f2
  have hV : varOf γ 2 ≤ 0.2701 := by
    change vFrom γ 0 2 ≤ _
    rw [← hvar]
    norm_num at ha hb ⊢
    nlinarith
  obtain ⟨g, x, k1, k2, k3, -, k5⟩ := C60_vol_vol hg ho hE.expiry hm (by norm_num at hV ⊢; linarith)
  obtain ⟨w, l1, l2, l3⟩ := C60_term_structure hg ho hE.expiry hm k1
  refine ⟨g, w, k1, l1, k2, l2, ?_⟩
  have hx := vol_vol_upper hg ho hE.expiry hm k3
  have hgx : 2 * g ^ 2 ≤ 1.03 := by
    have := (abs_le.1 k5).2
    norm_num at this hV hx ⊢
    linarith
  have hexp : Real.exp (2 * g ^ 2) ≤ 3 := by
    refine (Real.exp_le_exp.2 hgx).trans ?_
    rw [show (1.03 : ℝ) = 1 + 0.03 by norm_num, Real.exp_add]
    have h1 := Real.exp_one_lt_d9
    have h2 : Real.exp 0.03 ≤ 1 / (1 - 0.03) := Real.exp_bound_div_one_sub_of_interval (by norm_num) (by norm_num)
    have h3 := Real.exp_pos (0.03 : ℝ)
    norm_num at h1 h2 h3 ⊢
    nlinarith
  have hlow : d ^ 2 ≤ moment1 γ ω 2 := by
    rw [← f2]
    have i1 := expInt_nonneg (c := a * a) (d := 1) zero_le_one
    have i2 := expInt_one_ge (mul_self_nonneg b)
    have i3 : 1 ≤ Real.exp (a * a) := Real.one_le_exp (mul_self_nonneg a)
    norm_num only [sub_zero, Real.exp_zero, mul_one, zero_add, add_zero]
    have j1 : 0 ≤ c * c * expInt (a * a) 1 := by positivity
    have j2 : 1 ≤ Real.exp (a * a) * expInt (b * b) 1 := one_le_mul_of_one_le_of_one_le i3 i2
    have j3 := mul_le_mul_of_nonneg_left j2 (mul_self_nonneg d)
    nlinarith
  rw [moment1_const] at l3
  have hup : w ^ 2 * expInt (g ^ 2) 2 ≤ 6 * w ^ 2 := by
    have := mul_le_mul_of_nonneg_left ((expInt_two_le (sq_nonneg g)).trans
      (mul_le_mul_of_nonneg_left hexp zero_le_two)) (sq_nonneg w)
    linarith
  have := (abs_le.1 l3).1
  norm_num at this
  nlinarith [sq_nonneg w]

end Verif
