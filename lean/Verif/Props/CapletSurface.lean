import Verif.Lemmas.CapletSurface
import Verif.Props.Simulation

/-!
# C54, C55: the caplet volatility surface and its stripping
-/

namespace Verif

open Outcome Classical

/-! ### C54: looking up a volatility -/

/-- C54: between two neighbouring nodes the volatility is on the straight line through
them. -/
theorem C54_linear {pre post : List (ℝ × ℝ)} {a b : ℝ × ℝ} {k : ℝ}
    (hs : StrikesIncrease (pre ++ a :: b :: post)) (h1 : a.1 ≤ k) (h2 : k ≤ b.1) :
    interpolateNodes (pre ++ a :: b :: post) k = .ok (chord a b k) := by
  have hab : a.1 < b.1 := (List.pairwise_cons.1 (List.pairwise_append.1 hs).2.1).1 b (by simp)
  have hne : b.1 - a.1 ≠ 0 := by linarith
  have hline : a.2 + (k - a.1) / (b.1 - a.1) * (b.2 - a.2) = chord a b k := by
    unfold chord; field_simp; ring
  have ha : k = a.1 → chord a b k = a.2 := by
    rintro rfl; unfold chord; field_simp; ring
  have hb : k = b.1 → chord a b k = b.2 := by
    rintro rfl; unfold chord; field_simp; ring
  obtain ⟨x, y, rest, hxy⟩ : ∃ x y rest, pre ++ a :: b :: post = x :: y :: rest := by
    rcases pre with _ | ⟨x, _ | ⟨y, pre⟩⟩
    · exact ⟨a, b, post, rfl⟩
    · exact ⟨x, a, b :: post, rfl⟩
    · exact ⟨x, y, pre ++ a :: b :: post, rfl⟩
  have hlast : (y :: rest).getLast (by simp) = (b :: post).getLast (by simp) := by
    have := congrArg List.getLast? hxy
    rw [List.getLast?_append, List.getLast?_cons_cons, List.getLast?_cons_cons,
      List.getLast?_eq_some_getLast (l := b :: post) (by simp),
      List.getLast?_eq_some_getLast (l := y :: rest) (by simp), Option.some_or] at this
    exact (Option.some.inj this).symm
  rw [hxy, interpolateNodes]
  rw [hlast]
  by_cases hx : k ≤ x.1
  · rw [if_pos hx]
    -- only possible when `a` is the first node
    rcases pre with _ | ⟨x', pre⟩
    · obtain ⟨rfl, -⟩ := List.cons.inj hxy
      rw [ha (le_antisymm hx h1)]
    · exfalso
      obtain ⟨rfl, -⟩ := List.cons.inj hxy
      have : x'.1 < a.1 := (List.pairwise_cons.1 hs).1 a (by simp)
      linarith
  · rw [if_neg hx]
    by_cases hl : ((b :: post).getLast (by simp)).1 ≤ k
    · rw [if_pos hl]
      rcases List.eq_nil_or_concat post with rfl | ⟨post', l, rfl⟩
      · simp only [List.getLast_singleton] at hl ⊢
        rw [hb (le_antisymm h2 hl)]
      · exfalso
        simp only [List.concat_eq_append] at hs hl
        rw [List.getLast_cons (by simp), List.getLast_append_right (by simp)] at hl
        simp only [List.getLast_singleton] at hl
        have h3 := (List.pairwise_append.1 hs).2.1
        have : b.1 < l.1 := (List.pairwise_cons.1 (List.pairwise_cons.1 h3).2).1 l (by simp)
        linarith
    · rw [if_neg hl, ← hxy]
      rcases h1.lt_or_eq with h1 | h1
      · rw [scanNodes_window hs h1 h2, hline]
      · -- `k` is the node `a`, found in the window before it
        rcases List.eq_nil_or_concat pre with rfl | ⟨pre', z, rfl⟩
        · exfalso
          obtain ⟨rfl, -⟩ := List.cons.inj hxy
          exact hx h1.ge
        · simp only [List.concat_eq_append, List.append_assoc, List.cons_append,
            List.nil_append] at hs ⊢
          have hz : z.1 < a.1 := (List.pairwise_cons.1 (List.pairwise_append.1 hs).2.1).1 a (by simp)
          rw [scanNodes_window hs (by linarith) h1.ge, ha h1.symm, ← h1]
          have : a.1 - z.1 ≠ 0 := by linarith
          rw [div_self this]
          congr 1
          ring

/-- C54: outside the quoted strikes the volatility is that of the nearest node. -/
theorem C54_flat {first last : ℝ × ℝ} {nodes : List (ℝ × ℝ)} {k : ℝ} (hs : StrikesIncrease nodes)
    (hf : nodes.head? = some first) (hl : nodes.getLast? = some last) :
    (k ≤ first.1 → interpolateNodes nodes k = .ok first.2) ∧
    (last.1 ≤ k → interpolateNodes nodes k = .ok last.2) := by
  rcases nodes with _ | ⟨x, _ | ⟨y, rest⟩⟩
  · simp at hf
  · simp only [List.head?_cons, Option.some.injEq, List.getLast?_singleton] at hf hl
    subst hf; subst hl
    exact ⟨fun _ => rfl, fun _ => rfl⟩
  · simp only [List.head?_cons, Option.some.injEq] at hf
    subst hf
    rw [List.getLast?_cons_cons, List.getLast?_eq_some_getLast (by simp)] at hl
    have hl := Option.some.inj hl
    rw [interpolateNodes, hl]
    have hxl : x.1 < last.1 := by
      rw [← hl]
      exact (List.pairwise_cons.1 hs).1 _ (List.getLast_mem _)
    constructor
    · intro h; rw [if_pos h]
    · intro h; rw [if_neg (by linarith), if_pos h]

/-- C54: a quoted strike gives back its own volatility. -/
theorem C54_node {nodes : List (ℝ × ℝ)} (hs : StrikesIncrease nodes) {n : ℝ × ℝ} (hn : n ∈ nodes) :
    interpolateNodes nodes n.1 = .ok n.2 := by
  obtain ⟨pre, post, rfl⟩ := List.append_of_mem hn
  rcases post with _ | ⟨b, post⟩
  · exact (C54_flat (first := (pre ++ [n]).head (by simp)) (last := n) hs
      (List.head?_eq_some_head (by simp)) (by simp)).2 le_rfl
  · have hab : n.1 < b.1 := (List.pairwise_cons.1 (List.pairwise_append.1 hs).2.1).1 b (by simp)
    rw [C54_linear hs le_rfl hab.le]
    have : b.1 - n.1 ≠ 0 := by linarith
    unfold chord
    congr 1
    field_simp
    ring

/-- C54: every volatility read off a pillar lies between two of its node volatilities. -/
theorem C54_bounds {nodes : List (ℝ × ℝ)} {k v : ℝ} (hs : StrikesIncrease nodes)
    (h : interpolateNodes nodes k = .ok v) :
    ∃ n ∈ nodes, ∃ n' ∈ nodes, n.2 ≤ v ∧ v ≤ n'.2 := by
  rcases nodes with _ | ⟨x, _ | ⟨y, rest⟩⟩
  · simp [interpolateNodes] at h
  · have := ok.inj h
    exact ⟨x, by simp, x, by simp, this.le, this.ge⟩
  · rw [interpolateNodes] at h
    have hlm : (y :: rest).getLast (by simp) ∈ x :: y :: rest :=
      List.mem_cons_of_mem _ (List.getLast_mem _)
    by_cases hx : k ≤ x.1
    · rw [if_pos hx] at h
      have := ok.inj h
      exact ⟨x, by simp, x, by simp, this.le, this.ge⟩
    · rw [if_neg hx] at h
      by_cases hl : ((y :: rest).getLast (by simp)).1 ≤ k
      · rw [if_pos hl] at h
        have := ok.inj h
        exact ⟨_, hlm, _, hlm, this.le, this.ge⟩
      · rw [if_neg hl] at h
        have hv := ok.inj h
        rcases scanNodes_mem k ((y :: rest).getLast (by simp)).2 (x :: y :: rest) with
          ⟨pre, a, b, post, e, h1, h2, h3⟩ | h3
        · rw [h3] at hv
          have ha : a ∈ x :: y :: rest := by rw [e]; simp
          have hb : b ∈ x :: y :: rest := by rw [e]; simp
          rw [e] at hs
          have hab : a.1 < b.1 :=
            (List.pairwise_cons.1 (List.pairwise_append.1 hs).2.1).1 b (by simp)
          have t0 : 0 ≤ (k - a.1) / (b.1 - a.1) := div_nonneg (by linarith) (by linarith)
          have t1 : (k - a.1) / (b.1 - a.1) ≤ 1 := by
            rw [div_le_one (by linarith)]; linarith
          rcases le_total a.2 b.2 with hle | hle
          · refine ⟨a, ha, b, hb, ?_, ?_⟩ <;> rw [← hv]
            · nlinarith
            · nlinarith
          · refine ⟨b, hb, a, ha, ?_, ?_⟩ <;> rw [← hv]
            · nlinarith
            · nlinarith
        · rw [h3] at hv
          exact ⟨_, hlm, _, hlm, hv.le, hv.ge⟩

/-- C54: an expiry between two pillars is served by the later one. -/
theorem C54_pillar {pre post : List CapletPillar} {p : CapletPillar} {d : Int}
    (h1 : ∀ q ∈ pre, q.expiry < d) (h2 : d ≤ p.expiry) (k : ℝ) :
    capletVolatility (pre ++ p :: post) d k = interpolateNodes p.nodes k := by
  unfold capletVolatility pickPillar
  rw [List.find?_append, List.find?_eq_none.2 (by intro q hq; simpa using h1 q hq), Option.none_or,
    List.find?_cons_of_pos (by simpa using h2)]

/-- C54: beyond the last pillar the last pillar is used; a surface without pillars
refuses. -/
theorem C54_beyond {pillars : List CapletPillar} {d : Int} (h : ∀ q ∈ pillars, q.expiry < d) (k : ℝ) :
    capletVolatility pillars d k = match pillars.getLast? with
      | some p => interpolateNodes p.nodes k
      | none => .fail .invalidData := by
  unfold capletVolatility pickPillar
  rw [List.find?_eq_none.2 (by intro q hq; simpa using h q hq)]
  rcases pillars.getLast? with _ | p <;> rfl

/-- C54: whatever the quotes, a surface that strips has increasing expiries, and each of its
pillars has at least one node and increasing strikes. -/
theorem C54_stripped {solve : RootFinder} {cv : Curve} {val : Int} {qs : List CapQuote}
    {pillars : List CapletPillar} (h : stripCapletVols solve cv val qs = .ok pillars) :
    ExpiriesIncrease pillars ∧ ∀ p ∈ pillars, p.nodes ≠ [] ∧ StrikesIncrease p.nodes := by
  unfold stripCapletVols at h
  simp only [bind_eq_ok, ok.injEq] at h
  obtain ⟨cols, hc, rfl⟩ := h
  have hk := columns_strikes_lt hc
  rw [assemblePillars_eq]
  constructor
  · refine List.Pairwise.filterMap _ (fun a a' haa b hb b' hb' => ?_) (columnExpiries_sorted cols)
    have e1 : b.expiry = a := by
      split at hb
      · simp at hb
      · rw [← Option.some.inj hb]
    have e2 : b'.expiry = a' := by
      split at hb'
      · simp at hb'
      · rw [← Option.some.inj hb']
    rw [e1, e2]
    exact haa
  · intro p hp
    obtain ⟨e, -, hp⟩ := List.mem_filterMap.1 hp
    have hs := pillarNodes_sorted hk e
    split at hp
    · simp at hp
    · rename_i n ns hn
      rw [← Option.some.inj hp]
      rw [hn] at hs
      exact ⟨by simp, hs⟩

/-- C54: so a stripped surface answers every query, unless there was nothing to strip. -/
theorem C54_total {solve : RootFinder} {cv : Curve} {val : Int} {qs : List CapQuote}
    {pillars : List CapletPillar} (h : stripCapletVols solve cv val qs = .ok pillars)
    (hne : pillars ≠ []) (d : Int) (k : ℝ) :
    ∃ v p n n', capletVolatility pillars d k = .ok v ∧ p ∈ pillars ∧ n ∈ p.nodes ∧ n' ∈ p.nodes ∧
      n.2 ≤ v ∧ v ≤ n'.2 := by
  have hw := (C54_stripped h).2
  have hpick : ∃ p ∈ pillars, capletVolatility pillars d k = interpolateNodes p.nodes k := by
    unfold capletVolatility pickPillar
    rcases hf : pillars.find? (fun p => decide (d ≤ p.expiry)) with _ | p
    · rw [List.getLast?_eq_some_getLast hne]
      exact ⟨_, List.getLast_mem hne, by rw [hf]⟩
    · exact ⟨p, List.mem_of_find?_eq_some hf, by rw [hf]⟩
  obtain ⟨p, hp, e⟩ := hpick
  obtain ⟨h1, h2⟩ := hw p hp
  have hex : ∃ v, interpolateNodes p.nodes k = .ok v := by
    revert h1
    generalize p.nodes = ns
    intro h1
    rcases ns with _ | ⟨x, _ | ⟨y, rest⟩⟩
    · exact absurd rfl h1
    · exact ⟨_, rfl⟩
    · rw [interpolateNodes]
      by_cases hx : k ≤ x.1
      · exact ⟨_, if_pos hx⟩
      · rw [if_neg hx]
        by_cases hl : ((y :: rest).getLast (by simp)).1 ≤ k
        · exact ⟨_, if_pos hl⟩
        · exact ⟨_, if_neg hl⟩
  obtain ⟨v, hv⟩ := hex
  obtain ⟨n, hn, n', hn', h3⟩ := C54_bounds h2 hv
  exact ⟨v, p, n, n', by rw [e, hv], hp, hn, hn', h3⟩

/-- Non-vacuity of C54: halfway between two nodes of the later pillar. -/
example : capletVolatility [⟨100, [(0, 1)]⟩, ⟨200, [(1, 2), (3, 6), (4, 1)]⟩] 150 2 = .ok 4 := by
  have h := C54_pillar (pre := [⟨100, [(0, 1)]⟩]) (p := ⟨200, [(1, 2), (3, 6), (4, 1)]⟩) (post := [])
    (d := 150) (by simp) (by norm_num) 2
  rw [List.singleton_append] at h
  rw [h]
  have := C54_linear (pre := []) (a := (1, 2)) (b := (3, 6)) (post := [(4, 1)]) (k := 2)
    (by simp [StrikesIncrease]; norm_num) (by norm_num) (by norm_num)
  rw [List.nil_append] at this
  rw [this]
  unfold chord
  norm_num

/-! ### C55: the stripped surface reprices its quotes -/

/-- C55: on a rectangular grid every quoted cap and floor, revalued as a trade on the
stripped surface, is worth its quoted value up to the residual the root finder leaves. -/
theorem C55_reprices {solve : RootFinder} {eps : ℝ} {cv : Curve} {val : Int} {qs : List CapQuote}
    {lastFixing : CapQuote → Int} {pillars : List CapletPillar}
    (hq : RectangularQuotes qs lastFixing) (hsolve : SolvesWithin solve eps)
    (h : stripCapletVols solve cv val qs = .ok pillars) :
    ∀ q ∈ qs, ∃ pv, (q.toTrade val).pv cv pillars 0 0 = .ok pv ∧ |pv - q.marketNpv| ≤ eps := by
  intro q hqm
  unfold stripCapletVols at h
  simp only [bind_eq_ok, ok.injEq] at h
  obtain ⟨cols, hc, rfl⟩ := h
  have hk := columns_strikes_lt hc
  have hg := groupsOf_ok hq.apart
  have hcols : List.Forall₂ _ ((groupsOf qs).mergeSort fun a b => decide (a.1 ≤ b.1)) cols :=
    stripColumns_strikes hc
  -- the sorted groups are the groups
  have hmemG : ∀ g, g ∈ (groupsOf qs).mergeSort (fun a b => decide (a.1 ≤ b.1)) ↔ g ∈ groupsOf qs :=
    fun g => List.mem_mergeSort
  -- every column comes from a group, and every group gives a column
  have hcol : ∀ c ∈ cols, ∃ g ∈ groupsOf qs, c.1 = g.1 ∧ stripOneStrike solve cv val g.2 = .ok c.2 := by
    intro c hcm
    obtain ⟨i, hi, rfl⟩ := List.getElem_of_mem hcm
    have hlen := hcols.length_eq
    have := List.forall₂_iff_get.1 hcols |>.2 i (by omega) hi
    exact ⟨_, (hmemG _).1 (List.getElem_mem (by omega)), this.1, this.2⟩
  have hgrp : ∀ g ∈ groupsOf qs, ∃ c ∈ cols, c.1 = g.1 ∧ stripOneStrike solve cv val g.2 = .ok c.2 := by
    intro g hgm
    obtain ⟨i, hi, rfl⟩ := List.getElem_of_mem ((hmemG g).2 hgm)
    have hlen := hcols.length_eq
    have := List.forall₂_iff_get.1 hcols |>.2 i hi (by omega)
    exact ⟨_, List.getElem_mem (by omega), this.1, this.2⟩
  have hsub : ∀ g ∈ groupsOf qs, ∀ x ∈ g.2, x ∈ qs := fun g hgm x hx => (hg.sub g hgm).subset hx
  -- what stripping a group gives
  have hseg : ∀ g ∈ groupsOf qs, ∀ s, stripOneStrike solve cv val g.2 = .ok s →
      (∀ x ∈ g.2, ∃ a sigma b, s = a ++ ⟨lastFixing x, sigma⟩ :: b ∧
        solve (x.residual cv val a) = .ok sigma) ∧
      (∀ p ∈ s, ∃ x ∈ g.2, p.expiry = lastFixing x) ∧
      s.Pairwise fun a b => a.expiry < b.expiry := by
    intro g hgm s hs
    unfold stripOneStrike at hs
    obtain ⟨k1, k2⟩ := mergeSort_keyInt (CapQuote.sortKey val) g.2
    generalize g.2.mergeSort (fun a b => decide (a.sortKey val ≤ b.sortKey val)) = sorted at hs k1 k2
    have hlast : ∀ x ∈ sorted, x.lastStart = .ok (lastFixing x) := fun x hx =>
      lastStart_of_fixing (hq.fixing x (hsub g hgm x (k2.mem_iff.1 hx)))
    have hd : g.2.Pairwise fun a b => lastFixing a ≠ lastFixing b := by
      refine ((hq.once.sublist (hg.sub g hgm)).imp_of_mem fun {a b} ha hb hn e => hn ⟨?_, e⟩)
      rw [hg.strike g hgm a ha, hg.strike g hgm b hb]
    have hd' := k2.symm.pairwise hd (fun {a b} h => Ne.symm h)
    have hlt : sorted.Pairwise fun a b => lastFixing a < lastFixing b := by
      refine (k1.and hd').imp_of_mem fun {a b} ha hb hh => lt_of_le_of_ne ?_ hh.2
      have := hh.1
      unfold CapQuote.sortKey at this
      rwa [hlast a ha, hlast b hb] at this
    obtain ⟨s1, s2⟩ := stripQuotes_segments hlast hlt (by simp) hs
    refine ⟨fun x hx => s1 x (k2.mem_iff.2 hx), fun p hp => ?_,
      (stripQuotes_sorted List.Pairwise.nil hs).2⟩
    rcases s2 p hp with hp | ⟨x, hx, e⟩
    · simp at hp
    · exact ⟨x, k2.mem_iff.1 hx, e⟩
  -- all columns have the same expiries
  have hfull : ∀ c ∈ cols, ∀ c' ∈ cols, ∀ p ∈ c.2, ∃ p' ∈ c'.2, p'.expiry = p.expiry := by
    intro c hcm c' hcm' p hp
    obtain ⟨g, hgm, -, hs⟩ := hcol c hcm
    obtain ⟨g', hgm', -, hs'⟩ := hcol c' hcm'
    obtain ⟨x, hx, e⟩ := (hseg g hgm _ hs).2.1 p hp
    obtain ⟨y, hy⟩ := List.exists_mem_of_ne_nil _ (hg.ne g' hgm')
    obtain ⟨z, hz, hz1, hz2⟩ := hq.full y (hsub g' hgm' y hy) x (hsub g hgm x hx)
    have hzg : z ∈ g'.2 := by
      obtain ⟨g2, hg2, hz'⟩ := hg.all z hz
      have e2 : g2.1 = g'.1 := by
        rw [← hg.strike g2 hg2 z hz', hz1, hg.strike g' hgm' y hy]
      have : g2 = g' := by
        by_contra hne
        have hp2 := groupsOf_apart qs
        haveI : Std.Symm fun a b : ℝ × List CapQuote => 1 / 1000000000000 ≤ |a.1 - b.1| :=
          ⟨fun a b h => by rwa [abs_sub_comm]⟩
        have := hp2.forall hg2 hgm' hne
        rw [e2, sub_self, abs_zero] at this
        norm_num at this
      rwa [← this]
    obtain ⟨a, sg, b, e3, -⟩ := (hseg g' hgm' _ hs').1 z hzg
    exact ⟨⟨lastFixing z, sg⟩, by rw [e3]; simp, by rw [e, ← hz2]⟩
  have hsort : ∀ c ∈ cols, c.2.Pairwise fun a b => a.expiry < b.expiry := by
    intro c hcm
    obtain ⟨g, hgm, -, hs⟩ := hcol c hcm
    exact (hseg g hgm _ hs).2.2
  -- the column of our quote
  obtain ⟨g, hgm, hqg⟩ := hg.all q hqm
  obtain ⟨c, hcm, hc1, hs⟩ := hgrp g hgm
  have hstrike : c.1 = q.strike := by rw [hc1, hg.strike g hgm q hqg]
  obtain ⟨a, sigma, b, hab, hsol⟩ := (hseg g hgm _ hs).1 q hqg
  obtain ⟨r, hr, hre⟩ := hsolve _ _ hsol
  -- the price found by the root finder
  unfold CapQuote.residual at hr
  have hprice : ∃ x, q.priceWithStrip cv val a sigma = .ok x ∧ x - q.marketNpv = r := by
    rcases hx : q.priceWithStrip cv val a sigma with x | e | _
    · rw [hx] at hr
      exact ⟨x, rfl, Option.some.inj (ok.inj hr)⟩
    · rw [hx] at hr; simp at hr
    · rw [hx] at hr; simp at hr
  obtain ⟨x, hx, rfl⟩ := hprice
  refine ⟨x, ?_, hre⟩
  rw [← hx]
  unfold CapFloor.pv CapQuote.priceWithStrip
  refine addCaplets_eq_addStrip (fun p hp => ?_) 0
  have hple : p.start ≤ lastFixing q := (hq.fixing q hqm).2 p hp
  have hsplit : ∃ a' p' b', c.2 = a' ++ p' :: b' ∧ (∀ y ∈ a', y.expiry < p.start) ∧
      p.start ≤ p'.expiry ∧ sigmaForStart p.start a sigma = p'.sigma := by
    rcases sigmaForStart_split (start := p.start) (l := a) (fb := sigma) with
      ⟨a', p', b', e, h1, h2, h3⟩ | ⟨h1, h2⟩
    · exact ⟨a', p', b' ++ ⟨lastFixing q, sigma⟩ :: b, by rw [hab, e]; simp, h1, h2, h3⟩
    · exact ⟨a, ⟨lastFixing q, sigma⟩, b, hab, h1, hple, h2⟩
  obtain ⟨a', p', b', e, h1, h2, h3⟩ := hsplit
  obtain ⟨nodes, n1, n2, n3⟩ := assembled_lookup hk hsort hfull hcm e h1 h2
  unfold capletVolatility
  rw [n1, h3, ← hstrike]
  exact C54_node n2 n3

/-! ### Examples -/

/-- A curve on which every discount factor is one. -/
noncomputable def zeroCurve : Curve := ⟨0, [⟨0, 1000, 0, 0, 1, .ois, false⟩]⟩

theorem zeroCurve_discount {d : Int} (h0 : 0 ≤ d) (h1 : d ≤ 2000) : zeroCurve.discount d = .ok 1 := by
  have ha : addDays d 1 = .ok (d + 1) := by
    unfold addDays
    rw [if_pos]
    have h3 : minDay ≤ 0 := by decide
    have h4 : 3000 ≤ maxDay := by decide
    unfold Valid
    omega
  unfold Curve.discount Curve.zeroRate zeroCurve
  rw [ha]
  simp only [ok_bind, scanPillars]
  by_cases h : d + 1 ≤ 1000 <;> simp [h]

/-- One caplet per start date, each accruing for one year. -/
noncomputable def yearly (starts : List Int) : List SchedPeriod :=
  starts.map fun s => ⟨s, s + 365, s + 365, s, 0, 1⟩

/-- A quoted cap on those caplets. -/
noncomputable def capQuote (strike : ℝ) (starts : List Int) (npv : ℝ) : CapQuote where
  strike := strike
  notional := 1
  direction := .buy
  kind := .cap
  style := .forwardLooking
  currency := .usd
  schedule := yearly starts
  yearFraction := fun _ _ => .ok 1
  marketNpv := npv

/-- The value of one caplet of the sample quotes. -/
noncomputable def capletPrice (strike sigma : ℝ) (start : Int) : ℝ :=
  bachelierCall 0 strike (sigma * sigma * ((start : ℝ) / 365))

theorem capletPrice_atm {sigma : ℝ} {start : Int} (h : 0 < sigma) (hs : 0 < start) :
    capletPrice 0 sigma start = sigma * √((start : ℝ) / 365) * normPdf 0 := by
  have hs' : (0 : ℝ) < (start : ℝ) := by exact_mod_cast hs
  unfold capletPrice bachelierCall
  rw [if_neg (by rw [not_le]; positivity)]
  simp only [sub_self, zero_div, zero_mul, add_zero]
  rw [Real.sqrt_mul (by positivity), Real.sqrt_mul_self h.le]

theorem sampleQuote_price (k npv : ℝ) (strip : List StripPoint) (trial : ℝ) (starts : List Int)
    (hs : ∀ s ∈ starts, 0 ≤ s ∧ s ≤ 1600) :
    (capQuote k starts npv).priceWithStrip zeroCurve 0 strip trial =
      .ok (starts.map fun s => capletPrice k (sigmaForStart s strip trial) s).sum := by
  unfold CapQuote.priceWithStrip
  have key : ∀ acc : ℝ, (capQuote k starts npv).addStrip zeroCurve 0 strip trial (yearly starts) acc =
      .ok (acc + (starts.map fun s => capletPrice k (sigmaForStart s strip trial) s).sum) := by
    generalize hq : capQuote k starts npv = q
    have h1 : q.style = .forwardLooking := by rw [← hq]; rfl
    have h2 : q.yearFraction = fun _ _ => .ok 1 := by rw [← hq]; rfl
    have h3 : q.kind = .cap := by rw [← hq]; rfl
    have h4 : q.direction = .buy := by rw [← hq]; rfl
    have h5 : q.notional = 1 := by rw [← hq]; rfl
    have h6 : q.strike = k := by rw [← hq]; rfl
    clear hq
    induction starts with
    | nil => intro acc; simp [yearly, CapQuote.addStrip]
    | cons s ss ih =>
      intro acc
      obtain ⟨b1, b2⟩ := hs s (by simp)
      have b1' : (0 : ℝ) ≤ (s : ℝ) := by exact_mod_cast b1
      simp only [yearly, List.map_cons] at ih ⊢
      rw [CapQuote.addStrip]
      simp only [h1, h2, h3, h4, h5, h6, ok_bind]
      rw [zeroCurve_discount b1 (by omega), zeroCurve_discount (by omega) (by omega)]
      simp only [ok_bind]
      rw [ih fun x hx => hs x (by simp [hx])]
      congr 1
      have hcap : capletTotalVariance .forwardLooking (sigmaForStart s strip trial) (yf365 0 s)
          (yf365 0 (s + 365)) = sigmaForStart s strip trial * sigmaForStart s strip trial *
            ((s : ℝ) / 365) := by
        unfold capletTotalVariance yf365
        rw [if_neg (by push_cast; rw [not_le]; linarith)]
        simp only [sub_zero]
        rw [max_eq_left (by positivity)]
      rw [hcap]
      simp only [Direction.sign, capletPrice, List.sum_cons]
      norm_num
      ring
  have := key 0
  rw [zero_add] at this
  exact this

theorem sampleQuote_residual (k npv : ℝ) (strip : List StripPoint) (trial : ℝ) (starts : List Int)
    (hs : ∀ s ∈ starts, 0 ≤ s ∧ s ≤ 1600) :
    (capQuote k starts npv).residual zeroCurve 0 strip trial =
      .ok (some ((starts.map fun s => capletPrice k (sigmaForStart s strip trial) s).sum - npv)) := by
  unfold CapQuote.residual
  rw [sampleQuote_price k npv strip trial starts hs]
  rfl

/-- A root finder that knows the two volatilities in use. -/
noncomputable def tryTwo : RootFinder := fun f =>
  if f (1 / 100) = .ok (some 0) then .ok (1 / 100)
  else if f (2 / 100) = .ok (some 0) then .ok (2 / 100) else .fail .invalidData

theorem tryTwo_exact : SolvesWithin tryTwo 0 := by
  intro f x h
  unfold tryTwo at h
  by_cases h1 : f (1 / 100) = .ok (some 0)
  · rw [if_pos h1] at h
    rw [← ok.inj h]
    exact ⟨0, h1, by simp⟩
  · rw [if_neg h1] at h
    by_cases h2 : f (2 / 100) = .ok (some 0)
    · rw [if_pos h2] at h
      rw [← ok.inj h]
      exact ⟨0, h2, by simp⟩
    · rw [if_neg h2] at h
      simp at h

theorem tryTwo_first {f : ℝ → Outcome (Option ℝ)} (h : f (1 / 100) = .ok (some 0)) :
    tryTwo f = .ok (1 / 100) := if_pos h

theorem tryTwo_second {f : ℝ → Outcome (Option ℝ)} (h1 : f (1 / 100) ≠ .ok (some 0))
    (h : f (2 / 100) = .ok (some 0)) :
    tryTwo f = .ok (2 / 100) := by
  unfold tryTwo
  rw [if_neg h1, if_pos h]

theorem capQuote_lastFixing {k npv : ℝ} {starts : List Int} {d : Int}
    (h : ∀ s ∈ starts, s ≤ d) : (capQuote k (starts ++ [d]) npv).LastFixing d := by
  refine ⟨⟨yearly starts, ⟨d, d + 365, d + 365, d, 0, 1⟩, ?_, rfl⟩, ?_⟩
  · simp [capQuote, yearly]
  · intro p hp
    simp only [capQuote, yearly, List.mem_map, List.mem_append, List.mem_singleton] at hp
    obtain ⟨s, hs | rfl, rfl⟩ := hp
    · exact h s hs
    · exact le_rfl

theorem atm_ne {start : Int} (hs : 0 < start) : capletPrice 0 (1 / 100) start ≠ capletPrice 0 (2 / 100) start := by
  have hs' : (0 : ℝ) < (start : ℝ) := by exact_mod_cast hs
  rw [capletPrice_atm (by norm_num) hs, capletPrice_atm (by norm_num) hs]
  have h1 : 0 < √((start : ℝ) / 365) * normPdf 0 := mul_pos (Real.sqrt_pos.2 (by positivity)) (normPdf_pos 0)
  intro h
  nlinarith

theorem capQuote_lastStart (k npv : ℝ) (starts : List Int) (d : Int) :
    (capQuote k (starts ++ [d]) npv).lastStart = .ok d := by
  simp [CapQuote.lastStart, capQuote, yearly]

theorem capQuote_sortKey (k npv : ℝ) (starts : List Int) (d val : Int) :
    (capQuote k (starts ++ [d]) npv).sortKey val = d := by
  unfold CapQuote.sortKey
  rw [capQuote_lastStart]

/-- Stripping a single quote. -/
theorem strip_one {solve : RootFinder} {cv : Curve} {val d : Int} {q : CapQuote} {sigma : ℝ}
    (h : q.lastStart = .ok d) (hs : solve (q.residual cv val []) = .ok sigma) :
    stripOneStrike solve cv val [q] = .ok [⟨d, sigma⟩] := by
  unfold stripOneStrike
  rw [List.mergeSort_singleton]
  exact stripQuotes_cons.2 ⟨d, h, .inr ⟨by simp, sigma, hs, rfl⟩⟩

/-- Stripping two quotes given in the order of their last fixings. -/
theorem strip_two {solve : RootFinder} {cv : Curve} {val d d' : Int} {q q' : CapQuote} {sigma sigma' : ℝ}
    (h : q.lastStart = .ok d) (h' : q'.lastStart = .ok d') (hd : d < d')
    (hs : solve (q.residual cv val []) = .ok sigma)
    (hs' : solve (q'.residual cv val [⟨d, sigma⟩]) = .ok sigma') :
    stripOneStrike solve cv val [q, q'] = .ok [⟨d, sigma⟩, ⟨d', sigma'⟩] := by
  unfold stripOneStrike
  have hk : q.sortKey val = d := by unfold CapQuote.sortKey; rw [h]
  have hk' : q'.sortKey val = d' := by unfold CapQuote.sortKey; rw [h']
  rw [List.mergeSort_of_pairwise (by simp [hk, hk', hd.le])]
  exact stripQuotes_cons.2 ⟨d, h, .inr ⟨by simp, sigma, hs,
    stripQuotes_cons.2 ⟨d', h', .inr ⟨by simpa using hd, sigma', hs', rfl⟩⟩⟩⟩

/-- Two strikes, each quoted to two maturities. -/
noncomputable def gridQuotes : List CapQuote :=
  [capQuote 0 [365] (capletPrice 0 (1 / 100) 365),
   capQuote 0 [365, 730] (capletPrice 0 (1 / 100) 365 + capletPrice 0 (2 / 100) 730),
   capQuote (1 / 100) [365] (capletPrice (1 / 100) (1 / 100) 365),
   capQuote (1 / 100) [365, 730] (capletPrice (1 / 100) (1 / 100) 365 + capletPrice (1 / 100) (1 / 100) 730)]

/-- Non-vacuity of C55: the sample grid is rectangular and strips. -/
theorem gridQuotes_strips : ∃ lastFixing pillars, RectangularQuotes gridQuotes lastFixing ∧
    SolvesWithin tryTwo 0 ∧
    stripCapletVols tryTwo zeroCurve 0 gridQuotes = .ok pillars ∧ pillars.length = 2 := by
  have f1 : ∀ k npv, (capQuote k [365] npv).LastFixing 365 := fun k npv =>
    capQuote_lastFixing (starts := []) (by simp)
  have f2 : ∀ k npv, (capQuote k [365, 730] npv).LastFixing 730 := fun k npv =>
    capQuote_lastFixing (starts := [365]) (by simp)
  have l1 := fun k npv => lastStart_of_fixing (f1 k npv)
  have l2 := fun k npv => lastStart_of_fixing (f2 k npv)
  have k1 : ∀ k npv, (capQuote k [365] npv).sortKey 0 = 365 := fun k npv =>
    capQuote_sortKey k npv [] 365 0
  have k2 : ∀ k npv, (capQuote k [365, 730] npv).sortKey 0 = 730 := fun k npv =>
    capQuote_sortKey k npv [365] 730 0
  have st : ∀ k starts npv, (capQuote k starts npv).strike = k := fun _ _ _ => rfl
  have hcols : stripCapletVols tryTwo zeroCurve 0 gridQuotes = .ok (assemblePillars
      [(0, [⟨365, 1 / 100⟩, ⟨730, 2 / 100⟩]), (1 / 100, [⟨365, 1 / 100⟩, ⟨730, 1 / 100⟩])]) := by
    unfold stripCapletVols
    have hg : gridQuotes.foldl (fun gs q => addToGroups q gs) [] =
        [(0, [capQuote 0 [365] (capletPrice 0 (1 / 100) 365),
          capQuote 0 [365, 730] (capletPrice 0 (1 / 100) 365 + capletPrice 0 (2 / 100) 730)]),
         (1 / 100, [capQuote (1 / 100) [365] (capletPrice (1 / 100) (1 / 100) 365),
          capQuote (1 / 100) [365, 730]
            (capletPrice (1 / 100) (1 / 100) 365 + capletPrice (1 / 100) (1 / 100) 730)])] := by
      unfold gridQuotes
      have same : ∀ (q : CapQuote) (k : ℝ) l gs, q.strike = k →
          addToGroups q ((k, l) :: gs) = (k, l ++ [q]) :: gs := by
        intro q k l gs h
        rw [addToGroups, if_pos (by rw [h, sub_self, abs_zero]; norm_num)]
      have other : ∀ (q : CapQuote) l gs, q.strike = 1 / 100 →
          addToGroups q ((0, l) :: gs) = (0, l) :: addToGroups q gs := by
        intro q l gs h
        rw [addToGroups, if_neg (by rw [h]; norm_num [abs_of_neg])]
      rw [List.foldl_cons, List.foldl_cons, List.foldl_cons, List.foldl_cons, List.foldl_nil,
        addToGroups, st, same _ _ _ _ (st _ _ _), other _ _ _ (st _ _ _), addToGroups, st,
        other _ _ _ (st _ _ _), same _ _ _ _ (st _ _ _)]
      rfl
    rw [hg, List.mergeSort_of_pairwise (by norm_num)]
    have c1 := strip_two (solve := tryTwo) (cv := zeroCurve) (val := 0)
      (l1 0 (capletPrice 0 (1 / 100) 365))
      (l2 0 (capletPrice 0 (1 / 100) 365 + capletPrice 0 (2 / 100) 730)) (by norm_num)
      (sigma := 1 / 100) (sigma' := 2 / 100)
      (tryTwo_first (by
        rw [sampleQuote_residual _ _ _ _ _ (by simp)]; simp [sigmaForStart]))
      (tryTwo_second (by
          rw [sampleQuote_residual _ _ _ _ _ (by simp)]
          have := atm_ne (start := 730) (by norm_num)
          simp [sigmaForStart]
          simp at this
          intro h
          exact this (by linarith)) (by
        rw [sampleQuote_residual _ _ _ _ _ (by simp)]; simp [sigmaForStart]))
    have c2 := strip_two (solve := tryTwo) (cv := zeroCurve) (val := 0)
      (l1 (1 / 100) (capletPrice (1 / 100) (1 / 100) 365))
      (l2 (1 / 100) (capletPrice (1 / 100) (1 / 100) 365 + capletPrice (1 / 100) (1 / 100) 730))
      (by norm_num) (sigma := 1 / 100) (sigma' := 1 / 100)
      (tryTwo_first (by
        rw [sampleQuote_residual _ _ _ _ _ (by simp)]; simp [sigmaForStart]))
      (tryTwo_first (by
        rw [sampleQuote_residual _ _ _ _ _ (by simp)]; simp [sigmaForStart]))
    simp only [stripColumns]
    rw [c1, c2]
    rfl
  refine ⟨CapQuote.sortKey 0, _, ⟨?_, ?_, ?_, ?_⟩, tryTwo_exact, hcols, ?_⟩
  · intro q hq
    simp only [gridQuotes, List.mem_cons, List.not_mem_nil, or_false] at hq
    rcases hq with rfl | rfl | rfl | rfl
    · rw [k1]; exact f1 _ _
    · rw [k2]; exact f2 _ _
    · rw [k1]; exact f1 _ _
    · rw [k2]; exact f2 _ _
  · intro q hq q' hq'
    simp only [gridQuotes, List.mem_cons, List.not_mem_nil, or_false] at hq hq'
    rcases hq with rfl | rfl | rfl | rfl <;> rcases hq' with rfl | rfl | rfl | rfl <;>
      simp only [st] <;> norm_num
  · intro q hq q' hq'
    simp only [gridQuotes, List.mem_cons, List.not_mem_nil, or_false] at hq hq'
    simp only [gridQuotes, List.mem_cons, List.not_mem_nil, or_false, exists_eq_or_imp, exists_eq_left]
    rcases hq with rfl | rfl | rfl | rfl <;> rcases hq' with rfl | rfl | rfl | rfl <;>
      simp [st, k1, k2]
  · simp [gridQuotes, st, k1, k2]
  · have he : columnExpiries [(0, [⟨365, 1 / 100⟩, ⟨730, 2 / 100⟩]),
        (1 / 100, [⟨365, 1 / 100⟩, ⟨730, 1 / 100⟩])] = [365, 730] := by
      unfold columnExpiries
      have : ([365, 730, 365, 730] : List Int).mergeSort (fun a b => decide (a ≤ b)) =
        [365, 365, 730, 730] := mergeSort_dates_eq _ _ (by decide) (by decide)
      simp only [List.flatMap_cons, List.flatMap_nil, List.map_cons, List.map_nil, List.append_nil,
        List.cons_append, List.nil_append]
      rw [this]
      decide
    have hn : ∀ e : Int, 365 ≤ e → pillarNodes [(0, [⟨365, 1 / 100⟩, ⟨730, 2 / 100⟩]),
        (1 / 100, [⟨365, 1 / 100⟩, ⟨730, 1 / 100⟩])] e ≠ [] := by
      intro e he
      by_cases h7 : 730 ≤ e
      · exact List.ne_nil_of_mem (mem_pillarNodes.2 ⟨_, by simp; exact .inl rfl, ⟨730, 2 / 100⟩,
          by simp [h7], rfl⟩)
      · exact List.ne_nil_of_mem (mem_pillarNodes.2 ⟨_, by simp; exact .inl rfl, ⟨365, 1 / 100⟩,
          by simp [h7, he], rfl⟩)
    rw [assemblePillars_eq, he]
    obtain ⟨a, as, ha⟩ := List.exists_cons_of_ne_nil (hn 365 (by norm_num))
    obtain ⟨b, bs, hb⟩ := List.exists_cons_of_ne_nil (hn 730 (by norm_num))
    simp only [List.filterMap_cons, List.filterMap_nil, ha, hb, List.length_cons, List.length_nil]

/-- Strike 0 is quoted to the third year only, strike -1% to the second. -/
noncomputable def raggedQuotes : List CapQuote :=
  [capQuote (-1 / 100) [730] (capletPrice (-1 / 100) (1 / 100) 730),
   capQuote 0 [730, 1095] (capletPrice 0 (2 / 100) 730 + capletPrice 0 (2 / 100) 1095)]

/-- C55: on a ragged grid the surface need not reprice its quotes, although each column was
solved exactly.  The second-year pillar has no node for strike 0, so the cap at strike 0 is
valued there with the volatility of the other strike. -/
theorem C55_nonrectangular_false : ∃ (solve : RootFinder) (cv : Curve) (val : Int)
    (qs : List CapQuote) (lastFixing : CapQuote → Int) (pillars : List CapletPillar),
    SolvesWithin solve 0 ∧ (∀ q ∈ qs, q.LastFixing (lastFixing q)) ∧
    (∀ q ∈ qs, ∀ q' ∈ qs, q.strike = q'.strike ∨ 1 / 1000000000000 ≤ |q.strike - q'.strike|) ∧
    (qs.Pairwise fun q q' => ¬ (q.strike = q'.strike ∧ lastFixing q = lastFixing q')) ∧
    stripCapletVols solve cv val qs = .ok pillars ∧
    ∃ q ∈ qs, ∃ pv, (q.toTrade val).pv cv pillars 0 0 = .ok pv ∧ pv < q.marketNpv := by
  have f1 : ∀ k npv, (capQuote k [730] npv).LastFixing 730 := fun k npv =>
    capQuote_lastFixing (starts := []) (by simp)
  have f2 : ∀ k npv, (capQuote k [730, 1095] npv).LastFixing 1095 := fun k npv =>
    capQuote_lastFixing (starts := [730]) (by simp)
  have k1 : ∀ k npv, (capQuote k [730] npv).sortKey 0 = 730 := fun k npv =>
    capQuote_sortKey k npv [] 730 0
  have k2 : ∀ k npv, (capQuote k [730, 1095] npv).sortKey 0 = 1095 := fun k npv =>
    capQuote_sortKey k npv [730] 1095 0
  have st : ∀ k starts npv, (capQuote k starts npv).strike = k := fun _ _ _ => rfl
  have hcols : stripCapletVols tryTwo zeroCurve 0 raggedQuotes = .ok (assemblePillars
      [(-1 / 100, [⟨730, 1 / 100⟩]), (0, [⟨1095, 2 / 100⟩])]) := by
    unfold stripCapletVols
    have hg : raggedQuotes.foldl (fun gs q => addToGroups q gs) [] =
        [(-1 / 100, [capQuote (-1 / 100) [730] (capletPrice (-1 / 100) (1 / 100) 730)]),
         (0, [capQuote 0 [730, 1095] (capletPrice 0 (2 / 100) 730 + capletPrice 0 (2 / 100) 1095)])] := by
      unfold raggedQuotes
      simp only [List.foldl_cons, List.foldl_nil, addToGroups, st]
      norm_num
    rw [hg, List.mergeSort_of_pairwise (by norm_num)]
    have c1 := strip_one (solve := tryTwo) (cv := zeroCurve) (val := 0)
      (lastStart_of_fixing (f1 (-1 / 100) (capletPrice (-1 / 100) (1 / 100) 730)))
      (sigma := 1 / 100)
      (tryTwo_first (by
        rw [sampleQuote_residual _ _ _ _ _ (by simp)]; simp [sigmaForStart]))
    have c2 := strip_one (solve := tryTwo) (cv := zeroCurve) (val := 0)
      (lastStart_of_fixing (f2 0 (capletPrice 0 (2 / 100) 730 + capletPrice 0 (2 / 100) 1095)))
      (sigma := 2 / 100)
      (tryTwo_second (by
          rw [sampleQuote_residual _ _ _ _ _ (by simp)]
          have h1 : 0 < √((730 : Int) / 365 : ℝ) * normPdf 0 :=
            mul_pos (Real.sqrt_pos.2 (by norm_num)) (normPdf_pos 0)
          have h2 : 0 < √((1095 : Int) / 365 : ℝ) * normPdf 0 :=
            mul_pos (Real.sqrt_pos.2 (by norm_num)) (normPdf_pos 0)
          rw [capletPrice_atm (by norm_num) (by norm_num), capletPrice_atm (by norm_num) (by norm_num)]
          simp only [sigmaForStart, List.map_cons, List.map_nil, List.sum_cons, List.sum_nil]
          rw [capletPrice_atm (by norm_num) (by norm_num), capletPrice_atm (by norm_num) (by norm_num)]
          intro h
          have := Option.some.inj (ok.inj h)
          nlinarith) (by
        rw [sampleQuote_residual _ _ _ _ _ (by simp)]; simp [sigmaForStart]))
    simp only [stripColumns]
    rw [c1, c2]
    rfl
  have he : columnExpiries [(-1 / 100, [⟨730, 1 / 100⟩]), (0, [⟨1095, 2 / 100⟩])] = [730, 1095] := by
    unfold columnExpiries
    have : ([730, 1095] : List Int).mergeSort (fun a b => decide (a ≤ b)) =
      [730, 1095] := mergeSort_dates_eq _ _ (by decide) (by decide)
    simp only [List.flatMap_cons, List.flatMap_nil, List.map_cons, List.map_nil, List.append_nil,
      List.cons_append, List.nil_append]
    rw [this]
    decide
  have hp : assemblePillars [(-1 / 100, [⟨730, 1 / 100⟩]), (0, [⟨1095, 2 / 100⟩])] =
      [⟨730, [(-1 / 100, 1 / 100)]⟩, ⟨1095, [(-1 / 100, 1 / 100), (0, 2 / 100)]⟩] := by
    rw [assemblePillars_eq, he]
    have n1 : pillarNodes [(-1 / 100, [⟨730, 1 / 100⟩]), (0, [⟨1095, 2 / 100⟩])] 730 =
        [(-1 / 100, 1 / 100)] := by
      unfold pillarNodes
      simp [List.filterMap_cons]
    have n2 : pillarNodes [(-1 / 100, [⟨730, 1 / 100⟩]), (0, [⟨1095, 2 / 100⟩])] 1095 =
        [(-1 / 100, 1 / 100), (0, 2 / 100)] := by
      unfold pillarNodes
      simp only [List.filterMap_cons, List.reverse_singleton, List.filterMap_nil]
      norm_num
      exact List.mergeSort_of_pairwise (by norm_num)
    simp only [List.filterMap_cons, List.filterMap_nil, n1, n2]
  rw [hp] at hcols
  refine ⟨tryTwo, zeroCurve, 0, raggedQuotes, CapQuote.sortKey 0, _, tryTwo_exact, ?_, ?_, ?_, hcols,
    capQuote 0 [730, 1095] (capletPrice 0 (2 / 100) 730 + capletPrice 0 (2 / 100) 1095),
    by simp [raggedQuotes], capletPrice 0 (1 / 100) 730 + capletPrice 0 (2 / 100) 1095, ?_, ?_⟩
  · intro q hq
    simp only [raggedQuotes, List.mem_cons, List.not_mem_nil, or_false] at hq
    rcases hq with rfl | rfl
    · rw [k1]; exact f1 _ _
    · rw [k2]; exact f2 _ _
  · intro q hq q' hq'
    simp only [raggedQuotes, List.mem_cons, List.not_mem_nil, or_false] at hq hq'
    rcases hq with rfl | rfl <;> rcases hq' with rfl | rfl <;> simp only [st] <;> norm_num
  · simp [raggedQuotes, st]
  · have hv : ∀ p ∈ yearly [730, 1095], capletVolatility [⟨730, [(-1 / 100, 1 / 100)]⟩,
        ⟨1095, [(-1 / 100, 1 / 100), (0, 2 / 100)]⟩] p.start 0 =
        .ok (sigmaForStart p.start [⟨730, 1 / 100⟩] (2 / 100)) := by
      intro p hp
      simp only [yearly, List.map_cons, List.map_nil, List.mem_cons, List.not_mem_nil, or_false] at hp
      rcases hp with rfl | rfl
      · rfl
      · refine (C54_pillar (pre := [⟨730, [(-1 / 100, 1 / 100)]⟩]) (post := []) (by simp) le_rfl 0).trans ?_
        have := C54_node (nodes := [(-1 / 100, 1 / 100), (0, 2 / 100)]) (by simp [StrikesIncrease]; norm_num)
          (n := (0, 2 / 100)) (by simp)
        rw [this]
        rfl
    unfold CapFloor.pv
    rw [show (CapQuote.toTrade (capQuote 0 [730, 1095] (capletPrice 0 (2 / 100) 730 +
      capletPrice 0 (2 / 100) 1095)) 0).schedule = yearly [730, 1095] from rfl,
      addCaplets_eq_addStrip (strip := [⟨730, 1 / 100⟩]) (trial := 2 / 100) hv]
    refine (sampleQuote_price 0 _ [⟨730, 1 / 100⟩] (2 / 100) [730, 1095] (by simp)).trans ?_
    simp [sigmaForStart]
  · show _ < capletPrice 0 (2 / 100) 730 + capletPrice 0 (2 / 100) 1095
    have h1 : 0 < √((730 : Int) / 365 : ℝ) * normPdf 0 :=
      mul_pos (Real.sqrt_pos.2 (by norm_num)) (normPdf_pos 0)
    rw [capletPrice_atm (sigma := 1 / 100) (by norm_num) (by norm_num),
      capletPrice_atm (sigma := 2 / 100) (start := 730) (by norm_num) (by norm_num)]
    nlinarith

end Verif
