import Verif.Spec.InputOrder
import Verif.Lemmas.CapletSurface
import Verif.Lemmas.Swap
import Verif.Props.CurveStrip
import Verif.Props.Simulation

/-!
# Lists of inputs in another order (C104)
-/

namespace Verif
open Classical Outcome

/-- The value of one leg added by `pv_under_shift` (the body of the outer loop with accumulator 0). -/
noncomputable def legShifted (val : Int) (cv : Curve) (bp : ℝ) (l : SwapLeg) : Outcome ℝ := do
  let sch ← l.generateSchedule val
  let a ← l.addShifted cv bp sch 0
  match sch.getLast? with
  | some last => do
    let df ← cv.shiftedDiscount last.pay bp
    .ok (a + last.balance * df * l.direction.sign)
  | none => .ok a

theorem addShifted_acc (l : SwapLeg) (cv : Curve) (bp : ℝ) (ps : List SchedPeriod) (acc : ℝ) :
    l.addShifted cv bp ps acc = (fun v => acc + v) <$> l.addShifted cv bp ps 0 := by
  induction ps generalizing acc with
  | nil => simp [SwapLeg.addShifted]
  | cons p ps ih =>
    rw [SwapLeg.addShifted, SwapLeg.addShifted]
    rcases l.shiftedCashflow p cv bp with v | e | _
    · simp only [ok_bind]
      rw [ih (acc + v), ih (0 + v)]
      rcases l.addShifted cv bp ps 0 with w | e | _ <;> simp [add_assoc]
    · rfl
    · rfl

theorem shiftedLegs_cons (val : Int) (cv : Curve) (bp : ℝ) (l : SwapLeg) (ls : List SwapLeg) (acc : ℝ) :
    shiftedLegs val cv bp (l :: ls) acc =
      (legShifted val cv bp l >>= fun v => shiftedLegs val cv bp ls (acc + v)) := by
  rw [shiftedLegs, legShifted]
  rcases l.generateSchedule val with sch | e | _
  · simp only [ok_bind]
    rw [addShifted_acc]
    rcases l.addShifted cv bp sch 0 with a | e | _
    · simp only [ok_bind, map_ok]
      cases sch.getLast? with
      | none => simp only [ok_bind]
      | some last =>
        dsimp only
        rcases cv.shiftedDiscount last.pay bp with df | e | _
        · simp only [ok_bind, add_assoc]
        · rfl
        · rfl
    · rfl
    · rfl
  · rfl
  · rfl

theorem npvLegs_perm {val : Int} {cv : Curve} {ls ls' : List SwapLeg} (hp : ls.Perm ls') :
    ∀ {acc v : ℝ}, npvLegs val cv ls acc = .ok v → npvLegs val cv ls' acc = .ok v := by
  induction hp with
  | nil => exact id
  | cons l _ ih =>
    intro acc v h
    rw [npvLegs_cons, bind_eq_ok] at h ⊢
    obtain ⟨a, ha, h⟩ := h
    exact ⟨a, ha, ih h⟩
  | swap l k ls =>
    intro acc v h
    rw [npvLegs_cons, bind_eq_ok] at h
    obtain ⟨a, ha, h⟩ := h
    rw [npvLegs_cons, bind_eq_ok] at h
    obtain ⟨b, hb, h⟩ := h
    rw [npvLegs_cons, hb, ok_bind, npvLegs_cons, ha, ok_bind, ← h]
    congr 1; ring
  | trans _ _ ih1 ih2 => exact fun h => ih2 (ih1 h)

theorem shiftedLegs_perm {val : Int} {cv : Curve} {bp : ℝ} {ls ls' : List SwapLeg} (hp : ls.Perm ls') :
    ∀ {acc v : ℝ}, shiftedLegs val cv bp ls acc = .ok v → shiftedLegs val cv bp ls' acc = .ok v := by
  induction hp with
  | nil => exact id
  | cons l _ ih =>
    intro acc v h
    rw [shiftedLegs_cons, bind_eq_ok] at h ⊢
    obtain ⟨a, ha, h⟩ := h
    exact ⟨a, ha, ih h⟩
  | swap l k ls =>
    intro acc v h
    rw [shiftedLegs_cons, bind_eq_ok] at h
    obtain ⟨a, ha, h⟩ := h
    rw [shiftedLegs_cons, bind_eq_ok] at h
    obtain ⟨b, hb, h⟩ := h
    rw [shiftedLegs_cons, hb, ok_bind, shiftedLegs_cons, ha, ok_bind, ← h]
    congr 1; ring
  | trans _ _ ih1 ih2 => exact fun h => ih2 (ih1 h)

/-- Sorting by a key that differs between the elements forgets the order of the list. -/
theorem mergeSort_key_perm {α β : Type} [LinearOrder β] (f : α → β) {l l' : List α} (hp : l.Perm l')
    (hnd : (l.map f).Nodup) :
    (l.mergeSort fun a b => decide (f a ≤ f b)) = l'.mergeSort fun a b => decide (f a ≤ f b) := by
  have hs : ∀ l : List α, (l.mergeSort fun a b => decide (f a ≤ f b)).Pairwise fun a b => f a ≤ f b := by
    intro l
    have := List.pairwise_mergeSort (le := fun a b => decide (f a ≤ f b))
      (fun a b c h1 h2 => by simp only [decide_eq_true_eq] at *; exact le_trans h1 h2)
      (fun a b => by simp only [Bool.or_eq_true, decide_eq_true_eq]; exact le_total _ _) l
    simpa only [decide_eq_true_eq] using this
  have hp' := ((List.mergeSort_perm l fun a b => decide (f a ≤ f b)).trans hp).trans
    (List.mergeSort_perm l' fun a b => decide (f a ≤ f b)).symm
  refine hp'.eq_of_pairwise (le := fun a b => f a ≤ f b) (fun a b ha hb h1 h2 => ?_) (hs l) (hs l')
  exact List.inj_on_of_nodup_map hnd (List.mem_mergeSort.1 ha) (hp.mem_iff.2 (List.mem_mergeSort.1 hb))
    (le_antisymm h1 h2)

theorem buildSmiles_perm {val : Int} {ps ps' : List VolPillar} (hp : ps.Perm ps') :
    ∀ {l : List Smile}, buildSmiles val ps = .ok l → ∃ l', buildSmiles val ps' = .ok l' ∧ l.Perm l' := by
  induction hp with
  | nil => exact fun {l} h => ⟨l, h, .refl _⟩
  | cons p _ ih =>
    intro l h
    rw [buildSmiles] at h
    simp only [bind_eq_ok, ok.injEq] at h
    obtain ⟨s, hs, r, hr, rfl⟩ := h
    obtain ⟨r', hr', hrp⟩ := ih hr
    exact ⟨s :: r', by rw [buildSmiles, hs, ok_bind, hr', ok_bind], hrp.cons s⟩
  | swap p q ps =>
    intro l h
    rw [buildSmiles, buildSmiles] at h
    simp only [bind_eq_ok, ok.injEq] at h
    obtain ⟨s, hs, _, ⟨t, ht, r, hr, rfl⟩, rfl⟩ := h
    exact ⟨t :: s :: r, by rw [buildSmiles, ht, ok_bind, buildSmiles, hs, ok_bind, hr, ok_bind, ok_bind],
      .swap _ _ _⟩
  | trans _ _ ih1 ih2 =>
    intro l h
    obtain ⟨l1, h1, p1⟩ := ih1 h
    obtain ⟨l2, h2, p2⟩ := ih2 h1
    exact ⟨l2, h2, p1.trans p2⟩

theorem maturitiesDiffer_symm {val : Int} {a b : OisRate} (h : MaturitiesDiffer val a b) :
    MaturitiesDiffer val b a := fun m hb ha => h m ha hb

theorem cashMaturities_perm {val : Int} {qs qs' : List OisRate} (hp : qs.Perm qs') :
    ∀ {l : List Int}, cashMaturities val qs = .ok l → ∃ l', cashMaturities val qs' = .ok l' ∧ l.Perm l' := by
  induction hp with
  | nil => exact fun {l} h => ⟨l, h, .refl _⟩
  | cons p _ ih =>
    intro l h
    rw [cashMaturities] at h
    simp only [bind_eq_ok, ok.injEq] at h
    obtain ⟨s, hs, r, hr, rfl⟩ := h
    obtain ⟨r', hr', hrp⟩ := ih hr
    exact ⟨s :: r', by rw [cashMaturities, hs, ok_bind, hr', ok_bind], hrp.cons s⟩
  | swap p q ps =>
    intro l h
    rw [cashMaturities, cashMaturities] at h
    simp only [bind_eq_ok, ok.injEq] at h
    obtain ⟨s, hs, _, ⟨t, ht, r, hr, rfl⟩, rfl⟩ := h
    exact ⟨t :: s :: r, by
      rw [cashMaturities, ht, ok_bind, cashMaturities, hs, ok_bind, hr, ok_bind, ok_bind], .swap _ _ _⟩
  | trans _ _ ih1 ih2 =>
    intro l h
    obtain ⟨l1, h1, p1⟩ := ih1 h
    obtain ⟨l2, h2, p2⟩ := ih2 h1
    exact ⟨l2, h2, p1.trans p2⟩

theorem cashAt_perm {val m : Int} {qs qs' : List OisRate} (hp : qs.Perm qs') :
    qs.Pairwise (MaturitiesDiffer val) →
    ∀ {l : List Pillar}, cashAt val m qs = .ok l → cashAt val m qs' = .ok l := by
  induction hp with
  | nil => exact fun _ {l} h => h
  | cons q _ ih =>
    intro hd l h
    rw [List.pairwise_cons] at hd
    rw [cashAt] at h ⊢
    obtain ⟨m', hm', h⟩ := bind_eq_ok.1 h
    rw [hm', ok_bind]
    by_cases e : m' = m
    · rw [if_pos e] at h ⊢
      simp only [bind_eq_ok, ok.injEq] at h
      obtain ⟨p, hp, r, hr, rfl⟩ := h
      rw [hp, ok_bind, ih hd.2 hr, ok_bind]
    · rw [if_neg e] at h ⊢
      exact ih hd.2 h
  | swap p q qs =>
    intro hd l h
    have hpq := (List.pairwise_cons.1 hd).1 p (by simp)
    rw [cashAt] at h
    obtain ⟨a, ha, h⟩ := bind_eq_ok.1 h
    have ha' := unwrapResult_ok.1 ha
    have hb : ∃ b, unwrapResult (p.maturityDate val) = .ok b := by
      by_cases e : a = m
      · rw [if_pos e] at h
        simp only [bind_eq_ok, ok.injEq] at h
        obtain ⟨_, _, r, hr, _⟩ := h
        rw [cashAt] at hr
        obtain ⟨b, hb, _⟩ := bind_eq_ok.1 hr
        exact ⟨b, hb⟩
      · rw [if_neg e, cashAt] at h
        obtain ⟨b, hb, _⟩ := bind_eq_ok.1 h
        exact ⟨b, hb⟩
    obtain ⟨b, hb⟩ := hb
    have hne : a ≠ b := fun e => hpq a ha' (e ▸ unwrapResult_ok.1 hb)
    rw [cashAt, hb, ok_bind]
    by_cases e : a = m
    · rw [if_neg (fun e' => hne (e.trans e'.symm)), cashAt, ha, ok_bind, if_pos e]
      rw [if_pos e, cashAt, hb, ok_bind, if_neg (fun e' => hne (e.trans e'.symm))] at h
      exact h
    · rw [if_neg e, cashAt, hb, ok_bind] at h
      by_cases e' : b = m
      · rw [if_pos e'] at h ⊢
        rw [cashAt, ha, ok_bind, if_neg e]
        exact h
      · rw [if_neg e'] at h ⊢
        rw [cashAt, ha, ok_bind, if_neg e]
        exact h
  | trans h1 _ ih1 ih2 =>
    intro hd l h
    exact ih2 (h1.pairwise hd (fun {_ _} => maturitiesDiffer_symm)) (ih1 hd h)

theorem cashPillars_perm {val : Int} {qs qs' : List OisRate} (hp : qs.Perm qs')
    (hd : qs.Pairwise (MaturitiesDiffer val)) : ∀ {ms : List Int} {l : List Pillar},
    cashPillars val qs ms = .ok l → cashPillars val qs' ms = .ok l
  | [], _, h => by rw [cashPillars] at h ⊢; exact h
  | m :: ms, l, h => by
    rw [cashPillars] at h ⊢
    simp only [bind_eq_ok, ok.injEq] at h
    obtain ⟨a, ha, b, hb, rfl⟩ := h
    rw [cashAt_perm hp hd ha, ok_bind, cashPillars_perm hp hd hb, ok_bind]

theorem strippedCurve_perm {solve : RateSolver} {val : Int} {qs qs' : List OisRate} (hp : qs.Perm qs')
    (hd : qs.Pairwise (MaturitiesDiffer val)) {fs : List FuturesQuote} {ss : List Swap} {out : List Pillar}
    (h : strippedCurve solve val qs fs ss = .ok out) : strippedCurve solve val qs' fs ss = .ok out := by
  unfold strippedCurve at h ⊢
  obtain ⟨ms, hms, h⟩ := bind_eq_ok.1 h
  obtain ⟨ms', hms', hpm⟩ := cashMaturities_perm hp hms
  obtain ⟨c, hc, h⟩ := bind_eq_ok.1 h
  have e : (ms'.mergeSort fun a b => decide (a ≤ b)) = ms.mergeSort fun a b => decide (a ≤ b) :=
    mergeSort_dates_eq ms' _ (hpm.symm.trans (List.mergeSort_perm ms _).symm) (mergeSort_dates ms)
  rw [hms', ok_bind, e, cashPillars_perm hp hd hc, ok_bind]
  exact h

/-! ### Cap quotes -/

/-- The columns when the quotes of the strike `k` strip to `F k`. -/
noncomputable def columnsOf (F : ℝ → Outcome (List StripPoint)) : List ℝ → Outcome (List (ℝ × List StripPoint))
  | [] => .ok []
  | k :: ks => do
    let s ← F k
    let rest ← columnsOf F ks
    .ok ((k, s) :: rest)

theorem stripColumns_eq {solve : RootFinder} {cv : Curve} {val : Int} {F : ℝ → Outcome (List StripPoint)} :
    ∀ {gs : List (ℝ × List CapQuote)}, (∀ g ∈ gs, stripOneStrike solve cv val g.2 = F g.1) →
      stripColumns solve cv val gs = columnsOf F (gs.map Prod.fst)
  | [], _ => rfl
  | g :: gs, h => by
    rw [stripColumns, List.map_cons, columnsOf, h g (by simp),
      stripColumns_eq fun g' hg' => h g' (List.mem_cons_of_mem _ hg')]

theorem sortKey_differ {val : Int} {a b : CapQuote} (h : LastStartsDiffer a b) :
    a.sortKey val ≠ b.sortKey val := by
  obtain ⟨d, e, ha, hb, hne⟩ := h
  unfold CapQuote.sortKey
  rw [ha, hb]
  exact hne

theorem lastStartsDiffer_symm {a b : CapQuote} (h : LastStartsDiffer a b) : LastStartsDiffer b a := by
  obtain ⟨d, e, ha, hb, hne⟩ := h
  exact ⟨e, d, hb, ha, hne.symm⟩

/-- The quotes of one strike. -/
noncomputable def quotesAt (k : ℝ) (qs : List CapQuote) : List CapQuote :=
  qs.filter fun q => decide (q.strike = k)

theorem quotesAt_keys {val : Int} {qs : List CapQuote} (k : ℝ)
    (hd : qs.Pairwise fun a b => a.strike = b.strike → LastStartsDiffer a b) :
    ((quotesAt k qs).map (CapQuote.sortKey val)).Nodup := by
  unfold quotesAt
  rw [List.Nodup, List.pairwise_map]
  refine (hd.filter fun q => decide (q.strike = k)).imp_of_mem ?_
  intro a b ha hb h
  have ha := (List.mem_filter.1 ha).2
  have hb := (List.mem_filter.1 hb).2
  simp only [decide_eq_true_eq] at ha hb
  exact sortKey_differ (h (ha.trans hb.symm))

theorem capQuotes_nodup {qs : List CapQuote}
    (hd : qs.Pairwise fun a b => a.strike = b.strike → LastStartsDiffer a b) : qs.Nodup := by
  refine hd.imp fun {a b} h e => ?_
  subst e
  obtain ⟨d, e, h1, h2, hne⟩ := h rfl
  rw [h1] at h2
  exact hne (ok.inj h2)

theorem group_perm {qs : List CapQuote}
    (ha : ∀ q ∈ qs, ∀ q' ∈ qs, q.strike = q'.strike ∨ 1 / 1000000000000 ≤ |q.strike - q'.strike|)
    (hd : qs.Pairwise fun a b => a.strike = b.strike → LastStartsDiffer a b) :
    ∀ g ∈ groupsOf qs, (quotesAt g.1 qs).Perm g.2 := by
  intro g hg
  have ok := groupsOf_ok ha
  have hn := capQuotes_nodup hd
  refine (List.perm_ext_iff_of_nodup (hn.filter _) ((ok.sub g hg).nodup hn)).2 fun q => ?_
  rw [List.mem_filter, decide_eq_true_eq]
  constructor
  · rintro ⟨hq, hk⟩
    obtain ⟨g', hg', hq'⟩ := ok.all q hq
    have e : g'.1 = g.1 := by rw [← ok.strike g' hg' q hq', hk]
    have : g' = g := by
      by_contra hne
      haveI : Std.Symm fun a b : ℝ × List CapQuote => 1 / 1000000000000 ≤ |a.1 - b.1| :=
        ⟨fun a b h => by rwa [abs_sub_comm]⟩
      have := (groupsOf_apart qs).forall hg' hg hne
      rw [e, sub_self, abs_zero] at this
      norm_num at this
    rwa [← this]
  · exact fun h => ⟨(ok.sub g hg).subset h, ok.strike g hg q h⟩

theorem group_strikes {qs : List CapQuote}
    (ha : ∀ q ∈ qs, ∀ q' ∈ qs, q.strike = q'.strike ∨ 1 / 1000000000000 ≤ |q.strike - q'.strike|) (k : ℝ) :
    k ∈ ((groupsOf qs).mergeSort fun a b => decide (a.1 ≤ b.1)).map Prod.fst ↔ ∃ q ∈ qs, q.strike = k := by
  have ok := groupsOf_ok ha
  simp only [List.mem_map, List.mem_mergeSort]
  constructor
  · rintro ⟨g, hg, rfl⟩
    obtain ⟨q, hq⟩ := List.exists_mem_of_ne_nil _ (ok.ne g hg)
    exact ⟨q, (ok.sub g hg).subset hq, ok.strike g hg q hq⟩
  · rintro ⟨q, hq, rfl⟩
    obtain ⟨g, hg, h⟩ := ok.all q hq
    exact ⟨g, hg, (ok.strike g hg q h).symm⟩

theorem stripCapletVols_perm {solve : RootFinder} {cv : Curve} {val : Int} {qs qs' : List CapQuote}
    (hp : qs.Perm qs')
    (ha : ∀ q ∈ qs, ∀ q' ∈ qs, q.strike = q'.strike ∨ 1 / 1000000000000 ≤ |q.strike - q'.strike|)
    (hd : qs.Pairwise fun a b => a.strike = b.strike → LastStartsDiffer a b) :
    stripCapletVols solve cv val qs' = stripCapletVols solve cv val qs := by
  have ha' : ∀ q ∈ qs', ∀ q' ∈ qs', q.strike = q'.strike ∨ 1 / 1000000000000 ≤ |q.strike - q'.strike| :=
    fun q hq q' hq' => ha q (hp.mem_iff.2 hq) q' (hp.mem_iff.2 hq')
  have hd' : qs'.Pairwise fun a b => a.strike = b.strike → LastStartsDiffer a b :=
    hp.pairwise hd fun {a b} h e => lastStartsDiffer_symm (h e.symm)
  have key : ∀ {rs : List CapQuote}, (∀ q ∈ rs, ∀ q' ∈ rs, q.strike = q'.strike ∨
      1 / 1000000000000 ≤ |q.strike - q'.strike|) →
      (rs.Pairwise fun a b => a.strike = b.strike → LastStartsDiffer a b) →
      stripColumns solve cv val ((groupsOf rs).mergeSort fun a b => decide (a.1 ≤ b.1)) =
        columnsOf (fun k => stripOneStrike solve cv val (quotesAt k rs))
          (((groupsOf rs).mergeSort fun a b => decide (a.1 ≤ b.1)).map Prod.fst) := by
    intro rs h1 h2
    refine stripColumns_eq fun g hg => ?_
    have hg := List.mem_mergeSort.1 hg
    unfold stripOneStrike
    rw [mergeSort_key_perm (CapQuote.sortKey val) (group_perm h1 h2 g hg) (quotesAt_keys g.1 h2)]
  have hF : (fun k => stripOneStrike solve cv val (quotesAt k qs')) =
      fun k => stripOneStrike solve cv val (quotesAt k qs) := by
    funext k
    unfold stripOneStrike
    have hpk : (quotesAt k qs).Perm (quotesAt k qs') := hp.filter _
    rw [mergeSort_key_perm (CapQuote.sortKey val) hpk (quotesAt_keys k hd)]
  have hs : ∀ rs : List CapQuote,
      (((groupsOf rs).mergeSort fun a b => decide (a.1 ≤ b.1)).map Prod.fst).Pairwise (· < ·) :=
    fun rs => List.pairwise_map.2 (sortedGroups_lt rs)
  have hK : ((groupsOf qs').mergeSort fun a b => decide (a.1 ≤ b.1)).map Prod.fst =
      ((groupsOf qs).mergeSort fun a b => decide (a.1 ≤ b.1)).map Prod.fst := by
    refine List.Perm.eq_of_pairwise (le := (· < ·)) (fun a b _ _ h1 h2 => absurd h1 (not_lt.2 h2.le))
      (hs qs') (hs qs) ?_
    refine (List.perm_ext_iff_of_nodup ((hs qs').imp ne_of_lt) ((hs qs).imp ne_of_lt)).2 fun k => ?_
    rw [group_strikes ha', group_strikes ha]
    exact ⟨fun ⟨q, hq, h⟩ => ⟨q, hp.mem_iff.2 hq, h⟩, fun ⟨q, hq, h⟩ => ⟨q, hp.mem_iff.1 hq, h⟩⟩
  unfold stripCapletVols
  dsimp only
  rw [show (qs'.foldl (fun gs q => addToGroups q gs) []) = groupsOf qs' from rfl,
    show (qs.foldl (fun gs q => addToGroups q gs) []) = groupsOf qs from rfl,
    key ha hd, key ha' hd', hF, hK]

theorem simulateAtDates_perm {S M : Type} {ks : KeySearch} {sim : SimModel S M} {m : M} {val : Int}
    {ds ds' : List Int} (hp : ds.Perm ds') {nPaths maxStep : Nat} {dc : Int → Int → Outcome ℝ} :
    simulateAtDates ks sim m val ds' nPaths maxStep dc = simulateAtDates ks sim m val ds nPaths maxStep dc := by
  have e : (ds'.mergeSort fun a b => decide (a ≤ b)) = ds.mergeSort fun a b => decide (a ≤ b) :=
    mergeSort_dates_eq ds' _ (hp.symm.trans (List.mergeSort_perm ds _).symm) (mergeSort_dates ds)
  have e1 : (ds' = []) = (ds = []) := propext ⟨fun h => (h ▸ hp).eq_nil, fun h => (h ▸ hp.symm).eq_nil⟩
  have e2 : (∃ d ∈ ds', d ≤ val) = ∃ d ∈ ds, d ≤ val :=
    propext ⟨fun ⟨d, h, hd⟩ => ⟨d, hp.mem_iff.2 h, hd⟩, fun ⟨d, h, hd⟩ => ⟨d, hp.mem_iff.1 h, hd⟩⟩
  unfold simulateAtDates
  dsimp only
  rw [e]
  refine if_congr Iff.rfl rfl (if_congr Iff.rfl rfl (if_congr (iff_of_eq e1) rfl (if_congr (iff_of_eq e2) rfl rfl)))

end Verif
