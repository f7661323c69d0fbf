import Verif.Spec.SmileOrder
import Verif.Lemmas.FxVolQuotes
import Verif.Lemmas.InputOrder

/-!
# The quotes of a smile in another order (C104)
-/

namespace Verif

open Classical Outcome

/-- Deltas of which any two are equal or clearly apart. -/
def Apart (D : ℝ → Prop) : Prop := ∀ x y, D x → D y → x = y ∨ 1 / 10 ^ 9 ≤ |x - y|

theorem apart_eq {D : ℝ → Prop} (hD : Apart D) {x y : ℝ} (hx : D x) (hy : D y) :
    |x - y| < 1 / 10 ^ 9 ↔ x = y := by
  constructor
  · intro h
    rcases hD x y hx hy with e | e
    · exact e
    · exact absurd h (not_lt.2 e)
  · rintro rfl
    norm_num

/-- Buckets with different keys among `D`. -/
def Buckets (D : ℝ → Prop) (bs : List (ℝ × PartialDelta)) : Prop :=
  (bs.map Prod.fst).Nodup ∧ ∀ b ∈ bs, D b.1

theorem Buckets.perm {D : ℝ → Prop} {bs bs' : List (ℝ × PartialDelta)} (h : Buckets D bs) (hp : bs.Perm bs') :
    Buckets D bs' :=
  ⟨(hp.map _).nodup_iff.1 h.1, fun b hb => h.2 b (hp.mem_iff.2 hb)⟩

theorem Buckets.tail {D : ℝ → Prop} {b : ℝ × PartialDelta} {bs : List (ℝ × PartialDelta)}
    (h : Buckets D (b :: bs)) : Buckets D bs :=
  ⟨(List.nodup_cons.1 h.1).2, fun c hc => h.2 c (List.mem_cons_of_mem _ hc)⟩

theorem bucketKeys_update {D : ℝ → Prop} (hD : Apart D) {f : PartialDelta → PartialDelta} {d : ℝ} (hd : D d) :
    ∀ {bs : List (ℝ × PartialDelta)}, Buckets D bs →
      ∀ k, k ∈ (bucketUpdate f d bs).map Prod.fst ↔ k = d ∨ k ∈ bs.map Prod.fst
  | [], _, k => by simp [bucketUpdate]
  | b :: bs, h, k => by
    rw [bucketUpdate]
    by_cases e : |b.1 - d| < 1 / 10 ^ 9
    · rw [if_pos e]
      have e := (apart_eq hD (h.2 b (by simp)) hd).1 e
      simp only [List.map_cons, List.mem_cons]
      constructor
      · exact .inr
      · rintro (rfl | h')
        · exact .inl e.symm
        · exact h'
    · rw [if_neg e, List.map_cons, List.mem_cons, bucketKeys_update hD hd h.tail k, List.map_cons,
        List.mem_cons]
      tauto

theorem buckets_update {D : ℝ → Prop} (hD : Apart D) {f : PartialDelta → PartialDelta} {d : ℝ}
    (hd : D d) : ∀ {bs : List (ℝ × PartialDelta)}, Buckets D bs → Buckets D (bucketUpdate f d bs)
  | [], _ => ⟨by simp [bucketUpdate], by simp [bucketUpdate, hd]⟩
  | b :: bs, h => by
    rw [bucketUpdate]
    by_cases e : |b.1 - d| < 1 / 10 ^ 9
    · rw [if_pos e]
      refine ⟨h.1, fun c hc => ?_⟩
      rcases List.mem_cons.1 hc with rfl | hc
      · exact h.2 b (by simp)
      · exact h.2 c (List.mem_cons_of_mem _ hc)
    · rw [if_neg e]
      have ht := buckets_update hD (f := f) hd h.tail
      refine ⟨List.nodup_cons.2 ⟨fun hm => ?_, ht.1⟩, fun c hc => ?_⟩
      · rcases (bucketKeys_update hD hd h.tail b.1).1 hm with e' | e'
        · exact e ((apart_eq hD (h.2 b (by simp)) hd).2 e')
        · exact (List.nodup_cons.1 h.1).1 e'
      · rcases List.mem_cons.1 hc with rfl | hc
        · exact h.2 c (by simp)
        · exact ht.2 c hc

theorem bucketPerm_update {D : ℝ → Prop} (hD : Apart D) {f : PartialDelta → PartialDelta} {d : ℝ} (hd : D d)
    {bs bs' : List (ℝ × PartialDelta)} (hp : bs.Perm bs') :
    Buckets D bs → (bucketUpdate f d bs).Perm (bucketUpdate f d bs') := by
  induction hp with
  | nil => exact fun _ => .refl _
  | cons b hp ih =>
    intro h
    rw [bucketUpdate, bucketUpdate]
    split_ifs
    · exact hp.cons _
    · exact (ih h.tail).cons _
  | swap a b bs =>
    intro h
    have hb := h.2 b (by simp)
    have ha := h.2 a (by simp)
    have hne : b.1 ≠ a.1 := fun e => (List.nodup_cons.1 h.1).1 (by simp [e])
    rw [bucketUpdate, bucketUpdate, bucketUpdate, bucketUpdate]
    rw [if_congr (apart_eq hD hb hd) rfl rfl, if_congr (apart_eq hD ha hd) rfl rfl,
      if_congr (apart_eq hD ha hd) rfl rfl, if_congr (apart_eq hD hb hd) rfl rfl]
    by_cases e1 : b.1 = d
    · rw [if_pos e1, if_neg (fun e2 => hne (e1.trans e2.symm)), if_pos e1]
      exact .swap _ _ _
    · rw [if_neg e1, if_neg e1]
      by_cases e2 : a.1 = d
      · rw [if_pos e2, if_pos e2]
        exact .swap _ _ _
      · rw [if_neg e2, if_neg e2]
        exact .swap _ _ _
  | trans h1 _ ih1 ih2 => exact fun h => (ih1 h).trans (ih2 (h.perm h1))

theorem bucketComm_update {D : ℝ → Prop} (hD : Apart D) {f g : PartialDelta → PartialDelta} {d e : ℝ}
    (hd : D d) (he : D e) (hc : d = e → ∀ p, f (g p) = g (f p)) : ∀ {bs : List (ℝ × PartialDelta)},
    Buckets D bs → (bucketUpdate f d (bucketUpdate g e bs)).Perm (bucketUpdate g e (bucketUpdate f d bs))
  | [], _ => by
    simp only [bucketUpdate]
    by_cases h : d = e
    · subst h
      rw [if_pos (by norm_num), if_pos (by norm_num), hc rfl]
    · rw [if_neg (fun h' => h ((apart_eq hD he hd).1 h').symm), if_neg (fun h' => h ((apart_eq hD hd he).1 h'))]
      exact .swap _ _ _
  | b :: bs, h => by
    have hb := h.2 b (by simp)
    by_cases h1 : |b.1 - d| < 1 / 10 ^ 9 <;> by_cases h2 : |b.1 - e| < 1 / 10 ^ 9
    · have e1 := (apart_eq hD hb hd).1 h1
      have e2 := (apart_eq hD hb he).1 h2
      simp only [bucketUpdate, h1, h2, if_true, hc (e1.symm.trans e2)]
      exact .refl _
    · simp only [bucketUpdate, h1, h2, if_true, if_false]
      exact .refl _
    · simp only [bucketUpdate, h1, h2, if_true, if_false]
      exact .refl _
    · simp only [bucketUpdate, h1, h2, if_false]
      exact (bucketComm_update hD hd he hc h.tail).cons _

theorem setField_comm {a b : FxVolQuote} (h : a.kind ≠ b.kind) (p : PartialDelta) :
    setField a (setField b p) = setField b (setField a p) := by
  cases a <;> cases b <;> simp [FxVolQuote.kind] at h <;> rfl

theorem collect_atm (v : ℝ) (qs : List FxVolQuote) (atm : Option ℝ) (bs : List (ℝ × PartialDelta)) :
    collectQuotes (.atm v :: qs) atm bs =
      if atm.isSome then .fail .invalidData else collectQuotes qs (some v) bs := by
  rw [collectQuotes]

/-- The buckets after another order of the quotes, started from other order of buckets. -/
theorem collectQuotes_perm {D : ℝ → Prop} (hD : Apart D) {qs qs' : List FxVolQuote} (hp : qs.Perm qs') :
    (∀ q ∈ qs, ∀ d, q.delta? = some d → D d) → SmileQuotesDiffer qs →
    ∀ ⦃atm a : Option ℝ⦄ ⦃bs bs' r : List (ℝ × PartialDelta)⦄, Buckets D bs → bs.Perm bs' →
      collectQuotes qs atm bs = .ok (a, r) →
      Buckets D r ∧ ∃ r', collectQuotes qs' atm bs' = .ok (a, r') ∧ r.Perm r' := by
  induction hp with
  | nil =>
    intro _ _ atm a bs bs' r hb hbp h
    rw [collectQuotes] at h
    cases h
    exact ⟨hb, bs', rfl, hbp⟩
  | cons q _ ih =>
    intro hq hs atm a bs bs' r hb hbp h
    have ih := ih (fun q hq' => hq q (List.mem_cons_of_mem _ hq')) (List.pairwise_cons.1 hs).2
    cases hd : q.delta? with
    | none =>
      obtain ⟨v, rfl⟩ : ∃ v, q = .atm v := by
        cases q <;> simp [FxVolQuote.delta?] at hd
        exact ⟨_, rfl⟩
      rw [collect_atm] at h ⊢
      cases atm with
      | some w => simp at h
      | none =>
        simp only [Option.isSome_none, Bool.false_eq_true, if_false] at h ⊢
        exact ih hb hbp h
    | some d =>
      have hDd := hq q (by simp) d hd
      rw [collect_cons hd] at h ⊢
      obtain ⟨u, hv, h⟩ := bind_eq_ok.1 h
      rw [hv, ok_bind]
      exact ih (buckets_update hD hDd hb) (bucketPerm_update hD hDd hbp hb) h
  | swap q p qs =>
    intro hq hs atm a bs bs' r hb hbp h
    have hpq := (List.pairwise_cons.1 hs).1 q (by simp)
    have same : ∀ {rs : List FxVolQuote}, (∀ q ∈ rs, ∀ d, q.delta? = some d → D d) →
        ∀ ⦃atm a : Option ℝ⦄ ⦃bs bs' r : List (ℝ × PartialDelta)⦄, Buckets D bs → bs.Perm bs' →
        collectQuotes rs atm bs = .ok (a, r) →
        Buckets D r ∧ ∃ r', collectQuotes rs atm bs' = .ok (a, r') ∧ r.Perm r' := by
      intro rs
      induction rs with
      | nil =>
        intro _ atm a bs bs' r hb hbp h
        rw [collectQuotes] at h
        cases h
        exact ⟨hb, bs', rfl, hbp⟩
      | cons q rs ih =>
        intro hq atm a bs bs' r hb hbp h
        have ih := ih (fun q hq' => hq q (List.mem_cons_of_mem _ hq'))
        cases hd : q.delta? with
        | none =>
          obtain ⟨v, rfl⟩ : ∃ v, q = .atm v := by
            cases q <;> simp [FxVolQuote.delta?] at hd
            exact ⟨_, rfl⟩
          rw [collect_atm] at h ⊢
          cases atm with
          | some w => simp at h
          | none =>
            simp only [Option.isSome_none, Bool.false_eq_true, if_false] at h ⊢
            exact ih hb hbp h
        | some d =>
          have hDd := hq q (by simp) d hd
          rw [collect_cons hd] at h ⊢
          obtain ⟨u, hv, h⟩ := bind_eq_ok.1 h
          rw [hv, ok_bind]
          exact ih (buckets_update hD hDd hb) (bucketPerm_update hD hDd hbp hb) h
    have same := same (rs := qs) (fun x hx => hq x (by simp [hx]))
    cases hdp : p.delta? with
    | none =>
      obtain ⟨v, rfl⟩ : ∃ v, p = .atm v := by
        cases p <;> simp [FxVolQuote.delta?] at hdp
        exact ⟨_, rfl⟩
      rw [collect_atm] at h
      cases atm with
      | some w => simp at h
      | none =>
        simp only [Option.isSome_none, Bool.false_eq_true, if_false] at h
        cases hdq : q.delta? with
        | none =>
          obtain ⟨w, rfl⟩ : ∃ w, q = .atm w := by
            cases q <;> simp [FxVolQuote.delta?] at hdq
            exact ⟨_, rfl⟩
          exact absurd rfl (hpq rfl)
        | some d =>
          have hDd := hq q (by simp) d hdq
          rw [collect_cons hdq] at h ⊢
          obtain ⟨u, hv, h⟩ := bind_eq_ok.1 h
          rw [hv, ok_bind, collect_atm]
          simp only [Option.isSome_none, Bool.false_eq_true, if_false]
          exact same (buckets_update hD hDd hb) (bucketPerm_update hD hDd hbp hb) h
    | some e =>
      have hDe := hq p (by simp) e hdp
      rw [collect_cons hdp] at h
      obtain ⟨u, hv, h⟩ := bind_eq_ok.1 h
      cases hdq : q.delta? with
      | none =>
        obtain ⟨v, rfl⟩ : ∃ v, q = .atm v := by
          cases q <;> simp [FxVolQuote.delta?] at hdq
          exact ⟨_, rfl⟩
        rw [collect_atm] at h ⊢
        cases atm with
        | some w => simp at h
        | none =>
          simp only [Option.isSome_none, Bool.false_eq_true, if_false] at h ⊢
          rw [collect_cons hdp, hv, ok_bind]
          exact same (buckets_update hD hDe hb) (bucketPerm_update hD hDe hbp hb) h
      | some d =>
        have hDd := hq q (by simp) d hdq
        rw [collect_cons hdq] at h ⊢
        obtain ⟨u', hv', h⟩ := bind_eq_ok.1 h
        rw [hv', ok_bind, collect_cons hdp, hv, ok_bind]
        refine same (buckets_update hD hDd (buckets_update hD hDe hb)) ?_ h
        refine (bucketComm_update hD hDd hDe (fun ed x => ?_) hb).trans
          (bucketPerm_update hD hDe (bucketPerm_update hD hDd hbp hb) (buckets_update hD hDd hb))
        exact (setField_comm (hpq (by rw [hdp, hdq, ed])) x).symm
  | trans h1 _ ih1 ih2 =>
    intro hq hs atm a bs bs' r hb hbp h
    obtain ⟨k1, r1, k2, k3⟩ := ih1 hq hs hb hbp h
    have hs' := h1.pairwise hs (fun {a b} h e => (h e.symm).symm)
    obtain ⟨-, r2, k5, k6⟩ := ih2 (fun q hq' => hq q (h1.mem_iff.2 hq')) hs' (hb.perm hbp) (.refl _) k2
    exact ⟨k1, r2, k5, k3.trans k6⟩

theorem resolveAll_perm {atm : ℝ} {bs bs' : List (ℝ × PartialDelta)} (hp : bs.Perm bs') :
    ∀ {ps : List DeltaPair}, resolveAll atm bs = .ok ps → ∃ ps', resolveAll atm bs' = .ok ps' ∧ ps.Perm ps' := by
  induction hp with
  | nil => exact fun {l} h => ⟨l, h, .refl _⟩
  | cons p _ ih =>
    intro l h
    rw [resolveAll] at h
    simp only [bind_eq_ok, ok.injEq] at h
    obtain ⟨s, hs, r, hr, rfl⟩ := h
    obtain ⟨r', hr', hrp⟩ := ih hr
    exact ⟨s :: r', by rw [resolveAll, hs, ok_bind, hr', ok_bind], hrp.cons s⟩
  | swap p q ps =>
    intro l h
    rw [resolveAll, resolveAll] at h
    simp only [bind_eq_ok, ok.injEq] at h
    obtain ⟨s, hs, _, ⟨t, ht, r, hr, rfl⟩, rfl⟩ := h
    exact ⟨t :: s :: r, by rw [resolveAll, ht, ok_bind, resolveAll, hs, ok_bind, hr, ok_bind, ok_bind],
      .swap _ _ _⟩
  | trans _ _ ih1 ih2 =>
    intro l h
    obtain ⟨l1, h1, p1⟩ := ih1 h
    obtain ⟨l2, h2, p2⟩ := ih2 h1
    exact ⟨l2, h2, p1.trans p2⟩

theorem resolvePartial_delta {d atm : ℝ} {p : PartialDelta} {x : DeltaPair}
    (h : resolvePartial d p atm = .ok x) : x.delta = d := by
  unfold resolvePartial at h
  rcases p with ⟨_ | c, _ | q, _ | rr, _ | bf⟩ <;> cases h <;> rfl

theorem resolveAll_deltas {atm : ℝ} : ∀ {bs : List (ℝ × PartialDelta)} {ps : List DeltaPair},
    resolveAll atm bs = .ok ps → ps.map DeltaPair.delta = bs.map Prod.fst
  | [], _, h => by cases h; rfl
  | b :: bs, ps, h => by
    rw [resolveAll] at h
    simp only [bind_eq_ok, ok.injEq] at h
    obtain ⟨s, hs, r, hr, rfl⟩ := h
    rw [List.map_cons, List.map_cons, resolvePartial_delta hs, resolveAll_deltas hr]

/-- Normalised quotes do not depend on the order of the quotes. -/
theorem normaliseQuotes_perm {qs qs' : List FxVolQuote} (hp : qs.Perm qs') (hsep : DeltasSeparated qs)
    (hs : SmileQuotesDiffer qs) {x : ℝ × List DeltaPair} (h : normaliseQuotes qs = .ok x) :
    normaliseQuotes qs' = .ok x := by
  have hD : Apart fun d => ∃ q ∈ qs, q.delta? = some d := by
    rintro x y ⟨q, hq, hx⟩ ⟨r, hr, hy⟩
    exact hsep q hq r hr x y hx hy
  unfold normaliseQuotes at h ⊢
  obtain ⟨⟨a, r⟩, hc, h⟩ := bind_eq_ok.1 h
  obtain ⟨hb, r', hc', hrp⟩ := collectQuotes_perm hD hp (fun q hq d hd => ⟨q, hq, hd⟩) hs
    (bs := []) (bs' := []) ⟨by simp, by simp⟩ (.refl _) hc
  rw [hc', ok_bind]
  cases a with
  | none => cases h
  | some atm =>
    dsimp only at h ⊢
    obtain ⟨ps, hps, h⟩ := bind_eq_ok.1 h
    obtain ⟨ps', hps', hpp⟩ := resolveAll_perm hrp hps
    have e : sortPairs ps' = sortPairs ps :=
      (mergeSort_key_perm DeltaPair.delta hpp (by rw [resolveAll_deltas hps]; exact hb.1)).symm
    rw [hps', ok_bind]
    rw [e]
    exact h

end Verif
