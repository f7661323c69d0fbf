import Verif.Lemmas.FxVol

/-!
# Normalisation of the FX volatility quotes
-/

namespace Verif

open Outcome Classical

/-- The assignment a quote makes to its bucket. -/
def setField : FxVolQuote → PartialDelta → PartialDelta
  | .atm _, p => p
  | .call _ v, p => { p with call := some v }
  | .put _ v, p => { p with put := some v }
  | .riskReversal _ v, p => { p with rr := some v }
  | .butterfly _ v, p => { p with bf := some v }

/-- The last quotes of each kind for `delta`. -/
noncomputable def lastQuotes (qs : List FxVolQuote) (delta : ℝ) : PartialDelta :=
  ⟨lastCall delta qs, lastPut delta qs, lastRr delta qs, lastBf delta qs⟩

theorem getLast?_snoc {α : Type} (l : List α) (o : Option α) :
    (l ++ o.toList).getLast? = o.or l.getLast? := by
  cases o <;> simp

theorem lastQuotes_snoc (done : List FxVolQuote) (q : FxVolQuote) (k : ℝ) :
    lastQuotes (done ++ [q]) k =
      if q.delta? = some k then setField q (lastQuotes done k) else lastQuotes done k := by
  unfold lastQuotes lastCall lastPut lastRr lastBf
  simp only [List.filterMap_append]
  rcases q with v | ⟨d, v⟩ | ⟨d, v⟩ | ⟨d, v⟩ | ⟨d, v⟩ <;>
    simp only [FxVolQuote.delta?, setField, List.filterMap_cons, List.filterMap_nil,
      List.append_nil, reduceCtorEq, if_false, Option.some.injEq]
  all_goals
    by_cases h : d = k
    · simp [h]
    · simp [h]

theorem bucketUpdate_mem {f : PartialDelta → PartialDelta} {d : ℝ}
    {bs : List (ℝ × PartialDelta)} (hsep : ∀ b ∈ bs, b.1 = d ∨ 1 / 10 ^ 9 ≤ |b.1 - d|)
    (hnd : (bs.map Prod.fst).Nodup) :
    ((bucketUpdate f d bs).map Prod.fst).Nodup ∧
    (∀ k, k ∈ (bucketUpdate f d bs).map Prod.fst ↔ k = d ∨ k ∈ bs.map Prod.fst) ∧
    (∀ k p, k ≠ d → ((k, p) ∈ bucketUpdate f d bs ↔ (k, p) ∈ bs)) ∧
    (∀ p, (d, p) ∈ bs → (d, f p) ∈ bucketUpdate f d bs) ∧
    (d ∉ bs.map Prod.fst → (d, f {}) ∈ bucketUpdate f d bs) := by
  induction bs with
  | nil =>
    simp only [bucketUpdate]
    refine ⟨by simp, by simp, ?_, by simp, by simp⟩
    intro k p hk
    simp [hk]
  | cons b bs ih =>
    obtain ⟨i1, i2, i3, i4, i5⟩ := ih (fun c hc => hsep c (List.mem_cons_of_mem _ hc))
      (List.nodup_cons.1 hnd).2
    have hnb : b.1 ∉ bs.map Prod.fst := (List.nodup_cons.1 hnd).1
    by_cases hb : b.1 = d
    · have e : bucketUpdate f d (b :: bs) = (b.1, f b.2) :: bs := by
        rw [bucketUpdate, if_pos (by rw [hb]; simp)]
      rw [e]
      refine ⟨hnd, ?_, ?_, ?_, ?_⟩
      · intro k
        simp only [List.map_cons, List.mem_cons, hb]
        tauto
      · intro k p hk
        have h1 : (k, p) ≠ (b.1, f b.2) := by rintro h; injection h with h; exact hk (h.trans hb)
        have h2 : (k, p) ≠ b := by rintro rfl; exact hk hb
        simp [h1, h2]
      · intro p hp
        rcases List.mem_cons.1 hp with h | h
        · rw [← h]; simp
        · exact absurd (List.mem_map_of_mem (f := Prod.fst) h) (hb ▸ hnb)
      · intro h
        simp [hb] at h
    · have hne : ¬ |b.1 - d| < 1 / 10 ^ 9 := by
        rcases hsep b (by simp) with h | h
        · exact absurd h hb
        · exact not_lt.2 h
      have e : bucketUpdate f d (b :: bs) = b :: bucketUpdate f d bs := by
        rw [bucketUpdate, if_neg hne]
      rw [e]
      refine ⟨?_, ?_, ?_, ?_, ?_⟩
      · rw [List.map_cons, List.nodup_cons]
        refine ⟨?_, i1⟩
        rw [i2]
        rintro (h | h)
        · exact hb h
        · exact hnb h
      · intro k
        rw [List.map_cons, List.mem_cons, i2, List.map_cons, List.mem_cons]
        tauto
      · intro k p hk
        rw [List.mem_cons, List.mem_cons, i3 k p hk]
      · intro p hp
        rcases List.mem_cons.1 hp with h | h
        · exact absurd (by rw [← h]) hb
        · exact List.mem_cons_of_mem _ (i4 p h)
      · intro h
        refine List.mem_cons_of_mem _ (i5 ?_)
        intro hc; exact h (by simp only [List.map_cons, List.mem_cons]; exact .inr hc)

/-- The buckets hold exactly the last quotes of each kind for every quoted delta. -/
def BucketsOk (done : List FxVolQuote) (bs : List (ℝ × PartialDelta)) : Prop :=
  (bs.map Prod.fst).Nodup ∧
  (∀ k, k ∈ bs.map Prod.fst ↔ ∃ q ∈ done, q.delta? = some k) ∧
  ∀ k p, (k, p) ∈ bs → p = lastQuotes done k

theorem lastQuotes_unquoted {done : List FxVolQuote} {k : ℝ}
    (h : ¬ ∃ q ∈ done, q.delta? = some k) : lastQuotes done k = {} := by
  unfold lastQuotes lastCall lastPut lastRr lastBf
  have e : ∀ f : FxVolQuote → Option ℝ, (∀ q ∈ done, f q = none) →
      (done.filterMap f).getLast? = none := by
    intro f hf
    rw [List.filterMap_eq_nil_iff.2 hf]; rfl
  congr 1 <;> refine e _ fun q hq => ?_
  all_goals
    rcases q with v | ⟨d, v⟩ | ⟨d, v⟩ | ⟨d, v⟩ | ⟨d, v⟩ <;> try rfl
    simp only
    rw [if_neg]
    rintro rfl
    exact h ⟨_, hq, rfl⟩

theorem bucketsOk_step {done : List FxVolQuote} {bs : List (ℝ × PartialDelta)} {q : FxVolQuote}
    {d : ℝ} (h : BucketsOk done bs) (hq : q.delta? = some d)
    (hsep : DeltasSeparated (done ++ [q])) :
    BucketsOk (done ++ [q]) (bucketUpdate (setField q) d bs) := by
  obtain ⟨h1, h2, h3⟩ := h
  obtain ⟨u1, u2, u3, u4, u5⟩ := bucketUpdate_mem (f := setField q) (d := d) (bs := bs) (by
    intro b hb
    obtain ⟨r, hr, e⟩ := (h2 b.1).1 (List.mem_map_of_mem hb)
    exact hsep r (by simp [hr]) q (by simp) _ _ e hq) h1
  refine ⟨u1, ?_, ?_⟩
  · intro k
    rw [u2, h2]
    constructor
    · rintro (rfl | ⟨r, hr, e⟩)
      · exact ⟨q, by simp, hq⟩
      · exact ⟨r, by simp [hr], e⟩
    · rintro ⟨r, hr, e⟩
      rcases List.mem_append.1 hr with hr | hr
      · exact .inr ⟨r, hr, e⟩
      · rw [List.mem_singleton.1 hr, hq] at e
        cases e; exact .inl rfl
  · intro k p hp
    rw [lastQuotes_snoc, hq]
    by_cases hk : d = k
    · subst hk
      rw [if_pos rfl]
      have uniq : ∀ p', (d, p') ∈ bucketUpdate (setField q) d bs → p = p' := by
        intro p' hp'
        have := List.inj_on_of_nodup_map u1 hp hp' rfl
        injection this
      by_cases hd : d ∈ bs.map Prod.fst
      · obtain ⟨⟨k, p0⟩, hb, e⟩ := List.mem_map.1 hd
        subst e
        rw [uniq _ (u4 p0 hb), h3 _ _ hb]
      · rw [uniq _ (u5 hd), lastQuotes_unquoted]
        intro hc; exact hd ((h2 d).2 hc)
    · rw [if_neg (by simpa using hk)]
      exact h3 k p ((u3 k p (Ne.symm hk)).1 hp)

theorem bucketsOk_atm {done : List FxVolQuote} {bs : List (ℝ × PartialDelta)} {v : ℝ}
    (h : BucketsOk done bs) : BucketsOk (done ++ [.atm v]) bs := by
  obtain ⟨h1, h2, h3⟩ := h
  refine ⟨h1, ?_, ?_⟩
  · intro k
    rw [h2]
    constructor
    · rintro ⟨r, hr, e⟩; exact ⟨r, by simp [hr], e⟩
    · rintro ⟨r, hr, e⟩
      rcases List.mem_append.1 hr with hr | hr
      · exact ⟨r, hr, e⟩
      · rw [List.mem_singleton.1 hr] at e; cases e
  · intro k p hp
    rw [lastQuotes_snoc, if_neg (by simp [FxVolQuote.delta?])]
    exact h3 k p hp

theorem validateDelta_ok {d : ℝ} : validateDelta d = .ok () ↔ 0 < d ∧ d < 1 / 2 := by
  unfold validateDelta
  by_cases h : 0 < d ∧ d < 1 / 2
  · rw [if_neg (not_not.2 h)]; exact ⟨fun _ => h, fun _ => rfl⟩
  · rw [if_pos h]; exact ⟨fun hc => (by cases hc), fun hc => absurd hc h⟩

/-- One step of the loop for a quote with a delta. -/
theorem collect_cons {q : FxVolQuote} {d : ℝ} (hq : q.delta? = some d) (qs : List FxVolQuote)
    (atm : Option ℝ) (bs : List (ℝ × PartialDelta)) :
    collectQuotes (q :: qs) atm bs =
      (validateDelta d >>= fun _ => collectQuotes qs atm (bucketUpdate (setField q) d bs)) := by
  rcases q with v | ⟨d', v⟩ | ⟨d', v⟩ | ⟨d', v⟩ | ⟨d', v⟩ <;>
    simp only [FxVolQuote.delta?, Option.some.injEq, reduceCtorEq] at hq <;> subst hq <;> rfl

theorem collect_spec {qs : List FxVolQuote} :
    ∀ {done : List FxVolQuote} {atm a : Option ℝ} {bs bs' : List (ℝ × PartialDelta)},
      collectQuotes qs atm bs = .ok (a, bs') → BucketsOk done bs → DeltasSeparated (done ++ qs) →
      BucketsOk (done ++ qs) bs' ∧ (∀ q ∈ qs, ∀ d, q.delta? = some d → 0 < d ∧ d < 1 / 2) ∧
      (∀ w, .atm w ∈ qs → a = some w) ∧ (∀ w, a = some w → atm = some w ∨ .atm w ∈ qs) ∧
      (∀ w, atm = some w → a = some w) := by
  induction qs with
  | nil =>
    intro done atm a bs bs' h hb _
    rw [collectQuotes] at h
    cases h
    rw [List.append_nil]
    exact ⟨hb, by simp, by simp, fun w hw => .inl hw, fun w hw => hw⟩
  | cons q qs ih =>
    intro done atm a bs bs' h hb hsep
    have eapp : done ++ q :: qs = (done ++ [q]) ++ qs := by simp
    have hsep1 : DeltasSeparated (done ++ [q]) := by
      intro x hx y hy
      exact hsep x (by rw [eapp]; exact List.mem_append_left _ hx) y
        (by rw [eapp]; exact List.mem_append_left _ hy)
    cases hd : q.delta? with
    | none =>
      obtain ⟨v, rfl⟩ : ∃ v, q = .atm v := by
        cases q <;> simp [FxVolQuote.delta?] at hd
        exact ⟨_, rfl⟩
      rw [collectQuotes] at h
      cases atm with
      | some w => simp at h
      | none =>
        simp only [Option.isSome_none, Bool.false_eq_true, if_false] at h
        obtain ⟨r1, r2, r3, r4, r5⟩ := ih h (bucketsOk_atm hb) (by rw [← eapp]; exact hsep)
        rw [eapp]
        refine ⟨r1, ?_, ?_, ?_, by simp⟩
        · intro x hx d' hd'
          rcases List.mem_cons.1 hx with rfl | hx
          · rw [hd] at hd'; cases hd'
          · exact r2 x hx d' hd'
        · intro w hw
          rcases List.mem_cons.1 hw with hw | hw
          · cases hw; exact r5 _ rfl
          · exact r3 w hw
        · intro w hw
          rcases r4 w hw with h' | h'
          · cases h'; exact .inr (by simp)
          · exact .inr (List.mem_cons_of_mem _ h')
    | some d =>
      rw [collect_cons hd, bind_eq_ok] at h
      obtain ⟨_, hv, h⟩ := h
      obtain ⟨r1, r2, r3, r4, r5⟩ := ih h (bucketsOk_step hb hd hsep1) (by rw [← eapp]; exact hsep)
      rw [eapp]
      refine ⟨r1, ?_, ?_, ?_, r5⟩
      · intro x hx d' hd'
        rcases List.mem_cons.1 hx with rfl | hx
        · rw [hd] at hd'; cases hd'; exact validateDelta_ok.1 hv
        · exact r2 x hx d' hd'
      · intro w hw
        rcases List.mem_cons.1 hw with hw | hw
        · rw [← hw] at hd; cases hd
        · exact r3 w hw
      · intro w hw
        rcases r4 w hw with h' | h'
        · exact .inl h'
        · exact .inr (List.mem_cons_of_mem _ h')

theorem resolveAll_mem {atm : ℝ} {bs : List (ℝ × PartialDelta)} {ps : List DeltaPair}
    (h : resolveAll atm bs = .ok ps) {b : ℝ × PartialDelta} (hb : b ∈ bs) :
    ∃ p ∈ ps, resolvePartial b.1 b.2 atm = .ok p := by
  induction bs generalizing ps with
  | nil => simp at hb
  | cons c bs ih =>
    rw [resolveAll, bind_eq_ok] at h
    obtain ⟨p, hp, h⟩ := h
    rw [bind_eq_ok] at h
    obtain ⟨r, hr, h⟩ := h
    cases h
    rcases List.mem_cons.1 hb with rfl | hb
    · exact ⟨p, by simp, hp⟩
    · obtain ⟨p', h1, h2⟩ := ih hr hb
      exact ⟨p', List.mem_cons_of_mem _ h1, h2⟩

theorem lastOf_quoted {f : FxVolQuote → Option ℝ} {qs : List FxVolQuote} {v : ℝ}
    (h : (qs.filterMap f).getLast? = some v) : ∃ q ∈ qs, f q = some v := by
  have := List.mem_of_getLast? h
  obtain ⟨q, hq, e⟩ := List.mem_filterMap.1 this
  exact ⟨q, hq, e⟩

/-- What `normalise_quotes` returns. -/
theorem normalise_spec {qs : List FxVolQuote} {atm : ℝ} {pairs : List DeltaPair}
    (h : normaliseQuotes qs = .ok (atm, pairs)) (hsep : DeltasSeparated qs) :
    (∀ w, .atm w ∈ qs → w = atm) ∧ .atm atm ∈ qs ∧
    ∀ d, (∃ q ∈ qs, q.delta? = some d) →
      ∃ p ∈ pairs, resolvePartial d (lastQuotes qs d) atm = .ok p := by
  unfold normaliseQuotes at h
  rw [bind_eq_ok] at h
  obtain ⟨⟨a, bs⟩, hc, h⟩ := h
  obtain ⟨r1, r2, r3, r4, -⟩ := collect_spec (done := []) hc
    ⟨by simp, by simp, by simp⟩ (by simpa using hsep)
  rw [List.nil_append] at r1
  cases a with
  | none => cases h
  | some v =>
    dsimp only at h
    rw [bind_eq_ok] at h
    obtain ⟨ps, hps, h⟩ := h
    have e : atm = v ∧ pairs = sortPairs ps := by
      split at h
      · cases h
      · rename_i heq
        injection h with h
        injection h with h1 h2
        exact ⟨h1.symm, h2.symm⟩
    obtain ⟨rfl, rfl⟩ := e
    refine ⟨?_, ?_, ?_⟩
    · intro w hw
      have := r3 w hw
      injection this with this
      exact this.symm
    · rcases r4 atm rfl with h' | h'
      · cases h'
      · exact h'
    · intro d hd
      obtain ⟨⟨k, p⟩, hb, e⟩ := List.mem_map.1 ((r1.2.1 d).2 hd)
      subst e
      obtain ⟨pr, hpr, e⟩ := resolveAll_mem hps hb
      refine ⟨pr, (sortPairs_perm ps).mem_iff.2 hpr, ?_⟩
      rw [← r1.2.2 _ _ hb]; exact e

/-! ### The strike of a delta is unique -/

theorem strike_unique {sigma F T K d : ℝ} (hs : 0 < sigma) (hF : 0 < F) (hT : 0 < T) (hK : 0 < K)
    (h : normCdf ((Real.log (F / K) + sigma ^ 2 * T / 2) / (sigma * √T)) = normCdf d) :
    K = F * Real.exp (1 / 2 * sigma * sigma * √T * √T - d * sigma * √T) := by
  have hq := Real.sqrt_pos.2 hT
  have h1 := strictMono_normCdf.injective h
  rw [div_eq_iff (by positivity), Real.log_div hF.ne' hK.ne'] at h1
  have hTT : √T * √T = T := Real.mul_self_sqrt hT.le
  have : Real.log K =
      Real.log F + (1 / 2 * sigma * sigma * √T * √T - d * sigma * √T) := by
    rw [mul_assoc _ (√T) (√T), hTT]; linear_combination -h1
  rw [← Real.exp_log hK, this, Real.exp_add, Real.exp_log hF]

theorem callStrike_unique {delta sigma F T K d : ℝ} (hs : 0 < sigma) (hF : 0 < F) (hT : 0 < T)
    (hd : normCdf d = delta) (h : IsCallStrike delta sigma F T K) :
    K = F * Real.exp (1 / 2 * sigma * sigma * √T * √T - d * sigma * √T) :=
  strike_unique hs hF hT h.1 (h.2.trans hd.symm)

theorem putStrike_unique {delta sigma F T K d : ℝ} (hs : 0 < sigma) (hF : 0 < F) (hT : 0 < T)
    (hd : normCdf d = 1 - delta) (h : IsPutStrike delta sigma F T K) :
    K = F * Real.exp (1 / 2 * sigma * sigma * √T * √T - d * sigma * √T) := by
  refine strike_unique hs hF hT h.1 ?_
  have := h.2
  rw [normCdf_neg] at this
  rw [hd]; linarith

theorem atmStrike_unique {sigma F T K : ℝ} (hs : 0 < sigma) (hF : 0 < F) (hT : 0 < T)
    (h : IsAtmStrike sigma F T K) : K = atmDnsStrike sigma F T := by
  have h1 := strictMono_normCdf.injective h.2
  have h0 : (Real.log (F / K) + sigma ^ 2 * T / 2) / (sigma * √T) = 0 := by linarith
  have := strike_unique (d := 0) hs hF hT h.1 (by rw [h0])
  rw [this, atmDnsStrike, mul_assoc _ (√T) (√T), Real.mul_self_sqrt hT.le]
  ring_nf

/-! ### Looking up an expiry -/

/-- Linear search satisfies the contract of `binary_search_by_key`. -/
def KeySearch.std : KeySearch where
  search l t :=
    let i := l.findIdx fun q => decide (t ≤ q)
    if l[i]? = some t then .found i else .missing i
  found := by
    intro l t i _ h
    dsimp only at h
    split at h
    · rename_i h'; injection h with h; rwa [← h]
    · cases h
  missing := by
    intro l t i hs h
    dsimp only at h
    split at h
    · cases h
    rename_i hne
    injection h with h
    subst h
    refine ⟨List.findIdx_le_length, ?_, ?_⟩
    · intro q hq
      obtain ⟨j, hj, rfl⟩ := List.mem_take_iff_getElem.1 hq
      have hj' : j < l.findIdx (fun q => decide (t ≤ q)) := by omega
      have := List.not_of_lt_findIdx hj'
      simpa using this
    · intro q hq
      obtain ⟨j, hj, rfl⟩ := List.mem_drop_iff_getElem.1 hq
      set n := l.findIdx (fun q => decide (t ≤ q)) with hn
      have hnl : n < l.length := by omega
      have h1 : t ≤ l[n] := by
        have := List.findIdx_getElem (xs := l) (p := fun q => decide (t ≤ q)) (w := hnl)
        simpa using this
      have h2 : t ≠ l[n] := by
        intro he; apply hne; rw [List.getElem?_eq_getElem hnl, ← he]
      have h3 : l[n] ≤ l[n + j] := by
        rcases Nat.eq_zero_or_pos j with rfl | hj0
        · simp
        · exact List.pairwise_iff_getElem.1 hs n (n + j) hnl (by omega) (by omega)
      exact lt_of_lt_of_le (lt_of_le_of_ne h1 h2) h3

/-- The four ways `FXVolSurface::volatility` can go. -/
theorem surface_cases (ks : KeySearch) {s : FxVolSurface} {e : Int} {K : ℝ}
    (hs : (s.smiles.map Smile.expiry).Pairwise (· ≤ ·)) (hne : s.smiles ≠ []) (hK : 0 < K)
    (he : 0 < yf365 s.valuation e) :
    (∃ sm ∈ s.smiles, sm.expiry = e ∧ s.volatility ks e K = .ok (sm.volatility K)) ∨
    (∃ sm post, s.smiles = sm :: post ∧ (∀ q ∈ s.smiles, e < q.expiry) ∧
      s.volatility ks e K = .ok (sm.volatility K)) ∨
    (∃ pre sm, s.smiles = pre ++ [sm] ∧ (∀ q ∈ s.smiles, q.expiry < e) ∧
      s.volatility ks e K = .ok (sm.volatility K)) ∨
    (∃ pre lo hi post, s.smiles = pre ++ lo :: hi :: post ∧ lo.expiry < e ∧ e < hi.expiry ∧
      s.volatility ks e K = .ok √((lo.totalVar K + (yf365 s.valuation e - lo.yearFraction) /
        (hi.yearFraction - lo.yearFraction) * (hi.totalVar K - lo.totalVar K)) /
          yf365 s.valuation e)) := by
  have hv : s.volatility ks e K = s.volatility ks e K := rfl
  conv_rhs at hv => unfold FxVolSurface.volatility
  rw [if_neg (not_le.2 hK)] at hv
  dsimp only at hv
  rw [if_neg (not_le.2 he)] at hv
  cases hf : ks.search (s.smiles.map Smile.expiry) e with
  | found i =>
    left
    have h1 := ks.found _ _ _ hs hf
    rw [List.getElem?_map, Option.map_eq_some_iff] at h1
    obtain ⟨sm, h1, h2⟩ := h1
    refine ⟨sm, List.mem_of_getElem? h1, h2, ?_⟩
    rw [hv, hf]
    simp only [h1]
  | missing i =>
    right
    obtain ⟨hi, hlt, hgt⟩ := ks.missing _ _ _ hs hf
    rw [List.length_map] at hi
    rw [hf] at hv
    dsimp only at hv
    have hlt' : ∀ q ∈ s.smiles.take i, q.expiry < e := by
      intro q hq
      refine hlt _ ?_
      rw [← List.map_take]
      exact List.mem_map_of_mem hq
    have hgt' : ∀ q ∈ s.smiles.drop i, e < q.expiry := by
      intro q hq
      refine hgt _ ?_
      rw [← List.map_drop]
      exact List.mem_map_of_mem hq
    by_cases h0 : i = 0
    · left
      subst h0
      obtain ⟨sm, post, hsm⟩ := List.exists_cons_of_ne_nil hne
      refine ⟨sm, post, hsm, fun q hq => hgt' q (by simpa using hq), ?_⟩
      rw [hv, if_pos rfl, hsm]
      rfl
    right
    rw [if_neg h0] at hv
    by_cases hl : i = s.smiles.length
    · left
      subst hl
      rcases List.eq_nil_or_concat s.smiles with h | ⟨pre, sm, h⟩
      · exact absurd h hne
      rw [List.concat_eq_append] at h
      refine ⟨pre, sm, h, fun q hq => hlt' q (by simpa using hq), ?_⟩
      rw [hv, if_pos rfl, h]
      simp
    right
    rw [if_neg hl] at hv
    have hi1 : i < s.smiles.length := by omega
    have hi0 : i - 1 < s.smiles.length := by omega
    have e1 := List.getElem?_eq_getElem hi1
    have e0 := List.getElem?_eq_getElem hi0
    rw [e1, e0] at hv
    refine ⟨s.smiles.take (i - 1), s.smiles[i - 1], s.smiles[i], s.smiles.drop (i + 1), ?_, ?_, ?_,
      ?_⟩
    · conv_lhs => rw [← List.take_append_drop (i - 1) s.smiles]
      rw [List.drop_eq_getElem_cons hi0]
      have : i - 1 + 1 = i := by omega
      rw [this, List.drop_eq_getElem_cons hi1]
    · refine hlt' _ ?_
      rw [List.mem_take_iff_getElem]
      exact ⟨i - 1, by omega, rfl⟩
    · refine hgt' _ ?_
      rw [List.mem_drop_iff_getElem]
      exact ⟨0, by omega, by simp⟩
    · rw [hv]
      simp only [Smile.totalVar, sq]

/-! ### The constructed surface -/

theorem fromPillar_dates {p : VolPillar} {T : ℝ} {s : Smile} (h : Smile.fromPillar p T = .ok s) :
    0 < T ∧ s.expiry = p.expiry ∧ s.yearFraction = T := by
  unfold Smile.fromPillar at h
  by_cases hy : T ≤ 0
  · rw [if_pos hy] at h; cases h
  rw [if_neg hy] at h
  by_cases hf : p.forward ≤ 0
  · rw [if_pos hf] at h; cases h
  rw [if_neg hf, bind_eq_ok] at h
  obtain ⟨⟨a, ps⟩, hn, h⟩ := h
  dsimp only at h
  rw [bind_eq_ok] at h
  obtain ⟨puts, hputs, h⟩ := h
  rw [bind_eq_ok] at h
  obtain ⟨calls, hcalls, h⟩ := h
  split at h
  · cases h
  split at h
  · injection h with h
    refine ⟨not_le.1 hy, ?_, ?_⟩ <;> rw [← h]
  · cases h

theorem buildSmiles_spec {val : Int} {ps : List VolPillar} {l : List Smile}
    (h : buildSmiles val ps = .ok l) :
    l.map Smile.expiry = ps.map VolPillar.expiry ∧
    ∀ sm ∈ l, 0 < sm.yearFraction ∧ sm.yearFraction = yf365 val sm.expiry := by
  induction ps generalizing l with
  | nil => rw [buildSmiles] at h; cases h; simp
  | cons p ps ih =>
    rw [buildSmiles, bind_eq_ok] at h
    obtain ⟨sm, h1, h⟩ := h
    rw [bind_eq_ok] at h
    obtain ⟨r, h2, h⟩ := h
    cases h
    obtain ⟨i1, i2⟩ := ih h2
    obtain ⟨d1, d2, d3⟩ := fromPillar_dates h1
    refine ⟨by simp [i1, d2], ?_⟩
    intro q hq
    rcases List.mem_cons.1 hq with rfl | hq
    · rw [d3, d2]; exact ⟨d1, rfl⟩
    · exact i2 q hq

theorem surface_new {val : Int} {ps : List VolPillar} {s : FxVolSurface}
    (h : FxVolSurface.new val ps = .ok s) :
    s.valuation = val ∧ s.smiles ≠ [] ∧ (s.smiles.map Smile.expiry).Perm (ps.map VolPillar.expiry) ∧
    (s.smiles.map Smile.expiry).Pairwise (· ≤ ·) ∧
    (∀ sm ∈ s.smiles, 0 < sm.yearFraction ∧ sm.yearFraction = yf365 val sm.expiry) := by
  unfold FxVolSurface.new at h
  rcases ps with _ | ⟨p, ps⟩
  · cases h
  dsimp only at h
  rw [bind_eq_ok] at h
  obtain ⟨l, hl, h⟩ := h
  cases h
  obtain ⟨b1, b2⟩ := buildSmiles_spec hl
  have hp := List.mergeSort_perm l fun a b => decide (a.expiry ≤ b.expiry)
  refine ⟨rfl, ?_, ?_, ?_, ?_⟩
  · dsimp only
    intro he
    rw [he] at hp
    have := hp.symm.eq_nil
    rw [this] at b1
    simp at b1
  · rw [← b1]; exact hp.map _
  · rw [List.pairwise_map]
    refine (List.pairwise_mergeSort (le := fun a b : Smile => decide (a.expiry ≤ b.expiry)) ?_ ?_ l).imp ?_
    · intro a b c; simp only [decide_eq_true_eq]; exact le_trans
    · intro a b; simp only [Bool.or_eq_true, decide_eq_true_eq]; exact le_total _ _
    · intro a b hab; simpa using hab
  · intro sm hsm
    exact b2 sm (hp.mem_iff.1 hsm)

end Verif
