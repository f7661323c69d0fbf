import Verif.Spec.MarketContext
import Verif.Lemmas.FxVol
import Verif.Lemmas.FxVolQuotes

/-!
# Lemmas on flat smiles
-/

namespace Verif

open Classical Outcome

theorem fitQuadratic_flat {x0 x1 x2 v : ℝ} (h01 : x0 ≠ x1) (h02 : x0 ≠ x2) (h12 : x1 ≠ x2) :
    fitQuadratic (x0, v) (x1, v) (x2, v) = (0, 0, v) := by
  have a1 := sub_ne_zero.2 h01
  have a2 := sub_ne_zero.2 h02
  have a3 := sub_ne_zero.2 h12
  simp only [fitQuadratic, Prod.mk.injEq]
  refine ⟨?_, ?_, ?_⟩ <;> field_simp <;> ring

theorem interpWindows_zero {l : List (ℝ × ℝ)} (h : ∀ k ∈ l, k.2 = 0) (x : ℝ) :
    interpWindows x l = 0 := by
  induction l with
  | nil => rfl
  | cons a l ih =>
    rcases l with _ | ⟨b, l⟩
    · rfl
    · rw [interpWindows]
      by_cases hc : x ≥ a.1 ∧ x ≤ b.1
      · rw [if_pos hc, h a (by simp), h b (by simp)]; simp
      · rw [if_neg hc]; exact ih fun k hk => h k (by simp [hk])

theorem piecewiseLinear_zero {l : List (ℝ × ℝ)} (h : ∀ k ∈ l, k.2 = 0) (x : ℝ) :
    piecewiseLinear l x = 0 := by
  rcases l with _ | ⟨a, _ | ⟨b, l⟩⟩
  · rfl
  · exact h a (by simp)
  · rw [piecewiseLinear]
    by_cases h1 : x ≤ a.1
    · rw [if_pos h1]; exact h a (by simp)
    · rw [if_neg h1]
      by_cases h2 : x ≥ ((b :: l).getLast (List.cons_ne_nil _ _)).1
      · rw [if_pos h2]; exact h _ (List.mem_cons_of_mem _ (List.getLast_mem _))
      · rw [if_neg h2]; exact interpWindows_zero h x

/-- The entries of a bucket belong to a smile without skew. -/
structure FlatBucket (v : ℝ) (p : PartialDelta) : Prop where
  call : ∀ w, p.call = some w → w = v
  put : ∀ w, p.put = some w → w = v
  rr : ∀ w, p.rr = some w → w = 0
  bf : ∀ w, p.bf = some w → w = 0

theorem bucketUpdate_flat {v d : ℝ} {f : PartialDelta → PartialDelta}
    (hf : ∀ p, FlatBucket v p → FlatBucket v (f p)) {bs : List (ℝ × PartialDelta)}
    (h : ∀ b ∈ bs, FlatBucket v b.2) : ∀ b ∈ bucketUpdate f d bs, FlatBucket v b.2 := by
  induction bs with
  | nil =>
    intro b hb
    rw [bucketUpdate, List.mem_singleton] at hb
    subst hb
    exact hf _ ⟨by simp, by simp, by simp, by simp⟩
  | cons a bs ih =>
    intro b hb
    rw [bucketUpdate] at hb
    by_cases hc : |a.1 - d| < 1 / 10 ^ 9
    · rw [if_pos hc] at hb
      rcases List.mem_cons.1 hb with rfl | hb
      · exact hf _ (h a (by simp))
      · exact h b (by simp [hb])
    · rw [if_neg hc] at hb
      rcases List.mem_cons.1 hb with rfl | hb
      · exact h _ (by simp)
      · exact ih (fun c hc => h c (by simp [hc])) b hb

theorem collectQuotes_flat {v : ℝ} {qs : List FxVolQuote} : ∀ {atm : Option ℝ}
    {bs : List (ℝ × PartialDelta)} {r : Option ℝ × List (ℝ × PartialDelta)},
    FlatQuotes v qs → (∀ w, atm = some w → w = v) → (∀ b ∈ bs, FlatBucket v b.2) →
    collectQuotes qs atm bs = .ok r →
    (∀ w, r.1 = some w → w = v) ∧ ∀ b ∈ r.2, FlatBucket v b.2 := by
  induction qs with
  | nil =>
    intro atm bs r _ ha hb h
    rw [collectQuotes] at h
    obtain rfl := ok.inj h
    exact ⟨ha, hb⟩
  | cons q qs ih =>
    intro atm bs r hq ha hb h
    have hq' : FlatQuotes v qs := fun x hx => hq x (by simp [hx])
    have h0 := hq q (by simp)
    cases q with
    | atm w =>
      rw [collectQuotes] at h
      by_cases hs : atm.isSome = true
      · rw [if_pos hs] at h; cases h
      · rw [if_neg hs] at h
        exact ih hq' (fun w' e => by rw [← Option.some.inj e]; exact h0) hb h
    | call d w =>
      rw [collectQuotes, bind_eq_ok] at h
      obtain ⟨-, -, h⟩ := h
      refine ih hq' ha (bucketUpdate_flat ?_ hb) h
      intro p hp
      exact ⟨fun w' e => by rw [← Option.some.inj e]; exact h0, hp.put, hp.rr, hp.bf⟩
    | put d w =>
      rw [collectQuotes, bind_eq_ok] at h
      obtain ⟨-, -, h⟩ := h
      refine ih hq' ha (bucketUpdate_flat ?_ hb) h
      intro p hp
      exact ⟨hp.call, fun w' e => by rw [← Option.some.inj e]; exact h0, hp.rr, hp.bf⟩
    | riskReversal d w =>
      rw [collectQuotes, bind_eq_ok] at h
      obtain ⟨-, -, h⟩ := h
      refine ih hq' ha (bucketUpdate_flat ?_ hb) h
      intro p hp
      exact ⟨hp.call, hp.put, fun w' e => by rw [← Option.some.inj e]; exact h0, hp.bf⟩
    | butterfly d w =>
      rw [collectQuotes, bind_eq_ok] at h
      obtain ⟨-, -, h⟩ := h
      refine ih hq' ha (bucketUpdate_flat ?_ hb) h
      intro p hp
      exact ⟨hp.call, hp.put, hp.rr, fun w' e => by rw [← Option.some.inj e]; exact h0⟩

theorem resolveAll_flat {v : ℝ} {bs : List (ℝ × PartialDelta)} : ∀ {ps : List DeltaPair},
    (∀ b ∈ bs, FlatBucket v b.2) → resolveAll v bs = .ok ps →
    ∀ d ∈ ps, d.callVol = v ∧ d.putVol = v := by
  induction bs with
  | nil =>
    intro ps _ h
    rw [resolveAll] at h
    obtain rfl := ok.inj h
    simp
  | cons b bs ih =>
    intro ps hb h
    rw [resolveAll, bind_eq_ok] at h
    obtain ⟨p, hp, h⟩ := h
    rw [bind_eq_ok] at h
    obtain ⟨rest, hr, h⟩ := h
    obtain rfl := ok.inj h
    have hB := hb b (by simp)
    intro d hd
    rcases List.mem_cons.1 hd with rfl | hd
    · have key : ∀ (rr bf : ℝ), b.2.rr = some rr → b.2.bf = some bf →
          (Outcome.ok (⟨b.1, v + bf + 1 / 2 * rr, v + bf - 1 / 2 * rr⟩ : DeltaPair)) = .ok d →
          d.callVol = v ∧ d.putVol = v := by
        intro rr bf e1 e2 e
        obtain rfl := ok.inj e
        simp [hB.rr _ e1, hB.bf _ e2]
      unfold resolvePartial at hp
      split at hp
      · rename_i c q e1 e2
        obtain rfl := ok.inj hp
        exact ⟨hB.call _ e1, hB.put _ e2⟩
      · split at hp
        · rename_i e1 e2
          exact key _ _ e1 e2 hp
        · cases hp
    · exact ih (fun c hc => hb c (by simp [hc])) hr d hd

theorem normalise_flat {v atm : ℝ} {qs : List FxVolQuote} {pairs : List DeltaPair}
    (hq : FlatQuotes v qs) (h : normaliseQuotes qs = .ok (atm, pairs)) :
    atm = v ∧ ∀ d ∈ pairs, d.callVol = v ∧ d.putVol = v := by
  unfold normaliseQuotes at h
  rw [bind_eq_ok] at h
  obtain ⟨r, hr, h⟩ := h
  obtain ⟨r1, r2⟩ := collectQuotes_flat hq (by simp) (by simp) hr
  split at h
  · cases h
  · rename_i w hw
    obtain rfl := r1 _ hw
    rw [bind_eq_ok] at h
    obtain ⟨ps, hps, h⟩ := h
    dsimp only at h
    split at h
    · cases h
    · rename_i heq
      have h := ok.inj h
      rw [Prod.mk.injEq] at h
      obtain ⟨rfl, rfl⟩ := h
      refine ⟨rfl, fun d hd => resolveAll_flat r2 hps d ((sortPairs_perm ps).mem_iff.1 hd)⟩

theorem putStrikes_vol {f t v : ℝ} {ps : List DeltaPair} : ∀ {l : List (ℝ × ℝ)},
    (∀ d ∈ ps, d.putVol = v) → putStrikes f t ps = .ok l → ∀ q ∈ l, q.2 = v := by
  induction ps with
  | nil => intro l _ h; rw [putStrikes] at h; obtain rfl := ok.inj h; simp
  | cons p ps ih =>
    intro l hv h
    rw [putStrikes, bind_eq_ok] at h
    obtain ⟨k, -, h⟩ := h
    rw [bind_eq_ok] at h
    obtain ⟨r, hr, h⟩ := h
    obtain rfl := ok.inj h
    intro q hq
    rcases List.mem_cons.1 hq with rfl | hq
    · exact hv p (by simp)
    · exact ih (fun d hd => hv d (by simp [hd])) hr q hq

theorem callStrikes_vol {f t v : ℝ} {ps : List DeltaPair} : ∀ {l : List (ℝ × ℝ)},
    (∀ d ∈ ps, d.callVol = v) → callStrikes f t ps = .ok l → ∀ q ∈ l, q.2 = v := by
  induction ps with
  | nil => intro l _ h; rw [callStrikes] at h; obtain rfl := ok.inj h; simp
  | cons p ps ih =>
    intro l hv h
    rw [callStrikes, bind_eq_ok] at h
    obtain ⟨k, -, h⟩ := h
    rw [bind_eq_ok] at h
    obtain ⟨r, hr, h⟩ := h
    obtain rfl := ok.inj h
    intro q hq
    rcases List.mem_cons.1 hq with rfl | hq
    · exact hv p (by simp)
    · exact ih (fun d hd => hv d (by simp [hd])) hr q hq

/-- A smile built from flat quotes is flat. -/
theorem smile_flat {p : VolPillar} {yf v : ℝ} {s : Smile} (h : Smile.fromPillar p yf = .ok s)
    (hq : FlatQuotes v p.quotes) (h0 : v ≠ 0) (K : ℝ) : s.volatility K = v := by
  unfold Smile.fromPillar at h
  by_cases hy : yf ≤ 0
  · rw [if_pos hy] at h; cases h
  rw [if_neg hy] at h
  by_cases hf : p.forward ≤ 0
  · rw [if_pos hf] at h; cases h
  rw [if_neg hf, bind_eq_ok] at h
  obtain ⟨⟨atm, pairs⟩, hn, h⟩ := h
  obtain ⟨rfl, hpv⟩ := normalise_flat hq hn
  dsimp only at h
  rw [bind_eq_ok] at h
  obtain ⟨puts, hputs, h⟩ := h
  rw [bind_eq_ok] at h
  obtain ⟨calls, hcalls, h⟩ := h
  have hf' := not_le.1 hf
  have hy' := not_le.1 hy
  obtain ⟨pl, ppos, -⟩ := putStrikes_spec hf' hputs
  obtain ⟨cl, cpos, -⟩ := callStrikes_spec hf' hcalls
  have hsp : ∀ d ∈ sortPairs pairs, d.callVol = atm ∧ d.putVol = atm := fun d hd =>
    hpv d ((sortPairs_perm pairs).mem_iff.1 hd)
  have pv := putStrikes_vol (fun d hd => (hsp d hd).2) hputs
  have cv := callStrikes_vol (fun d hd => (hsp d (List.mem_reverse.1 hd)).1) hcalls
  set sv := puts ++ (atmDnsStrike atm p.forward yf, atm) :: calls with hsv
  have hvol : ∀ q ∈ sv, q.2 = atm := by
    intro q hq
    rcases List.mem_append.1 hq with hq | hq
    · exact pv q hq
    · rcases List.mem_cons.1 hq with rfl | hq
      · rfl
      · exact cv q hq
  have hpos : ∀ q ∈ sv, 0 < q.1 := by
    intro q hq
    rcases List.mem_append.1 hq with hq | hq
    · exact ppos q hq
    · rcases List.mem_cons.1 hq with rfl | hq
      · show 0 < p.forward * Real.exp _
        positivity
      · exact cpos q hq
  by_cases hinc : strikesIncrease sv = false
  · rw [if_pos hinc] at h; cases h
  rw [if_neg hinc] at h
  have hpw := strikesIncrease_pairwise (Bool.not_eq_false _ ▸ hinc)
  have hlt : ∀ (i j : ℕ) (a b : ℝ × ℝ), i < j → sv[i]? = some a → sv[j]? = some b → a.1 < b.1 := by
    intro i j a b hij ha hb
    obtain ⟨hi, rfl⟩ := List.getElem?_eq_some_iff.1 ha
    obtain ⟨hj, rfl⟩ := List.getElem?_eq_some_iff.1 hb
    exact List.pairwise_iff_getElem.1 hpw i j hi hj hij
  have hmem : ∀ (i : ℕ) (a : ℝ × ℝ), sv[i]? = some a → a ∈ sv := fun i a ha => List.mem_of_getElem? ha
  have hxinj : ∀ a ∈ sv, ∀ b ∈ sv, a.1 < b.1 →
      normCdf (Real.log (p.forward / a.1) / (3 / 2 * atm * √yf)) ≠
      normCdf (Real.log (p.forward / b.1) / (3 / 2 * atm * √yf)) := by
    intro a ha b hb hlt he
    apply hlt.ne
    have hc : 3 / 2 * atm * √yf ≠ 0 :=
      mul_ne_zero (mul_ne_zero (by norm_num) h0) (Real.sqrt_pos.2 hy').ne'
    have := strictMono_normCdf.injective he
    rw [div_left_inj' hc] at this
    have pa := hpos a ha
    have pb := hpos b hb
    have := Real.log_injOn_pos (by simp only [Set.mem_Ioi]; positivity)
      (by simp only [Set.mem_Ioi]; positivity) this
    rw [div_eq_div_iff pa.ne' pb.ne'] at this
    exact (mul_left_cancel₀ hf'.ne' this).symm
  split at h
  · rename_i s0 s1 s2 e0 e1 e2
    have hlen : sv.length = 2 * (sortPairs pairs).length + 1 := by
      rw [hsv]; simp [pl, cl]; omega
    have hnp : 0 < (sortPairs pairs).length := by
      rcases Nat.eq_zero_or_pos (sortPairs pairs).length with he | he
      · exfalso
        have hne : pairs ≠ [] := by
          unfold normaliseQuotes at hn
          rw [bind_eq_ok] at hn
          obtain ⟨r, -, hn⟩ := hn
          split at hn
          · cases hn
          · rw [bind_eq_ok] at hn
            obtain ⟨ps, -, hn⟩ := hn
            dsimp only at hn
            split at hn
            · cases hn
            · rename_i heq
              have hn := ok.inj hn
              rw [Prod.mk.injEq] at hn
              rw [← hn.2, heq]; simp
        rw [(sortPairs_perm pairs).length_eq] at he
        exact hne (List.length_eq_zero_iff.1 he)
      · exact he
    have d01 := hlt _ _ _ _ (by omega) e0 e1
    have d12 := hlt _ _ _ _ (by omega) e1 e2
    have m0 := hmem _ _ e0
    have m1 := hmem _ _ e1
    have m2 := hmem _ _ e2
    rw [hvol _ m0, hvol _ m1, hvol _ m2, fitQuadratic_flat (hxinj _ m0 _ m1 d01)
      (hxinj _ m0 _ m2 (d01.trans d12)) (hxinj _ m1 _ m2 d12)] at h
    dsimp only at h
    obtain rfl := ok.inj h
    unfold Smile.volatility
    dsimp only
    have hz : ∀ x, piecewiseLinear _ x = 0 := fun x => piecewiseLinear_zero
      (l := (sv.zipIdx.map fun q : (ℝ × ℝ) × ℕ => (Real.log (q.1.1 / p.forward),
        if q.2 = 0 ∨ q.2 = (sortPairs pairs).length ∨ q.2 = sv.length - 1 then 0
        else q.1.2 - (0 * normCdf (Real.log (p.forward / q.1.1) / (3 / 2 * atm * √yf)) *
          normCdf (Real.log (p.forward / q.1.1) / (3 / 2 * atm * √yf)) +
          0 * normCdf (Real.log (p.forward / q.1.1) / (3 / 2 * atm * √yf)) + atm))).mergeSort
            fun u v => decide (u.1 ≤ v.1)) (by
        intro k hk
        have hk := (List.mergeSort_perm _ _).mem_iff.1 hk
        obtain ⟨q, hq, rfl⟩ := List.mem_map.1 hk
        have hqs : q.1 ∈ sv := by
          obtain ⟨a, i⟩ := q
          exact List.mem_of_getElem? (List.mem_zipIdx_iff_getElem?.1 hq)
        dsimp only
        rw [hvol _ hqs]
        by_cases hc : q.2 = 0 ∨ q.2 = (sortPairs pairs).length ∨ q.2 = sv.length - 1
        · rw [if_pos hc]
        · rw [if_neg hc]; ring) x
    rw [hz]
    simp
  · cases h

theorem buildSmiles_mem {val : Int} {ps : List VolPillar} : ∀ {l : List Smile},
    buildSmiles val ps = .ok l →
    (∀ sm ∈ l, ∃ p ∈ ps, Smile.fromPillar p (yf365 val p.expiry) = .ok sm) ∧
    ∀ p ∈ ps, ∃ sm ∈ l, Smile.fromPillar p (yf365 val p.expiry) = .ok sm := by
  induction ps with
  | nil => intro l h; rw [buildSmiles] at h; obtain rfl := ok.inj h; simp
  | cons p ps ih =>
    intro l h
    rw [buildSmiles, bind_eq_ok] at h
    obtain ⟨sm, h1, h⟩ := h
    rw [bind_eq_ok] at h
    obtain ⟨r, h2, h⟩ := h
    obtain rfl := ok.inj h
    obtain ⟨i1, i2⟩ := ih h2
    constructor
    · intro q hq
      rcases List.mem_cons.1 hq with rfl | hq
      · exact ⟨p, by simp, h1⟩
      · obtain ⟨p', hp', e⟩ := i1 q hq
        exact ⟨p', by simp [hp'], e⟩
    · intro q hq
      rcases List.mem_cons.1 hq with rfl | hq
      · exact ⟨sm, by simp, h1⟩
      · obtain ⟨sm', hs', e⟩ := i2 q hq
        exact ⟨sm', by simp [hs'], e⟩

theorem surface_mem {val : Int} {ps : List VolPillar} {s : FxVolSurface}
    (h : FxVolSurface.new val ps = .ok s) :
    (∀ sm ∈ s.smiles, ∃ p ∈ ps, Smile.fromPillar p (yf365 val p.expiry) = .ok sm) ∧
    ∀ p ∈ ps, ∃ sm ∈ s.smiles, Smile.fromPillar p (yf365 val p.expiry) = .ok sm := by
  unfold FxVolSurface.new at h
  rcases ps with _ | ⟨p, ps⟩
  · cases h
  dsimp only at h
  rw [bind_eq_ok] at h
  obtain ⟨l, hl, h⟩ := h
  obtain rfl := ok.inj h
  have hp := List.mergeSort_perm l fun a b => decide (a.expiry ≤ b.expiry)
  obtain ⟨h1, h2⟩ := buildSmiles_mem hl
  exact ⟨fun sm hs => h1 sm (hp.mem_iff.1 hs), fun p hp' => by
    obtain ⟨sm, a, b⟩ := h2 p hp'
    exact ⟨sm, hp.mem_iff.2 a, b⟩⟩

end Verif
