import Verif.Lemmas.SmileOrder
import Verif.Props.FxVol

/-!
# C104: the quotes of a smile in another order
-/

namespace Verif

open Classical Outcome

theorem DeltasSeparated.perm {qs qs' : List FxVolQuote} (h : DeltasSeparated qs) (hp : qs.Perm qs') :
    DeltasSeparated qs' :=
  fun q hq r hr => h q (hp.mem_iff.2 hq) r (hp.mem_iff.2 hr)

theorem SmileQuotesDiffer.perm {qs qs' : List FxVolQuote} (h : SmileQuotesDiffer qs) (hp : qs.Perm qs') :
    SmileQuotesDiffer qs' :=
  hp.pairwise h fun {_ _} h e => (h e.symm).symm

/-- **C104.** The quotes of a smile may be given in any order when their deltas are equal or clearly apart
and no kind of quote is given twice for a delta: the smile built is the same. -/
theorem C104_smile {e : Int} {f T : ℝ} {qs qs' : List FxVolQuote} (hp : qs.Perm qs') (hsep : DeltasSeparated qs)
    (hs : SmileQuotesDiffer qs) {s : Smile} :
    Smile.fromPillar ⟨e, f, qs⟩ T = .ok s ↔ Smile.fromPillar ⟨e, f, qs'⟩ T = .ok s := by
  have key : ∀ {qs qs' : List FxVolQuote}, qs.Perm qs' → DeltasSeparated qs → SmileQuotesDiffer qs →
      Smile.fromPillar ⟨e, f, qs⟩ T = .ok s → Smile.fromPillar ⟨e, f, qs'⟩ T = .ok s := by
    intro qs qs' hp hsep hs h
    unfold Smile.fromPillar at h ⊢
    by_cases hT : T ≤ 0
    · rw [if_pos hT] at h; cases h
    · rw [if_neg hT] at h ⊢
      by_cases hf : f ≤ 0
      · rw [if_pos hf] at h; cases h
      · rw [if_neg hf] at h ⊢
        obtain ⟨x, hx, h⟩ := bind_eq_ok.1 h
        rw [normaliseQuotes_perm hp hsep hs hx, ok_bind]
        exact h
  exact ⟨key hp hsep hs, key hp.symm (hsep.perm hp) (hs.perm hp)⟩

/-- Non-vacuity of `C104_smile`: the sample pillar, its at-the-money quote given last. -/
example : ∃ s, Smile.fromPillar (samplePillar 365) 1 = .ok s ∧
    Smile.fromPillar ⟨365, 11 / 10, [.butterfly (1 / 4) (1 / 100), .riskReversal (1 / 4) (2 / 100),
      .atm (1 / 10)]⟩ 1 = .ok s := by
  obtain ⟨s, h⟩ := samplePillar_built 365 (T := 1) one_pos
  refine ⟨s, h, (C104_smile ?_ (samplePillar_separated 365) ?_).1 h⟩
  · exact (List.reverse_perm _).symm
  · simp [SmileQuotesDiffer, samplePillar, FxVolQuote.kind]

theorem twoCalls_normalised (v w : ℝ) :
    normaliseQuotes [.atm (1 / 10), .put (1 / 4) (9 / 100), .call (1 / 4) v, .call (1 / 4) w] =
      .ok (1 / 10, [⟨1 / 4, w, 9 / 100⟩]) := by
  have hval : validateDelta (1 / 4) = .ok () := validateDelta_ok.2 (by norm_num)
  unfold normaliseQuotes
  rw [collectQuotes, if_neg (by simp), collectQuotes, hval, ok_bind, collectQuotes, hval, ok_bind,
    collectQuotes, hval, ok_bind, collectQuotes, ok_bind]
  rw [bucketUpdate, bucketUpdate, if_pos (by norm_num), bucketUpdate, if_pos (by norm_num)]
  dsimp only
  rw [resolveAll, resolveAll]
  simp [resolvePartial, sortPairs]

/-- **C104, two quotes of one kind.** Two call quotes for the same delta are not refused: the later one counts,
so that the order matters. -/
theorem C104_smile_false : ∃ (qs qs' : List FxVolQuote) (x y : ℝ × List DeltaPair), qs.Perm qs' ∧
    DeltasSeparated qs ∧ normaliseQuotes qs = .ok x ∧ normaliseQuotes qs' = .ok y ∧ x ≠ y := by
  refine ⟨_, _, _, _, ((List.Perm.swap _ _ _).cons _).cons _, ?_, twoCalls_normalised (11 / 100) (12 / 100),
    twoCalls_normalised (12 / 100) (11 / 100), ?_⟩
  · intro q hq r hr a b ha hb
    left
    simp only [List.mem_cons, List.not_mem_nil, or_false] at hq hr
    rcases hq with rfl | rfl | rfl | rfl <;> rcases hr with rfl | rfl | rfl | rfl <;>
      simp only [FxVolQuote.delta?, Option.some.injEq, reduceCtorEq] at ha hb <;> rw [← ha, ← hb]
  · intro h
    simp only [Prod.mk.injEq, List.cons.injEq, DeltaPair.mk.injEq] at h
    norm_num at h

end Verif
