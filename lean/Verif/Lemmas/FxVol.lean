import Verif.Spec.FxVol
import Verif.Lemmas.Normal
import Mathlib.Tactic.LinearCombination
import Mathlib.Data.List.Sort

/-!
# The FX smile reproduces its strikes
-/

namespace Verif

open Outcome Classical

/-! ### Piecewise linear interpolation at a knot -/

theorem interpWindows_at {a b : ℝ × ℝ} {pre post : List (ℝ × ℝ)}
    (h : (pre ++ a :: b :: post).Pairwise fun u v => u.1 < v.1) :
    interpWindows b.1 (pre ++ a :: b :: post) = b.2 := by
  induction pre with
  | nil =>
    rw [List.nil_append] at h ⊢
    have hab : a.1 < b.1 := (List.pairwise_cons.1 h).1 b (by simp)
    rw [interpWindows, if_pos ⟨hab.le, le_rfl⟩]
    have : b.1 - a.1 ≠ 0 := by linarith
    simp only [div_self this]; ring
  | cons c pre ih =>
    have h' : (pre ++ a :: b :: post).Pairwise fun u v => u.1 < v.1 := (List.pairwise_cons.1 h).2
    obtain ⟨n, rest, hn, hnb⟩ : ∃ n rest, pre ++ a :: b :: post = n :: rest ∧ n.1 < b.1 := by
      rcases pre with _ | ⟨n, pre⟩
      · exact ⟨a, _, rfl, (List.pairwise_cons.1 h').1 b (by simp)⟩
      · exact ⟨n, _, rfl, (List.pairwise_cons.1 h').1 b (by simp)⟩
    rw [List.cons_append, hn, interpWindows, if_neg (by rintro ⟨-, h2⟩; linarith), ← hn]
    exact ih h'

theorem piecewiseLinear_at {knots : List (ℝ × ℝ)} {q : ℝ × ℝ}
    (h : knots.Pairwise fun u v => u.1 < v.1) (hq : q ∈ knots) :
    piecewiseLinear knots q.1 = q.2 := by
  match knots, h, hq with
  | [k], _, hq => rw [List.mem_singleton.1 hq]; rfl
  | k :: k' :: ks, h, hq =>
    have hcons := List.pairwise_cons.1 h
    have hlast : (k' :: ks).getLast (List.cons_ne_nil _ _) ∈ k' :: ks := List.getLast_mem _
    rw [piecewiseLinear]
    rcases List.mem_cons.1 hq with rfl | hq'
    · rw [if_pos le_rfl]
    · rw [if_neg (not_le.2 (hcons.1 q hq'))]
      by_cases hl : q = (k' :: ks).getLast (List.cons_ne_nil _ _)
      · rw [← hl, if_pos le_rfl]
      · have hlt : q.1 < ((k' :: ks).getLast (List.cons_ne_nil _ _)).1 := by
          have hd := List.dropLast_append_getLast (List.cons_ne_nil k' ks)
          have hp := hcons.2
          rw [← hd] at hq' hp
          rcases List.mem_append.1 hq' with hq' | hq'
          · exact (List.pairwise_append.1 hp).2.2 q hq' _ (by simp)
          · exact absurd (List.mem_singleton.1 hq') hl
        rw [if_neg (not_le.2 hlt)]
        obtain ⟨pre, post, hsp⟩ := List.append_of_mem hq'
        rcases List.eq_nil_or_concat pre with rfl | ⟨pre', a, rfl⟩
        · rw [List.nil_append] at hsp
          rw [hsp] at h ⊢
          exact interpWindows_at (pre := []) h
        · rw [List.concat_eq_append, List.append_assoc, List.singleton_append] at hsp
          rw [hsp, ← List.cons_append] at h ⊢
          exact interpWindows_at h

/-! ### The quadratic through three points -/

theorem fitQuadratic_at {p0 p1 p2 : ℝ × ℝ} (h01 : p0.1 ≠ p1.1) (h02 : p0.1 ≠ p2.1)
    (h12 : p1.1 ≠ p2.1) :
    (∀ q, q = p0 ∨ q = p1 ∨ q = p2 → (fitQuadratic p0 p1 p2).1 * q.1 * q.1 +
      (fitQuadratic p0 p1 p2).2.1 * q.1 + (fitQuadratic p0 p1 p2).2.2 = q.2) := by
  have a1 := sub_ne_zero.2 h01
  have a2 := sub_ne_zero.2 h02
  have a3 := sub_ne_zero.2 h12
  rintro q (rfl | rfl | rfl) <;> simp only [fitQuadratic] <;> field_simp <;> ring

/-! ### Strikes -/

theorem strikesIncrease_pairwise {l : List (ℝ × ℝ)} (h : strikesIncrease l = true) :
    l.Pairwise fun a b => a.1 < b.1 := by
  induction l with
  | nil => exact .nil
  | cons a l ih =>
    rcases l with _ | ⟨b, l⟩
    · exact List.pairwise_singleton _ _
    · rw [strikesIncrease] at h
      by_cases hab : a.1 ≥ b.1
      · rw [if_pos hab] at h; cases h
      · rw [if_neg hab] at h
        have ih' := ih h
        refine List.pairwise_cons.2 ⟨fun c hc => ?_, ih'⟩
        rcases List.mem_cons.1 hc with rfl | hc
        · exact not_le.1 hab
        · exact (not_le.1 hab).trans ((List.pairwise_cons.1 ih').1 c hc)

theorem putStrikes_spec {f t : ℝ} (hf : 0 < f) {ps : List DeltaPair} {l : List (ℝ × ℝ)}
    (h : putStrikes f t ps = .ok l) :
    l.length = ps.length ∧ (∀ q ∈ l, 0 < q.1) ∧
    ∀ p ∈ ps, ∃ d1, normCdf d1 = 1 - p.delta ∧
      (f * Real.exp (1 / 2 * p.putVol * p.putVol * t * t - d1 * p.putVol * t), p.putVol) ∈ l := by
  induction ps generalizing l with
  | nil => rw [putStrikes] at h; cases h; simp
  | cons p ps ih =>
    rw [putStrikes, bind_eq_ok] at h
    obtain ⟨k, hk, h⟩ := h
    rw [bind_eq_ok] at h
    obtain ⟨r, hr, h⟩ := h
    cases h
    unfold strikeFromPutDelta at hk
    rw [bind_eq_ok] at hk
    obtain ⟨d1, hd, hk⟩ := hk
    cases hk
    obtain ⟨i1, i2, i3⟩ := ih hr
    refine ⟨by simp [i1], ?_, ?_⟩
    · intro q hq
      rcases List.mem_cons.1 hq with rfl | hq
      · show 0 < f * Real.exp _
        positivity
      · exact i2 q hq
    · intro q hq
      rcases List.mem_cons.1 hq with rfl | hq
      · exact ⟨d1, (normInv_iff.1 hd).2.2, by simp⟩
      · obtain ⟨e, h1, h2⟩ := i3 q hq
        exact ⟨e, h1, List.mem_cons_of_mem _ h2⟩

theorem callStrikes_spec {f t : ℝ} (hf : 0 < f) {ps : List DeltaPair} {l : List (ℝ × ℝ)}
    (h : callStrikes f t ps = .ok l) :
    l.length = ps.length ∧ (∀ q ∈ l, 0 < q.1) ∧
    ∀ p ∈ ps, ∃ d1, normCdf d1 = p.delta ∧
      (f * Real.exp (1 / 2 * p.callVol * p.callVol * t * t - d1 * p.callVol * t), p.callVol) ∈ l := by
  induction ps generalizing l with
  | nil => rw [callStrikes] at h; cases h; simp
  | cons p ps ih =>
    rw [callStrikes, bind_eq_ok] at h
    obtain ⟨k, hk, h⟩ := h
    rw [bind_eq_ok] at h
    obtain ⟨r, hr, h⟩ := h
    cases h
    unfold strikeFromCallDelta at hk
    rw [bind_eq_ok] at hk
    obtain ⟨d1, hd, hk⟩ := hk
    cases hk
    obtain ⟨i1, i2, i3⟩ := ih hr
    refine ⟨by simp [i1], ?_, ?_⟩
    · intro q hq
      rcases List.mem_cons.1 hq with rfl | hq
      · show 0 < f * Real.exp _
        positivity
      · exact i2 q hq
    · intro q hq
      rcases List.mem_cons.1 hq with rfl | hq
      · exact ⟨d1, (normInv_iff.1 hd).2.2, by simp⟩
      · obtain ⟨e, h1, h2⟩ := i3 q hq
        exact ⟨e, h1, List.mem_cons_of_mem _ h2⟩

theorem sortPairs_perm (ps : List DeltaPair) : (sortPairs ps).Perm ps := List.mergeSort_perm _ _

/-! ### The smile reproduces every strike it was built from -/

theorem smile_pins {p : VolPillar} {yf atm : ℝ} {s : Smile} {pairs : List DeltaPair}
    (h : Smile.fromPillar p yf = .ok s) (hn : normaliseQuotes p.quotes = .ok (atm, pairs))
    (h0 : atm ≠ 0) :
    0 < yf ∧ 0 < p.forward ∧ s.expiry = p.expiry ∧ s.yearFraction = yf ∧
    ∃ puts calls, putStrikes p.forward (√yf) (sortPairs pairs) = .ok puts ∧
      callStrikes p.forward (√yf) (sortPairs pairs).reverse = .ok calls ∧
      ∀ q ∈ puts ++ (atmDnsStrike atm p.forward yf, atm) :: calls, s.volatility q.1 = q.2 := by
  unfold Smile.fromPillar at h
  by_cases hy : yf ≤ 0
  · rw [if_pos hy] at h; cases h
  rw [if_neg hy] at h
  by_cases hf : p.forward ≤ 0
  · rw [if_pos hf] at h; cases h
  rw [if_neg hf, hn, ok_bind] at h
  dsimp only at h
  rw [bind_eq_ok] at h
  obtain ⟨puts, hputs, h⟩ := h
  rw [bind_eq_ok] at h
  obtain ⟨calls, hcalls, h⟩ := h
  have hf' := not_le.1 hf
  have hy' := not_le.1 hy
  obtain ⟨pl, ppos, -⟩ := putStrikes_spec hf' hputs
  obtain ⟨cl, cpos, -⟩ := callStrikes_spec hf' hcalls
  set sv := puts ++ (atmDnsStrike atm p.forward yf, atm) :: calls with hsv
  have hpos : ∀ q ∈ sv, 0 < q.1 := by
    intro q hq
    rcases List.mem_append.1 hq with hq | hq
    · exact ppos q hq
    · rcases List.mem_cons.1 hq with rfl | hq
      · show 0 < p.forward * Real.exp _
        positivity
      · exact cpos q hq
  have hlen : sv.length = 2 * (sortPairs pairs).length + 1 := by
    rw [hsv]; simp [pl, cl]; omega
  have hnp : 0 < (sortPairs pairs).length := by
    have : pairs ≠ [] := by
      intro he
      subst he
      unfold normaliseQuotes at hn
      rw [bind_eq_ok] at hn
      obtain ⟨r, -, hn⟩ := hn
      split at hn
      · cases hn
      · rw [bind_eq_ok] at hn
        obtain ⟨ps, -, hn⟩ := hn
        dsimp only at hn
        split at hn
        · cases hn
        · rename_i heq
          injection hn with hn
          injection hn with _ hn
          rw [heq] at hn
          cases hn
    rw [(sortPairs_perm pairs).length_eq]
    exact List.length_pos_of_ne_nil this
  by_cases hinc : strikesIncrease sv = false
  · rw [if_pos hinc] at h; cases h
  rw [if_neg hinc] at h
  have hpw := strikesIncrease_pairwise (Bool.not_eq_false _ ▸ hinc)
  have hget : ∀ i, i < sv.length → ∃ q, sv[i]? = some q := fun i hi => ⟨_, List.getElem?_eq_getElem hi⟩
  obtain ⟨s0, e0⟩ := hget 0 (by omega)
  obtain ⟨s1, e1⟩ := hget (sortPairs pairs).length (by omega)
  obtain ⟨s2, e2⟩ := hget (sv.length - 1) (by omega)
  rw [e0, e1, e2] at h
  dsimp only at h
  injection h with h
  refine ⟨hy', hf', by rw [← h], by rw [← h], puts, calls, hputs, hcalls, ?_⟩
  -- distinct abscissae
  have hlt : ∀ (i j : ℕ) (a b : ℝ × ℝ), i < j → sv[i]? = some a → sv[j]? = some b → a.1 < b.1 := by
    intro i j a b hij ha hb
    obtain ⟨hi, rfl⟩ := List.getElem?_eq_some_iff.1 ha
    obtain ⟨hj, rfl⟩ := List.getElem?_eq_some_iff.1 hb
    exact List.pairwise_iff_getElem.1 hpw i j hi hj hij
  have hmem : ∀ (i : ℕ) (a : ℝ × ℝ), sv[i]? = some a → a ∈ sv := fun i a ha => List.mem_of_getElem? ha
  have hxinj : ∀ a ∈ sv, ∀ b ∈ sv, a.1 ≠ b.1 →
      normCdf (Real.log (p.forward / a.1) / (3 / 2 * atm * √yf)) ≠
      normCdf (Real.log (p.forward / b.1) / (3 / 2 * atm * √yf)) := by
    intro a ha b hb hne he
    apply hne
    have hc : 3 / 2 * atm * √yf ≠ 0 :=
      mul_ne_zero (mul_ne_zero (by norm_num) h0) (Real.sqrt_pos.2 hy').ne'
    have := strictMono_normCdf.injective he
    rw [div_left_inj' hc] at this
    have pa := hpos a ha
    have pb := hpos b hb
    have := Real.log_injOn_pos (by simp only [Set.mem_Ioi]; positivity)
      (by simp only [Set.mem_Ioi]; positivity) this
    rw [div_eq_div_iff pa.ne' pb.ne'] at this
    exact (mul_left_cancel₀ hf'.ne' this).symm
  have d01 := hlt _ _ _ _ (by omega) e0 e1
  have d12 := hlt _ _ _ _ (by omega) e1 e2
  have hfit := fitQuadratic_at
    (p0 := (normCdf (Real.log (p.forward / s0.1) / (3 / 2 * atm * √yf)), s0.2))
    (p1 := (normCdf (Real.log (p.forward / s1.1) / (3 / 2 * atm * √yf)), s1.2))
    (p2 := (normCdf (Real.log (p.forward / s2.1) / (3 / 2 * atm * √yf)), s2.2))
    (hxinj _ (hmem _ _ e0) _ (hmem _ _ e1) d01.ne)
    (hxinj _ (hmem _ _ e0) _ (hmem _ _ e2) (d01.trans d12).ne)
    (hxinj _ (hmem _ _ e1) _ (hmem _ _ e2) d12.ne)
  set abc := fitQuadratic
    (normCdf (Real.log (p.forward / s0.1) / (3 / 2 * atm * √yf)), s0.2)
    (normCdf (Real.log (p.forward / s1.1) / (3 / 2 * atm * √yf)), s1.2)
    (normCdf (Real.log (p.forward / s2.1) / (3 / 2 * atm * √yf)), s2.2) with habc
  set g : (ℝ × ℝ) × ℕ → ℝ × ℝ := fun q => (Real.log (q.1.1 / p.forward),
    if q.2 = 0 ∨ q.2 = (sortPairs pairs).length ∨ q.2 = sv.length - 1 then 0
    else q.1.2 - (abc.1 * normCdf (Real.log (p.forward / q.1.1) / (3 / 2 * atm * √yf)) *
      normCdf (Real.log (p.forward / q.1.1) / (3 / 2 * atm * √yf)) +
      abc.2.1 * normCdf (Real.log (p.forward / q.1.1) / (3 / 2 * atm * √yf)) + abc.2.2)) with hg
  have hlogmono : ∀ a ∈ sv, ∀ b ∈ sv, a.1 < b.1 →
      Real.log (a.1 / p.forward) < Real.log (b.1 / p.forward) := by
    intro a ha b hb hab
    have pa := hpos a ha
    exact Real.log_lt_log (by positivity) (div_lt_div_of_pos_right hab hf')
  have hkn : (sv.zipIdx.map g).Pairwise fun u v => u.1 < v.1 := by
    rw [List.pairwise_map, List.pairwise_iff_getElem]
    intro i j hi hj hij
    rw [List.length_zipIdx] at hi hj
    simp only [List.getElem_zipIdx, hg]
    exact hlogmono _ (List.getElem_mem hi) _ (List.getElem_mem hj)
      (List.pairwise_iff_getElem.1 hpw i j hi hj hij)
  have hsort : (sv.zipIdx.map g).mergeSort (fun u v => decide (u.1 ≤ v.1)) = sv.zipIdx.map g :=
    List.mergeSort_of_pairwise (hkn.imp fun hab => by simpa using hab.le)
  intro q hq
  obtain ⟨i, hi⟩ := List.mem_iff_getElem?.1 hq
  have hil : i < sv.length := (List.getElem?_eq_some_iff.1 hi).1
  have hz : (q, i) ∈ sv.zipIdx := List.mem_zipIdx_iff_getElem?.2 hi
  have hk := piecewiseLinear_at hkn (List.mem_map_of_mem (f := g) hz)
  rw [← h]
  unfold Smile.volatility
  dsimp only
  rw [show (sv.zipIdx.map fun q => (Real.log (q.1.1 / p.forward),
    if q.2 = 0 ∨ q.2 = (sortPairs pairs).length ∨ q.2 = sv.length - 1 then 0
    else q.1.2 - (abc.1 * normCdf (Real.log (p.forward / q.1.1) / (3 / 2 * atm * √yf)) *
      normCdf (Real.log (p.forward / q.1.1) / (3 / 2 * atm * √yf)) +
      abc.2.1 * normCdf (Real.log (p.forward / q.1.1) / (3 / 2 * atm * √yf)) + abc.2.2))) =
    sv.zipIdx.map g from rfl, hsort]
  have hrange : ¬ (Real.log (q.1 / p.forward) < Real.log (s0.1 / p.forward) ∨
      Real.log (q.1 / p.forward) > Real.log (s2.1 / p.forward)) := by
    rintro (hc | hc)
    · rcases Nat.eq_zero_or_pos i with rfl | hi0
      · rw [hi] at e0; cases e0; exact lt_irrefl _ hc
      · exact absurd (hlogmono _ (hmem _ _ e0) _ hq (hlt _ _ _ _ hi0 e0 hi)) (not_lt.2 hc.le)
    · rcases Nat.lt_or_ge i (sv.length - 1) with hi0 | hi0
      · exact absurd (hlogmono _ hq _ (hmem _ _ e2) (hlt _ _ _ _ hi0 hi e2)) (not_lt.2 hc.le)
      · have : i = sv.length - 1 := by omega
        subst this
        rw [hi] at e2; cases e2; exact lt_irrefl _ hc
  rw [if_neg hrange]
  have hk' : piecewiseLinear (sv.zipIdx.map g) (Real.log (q.1 / p.forward)) = (g (q, i)).2 := hk
  rw [hk', hg]
  dsimp only
  by_cases hanchor : i = 0 ∨ i = (sortPairs pairs).length ∨ i = sv.length - 1
  · rw [if_pos hanchor, add_zero]
    rcases hanchor with rfl | rfl | rfl
    · rw [hi] at e0; cases e0
      exact hfit _ (.inl rfl)
    · rw [hi] at e1; cases e1
      exact hfit _ (.inr (.inl rfl))
    · rw [hi] at e2; cases e2
      exact hfit _ (.inr (.inr rfl))
  · rw [if_neg hanchor]; ring

end Verif
