import Verif.Spec.CapletSurface
import Verif.Lemmas.Simulation
import Verif.Lemmas.Cap

/-!
# Helper lemmas for the caplet volatility surface
-/

namespace Verif

open Outcome Classical

/-! ### Interpolation in strike -/

theorem scanNodes_window {k fb : ℝ} {pre post : List (ℝ × ℝ)} {a b : ℝ × ℝ}
    (hs : StrikesIncrease (pre ++ a :: b :: post)) (h1 : a.1 < k) (h2 : k ≤ b.1) :
    scanNodes k fb (pre ++ a :: b :: post) = a.2 + (k - a.1) / (b.1 - a.1) * (b.2 - a.2) := by
  induction pre with
  | nil =>
    simp only [List.nil_append]
    rw [scanNodes, if_pos ⟨h1.le, h2⟩]
  | cons x pre ih =>
    have hs' : StrikesIncrease (pre ++ a :: b :: post) := (List.pairwise_cons.1 hs).2
    cases pre with
    | nil =>
      simp only [List.cons_append, List.nil_append] at ih ⊢
      rw [scanNodes, if_neg (by intro h; linarith [h.2]), ih hs']
    | cons y pre =>
      have hy : y.1 < a.1 := (List.pairwise_cons.1 hs').1 a (by simp)
      simp only [List.cons_append] at ih ⊢
      rw [scanNodes, if_neg (by intro h; linarith [h.2]), ih hs']

theorem scanNodes_mem (k fb : ℝ) (nodes : List (ℝ × ℝ)) :
    (∃ pre a b post, nodes = pre ++ a :: b :: post ∧ a.1 ≤ k ∧ k ≤ b.1 ∧
      scanNodes k fb nodes = a.2 + (k - a.1) / (b.1 - a.1) * (b.2 - a.2)) ∨
    scanNodes k fb nodes = fb := by
  induction nodes with
  | nil => exact .inr rfl
  | cons x nodes ih =>
    cases nodes with
    | nil => exact .inr rfl
    | cons y rest =>
      rw [scanNodes]
      by_cases h : x.1 ≤ k ∧ k ≤ y.1
      · rw [if_pos h]
        exact .inl ⟨[], x, y, rest, rfl, h.1, h.2, rfl⟩
      · rw [if_neg h]
        rcases ih with ⟨pre, a, b, post, e, h1, h2, h3⟩ | h
        · exact .inl ⟨x :: pre, a, b, post, by rw [e]; rfl, h1, h2, h3⟩
        · exact .inr h

/-! ### Grouping by strike -/

/-- The groups built from `qs`. -/
noncomputable def groupsOf (qs : List CapQuote) : List (ℝ × List CapQuote) :=
  qs.foldl (fun gs q => addToGroups q gs) []

theorem addToGroups_apart (q : CapQuote) (gs : List (ℝ × List CapQuote))
    (h : gs.Pairwise fun a b => 1 / 1000000000000 ≤ |a.1 - b.1|) :
    (addToGroups q gs).Pairwise (fun a b => 1 / 1000000000000 ≤ |a.1 - b.1|) ∧
    ∀ g ∈ addToGroups q gs, (∃ g' ∈ gs, g'.1 = g.1) ∨
      (g.1 = q.strike ∧ ∀ g' ∈ gs, 1 / 1000000000000 ≤ |g'.1 - q.strike|) := by
  induction gs with
  | nil => simp [addToGroups]
  | cons g gs ih =>
    obtain ⟨hg, hgs⟩ := List.pairwise_cons.1 h
    obtain ⟨i1, i2⟩ := ih hgs
    rw [addToGroups]
    by_cases hc : |g.1 - q.strike| < 1 / 1000000000000
    · rw [if_pos hc]
      refine ⟨List.pairwise_cons.2 ⟨hg, hgs⟩, fun x hx => .inl ?_⟩
      rcases List.mem_cons.1 hx with rfl | hx
      · exact ⟨g, by simp, rfl⟩
      · exact ⟨x, by simp [hx], rfl⟩
    · rw [if_neg hc]
      rw [not_lt] at hc
      refine ⟨List.pairwise_cons.2 ⟨fun x hx => ?_, i1⟩, fun x hx => ?_⟩
      · rcases i2 x hx with ⟨g', hg', e⟩ | ⟨e, -⟩
        · rw [← e]; exact hg g' hg'
        · rw [e]; exact hc
      · rcases List.mem_cons.1 hx with rfl | hx
        · exact .inl ⟨x, by simp, rfl⟩
        · rcases i2 x hx with ⟨g', hg', e⟩ | ⟨e, h2⟩
          · exact .inl ⟨g', by simp [hg'], e⟩
          · refine .inr ⟨e, fun g' hg' => ?_⟩
            rcases List.mem_cons.1 hg' with rfl | hg'
            · exact hc
            · exact h2 g' hg'

theorem foldl_groups_apart (qs : List CapQuote) (gs : List (ℝ × List CapQuote))
    (h : gs.Pairwise fun a b => 1 / 1000000000000 ≤ |a.1 - b.1|) :
    (qs.foldl (fun gs q => addToGroups q gs) gs).Pairwise
      fun a b => 1 / 1000000000000 ≤ |a.1 - b.1| := by
  induction qs generalizing gs with
  | nil => exact h
  | cons q qs ih => exact ih _ (addToGroups_apart q gs h).1

theorem groupsOf_apart (qs : List CapQuote) :
    (groupsOf qs).Pairwise fun a b => 1 / 1000000000000 ≤ |a.1 - b.1| :=
  foldl_groups_apart qs [] List.Pairwise.nil

/-- What a group holds, when strikes are equal or apart: `seen` are the quotes handled. -/
structure GroupsOk (seen : List CapQuote) (gs : List (ℝ × List CapQuote)) : Prop where
  strike : ∀ g ∈ gs, ∀ q ∈ g.2, q.strike = g.1
  sub : ∀ g ∈ gs, g.2.Sublist seen
  ne : ∀ g ∈ gs, g.2 ≠ []
  all : ∀ q ∈ seen, ∃ g ∈ gs, q ∈ g.2

theorem addToGroups_ok {seen : List CapQuote} {gs : List (ℝ × List CapQuote)} {q : CapQuote}
    (h : GroupsOk seen gs)
    (ha : ∀ q' ∈ seen, q'.strike = q.strike ∨ 1 / 1000000000000 ≤ |q'.strike - q.strike|) :
    GroupsOk (seen ++ [q]) (addToGroups q gs) := by
  have hmem : ∀ gs : List (ℝ × List CapQuote),
      (∀ g ∈ gs, ∀ q ∈ g.2, q.strike = g.1) → (∀ g ∈ gs, g.2.Sublist seen) → (∀ g ∈ gs, g.2 ≠ []) →
      (∀ g ∈ addToGroups q gs, (∀ q ∈ g.2, q.strike = g.1) ∧ g.2.Sublist (seen ++ [q]) ∧ g.2 ≠ []) ∧
      (∃ g ∈ addToGroups q gs, q ∈ g.2) ∧
      (∀ g ∈ gs, ∀ x ∈ g.2, ∃ g' ∈ addToGroups q gs, x ∈ g'.2) := by
    intro gs
    induction gs with
    | nil =>
      intro _ _ _
      refine ⟨?_, ?_, by simp⟩
      · intro g hg
        simp only [addToGroups, List.mem_cons, List.not_mem_nil, or_false] at hg
        subst hg
        exact ⟨by simp, List.sublist_append_right _ _, by simp⟩
      · exact ⟨_, by simp [addToGroups]; rfl, by simp⟩
    | cons g gs ih =>
      intro h1 h2 h3
      obtain ⟨i1, i2, i3⟩ := ih (fun g hg => h1 g (by simp [hg])) (fun g hg => h2 g (by simp [hg]))
        (fun g hg => h3 g (by simp [hg]))
      rw [addToGroups]
      by_cases hc : |g.1 - q.strike| < 1 / 1000000000000
      · rw [if_pos hc]
        have hstrike : q.strike = g.1 := by
          obtain ⟨x, hx⟩ := List.exists_mem_of_ne_nil _ (h3 g (by simp))
          have e := h1 g (by simp) x hx
          rcases ha x ((h2 g (by simp)).subset hx) with h | h
          · rw [← h, e]
          · rw [e] at h; linarith
        refine ⟨fun x hx => ?_, ⟨_, List.mem_cons_self, by simp⟩, fun x hx y hy => ?_⟩
        · rcases List.mem_cons.1 hx with rfl | hx
          · refine ⟨fun y hy => ?_, ?_, by simp⟩
            · rcases List.mem_append.1 hy with hy | hy
              · exact h1 g (by simp) y hy
              · rw [List.mem_singleton.1 hy]; exact hstrike
            · exact (h2 g (by simp)).append (List.Sublist.refl _)
          · exact ⟨h1 x (by simp [hx]), (h2 x (by simp [hx])).trans (List.sublist_append_left _ _),
              h3 x (by simp [hx])⟩
        · rcases List.mem_cons.1 hx with rfl | hx
          · exact ⟨_, List.mem_cons_self, by simp [hy]⟩
          · exact ⟨x, by simp [hx], hy⟩
      · rw [if_neg hc]
        refine ⟨fun x hx => ?_, ?_, fun x hx y hy => ?_⟩
        · rcases List.mem_cons.1 hx with rfl | hx
          · exact ⟨h1 x (by simp), (h2 x (by simp)).trans (List.sublist_append_left _ _),
              h3 x (by simp)⟩
          · exact i1 x hx
        · obtain ⟨x, hx, hq⟩ := i2
          exact ⟨x, by simp [hx], hq⟩
        · rcases List.mem_cons.1 hx with rfl | hx
          · exact ⟨x, by simp, hy⟩
          · obtain ⟨g', hg', hy'⟩ := i3 x hx y hy
            exact ⟨g', by simp [hg'], hy'⟩
  obtain ⟨m1, m2, m3⟩ := hmem gs h.strike h.sub h.ne
  refine ⟨fun g hg => (m1 g hg).1, fun g hg => (m1 g hg).2.1, fun g hg => (m1 g hg).2.2, ?_⟩
  intro x hx
  rcases List.mem_append.1 hx with hx | hx
  · obtain ⟨g, hg, hxg⟩ := h.all x hx
    exact m3 g hg x hxg
  · rw [List.mem_singleton.1 hx]; exact m2

theorem foldl_groups_ok {seen qs : List CapQuote} {gs : List (ℝ × List CapQuote)}
    (h : GroupsOk seen gs)
    (ha : ∀ q ∈ seen ++ qs, ∀ q' ∈ seen ++ qs,
      q.strike = q'.strike ∨ 1 / 1000000000000 ≤ |q.strike - q'.strike|) :
    GroupsOk (seen ++ qs) (qs.foldl (fun gs q => addToGroups q gs) gs) := by
  induction qs generalizing seen gs with
  | nil => simpa using h
  | cons q qs ih =>
    have h1 := addToGroups_ok (q := q) h fun q' hq' => ha q' (by simp [hq']) q (by simp)
    have h2 := ih h1 (by simpa using ha)
    simpa using h2

theorem groupsOf_ok {qs : List CapQuote}
    (ha : ∀ q ∈ qs, ∀ q' ∈ qs, q.strike = q'.strike ∨ 1 / 1000000000000 ≤ |q.strike - q'.strike|) :
    GroupsOk qs (groupsOf qs) := by
  have h0 : GroupsOk [] [] := ⟨by simp, by simp, by simp, by simp⟩
  exact foldl_groups_ok (seen := []) (qs := qs) h0 ha

/-- Sorting by key. -/
theorem mergeSort_key {α : Type} (key : α → ℝ) (l : List α) :
    (l.mergeSort fun a b => decide (key a ≤ key b)).Pairwise (fun a b => key a ≤ key b) ∧
    (l.mergeSort fun a b => decide (key a ≤ key b)).Perm l := by
  refine ⟨?_, List.mergeSort_perm _ _⟩
  have := List.pairwise_mergeSort (le := fun a b : α => decide (key a ≤ key b))
    (by intro a b c; simpa using le_trans) (by intro a b; simpa using le_total _ _) l
  simpa using this

theorem mergeSort_keyInt {α : Type} (key : α → Int) (l : List α) :
    (l.mergeSort fun a b => decide (key a ≤ key b)).Pairwise (fun a b => key a ≤ key b) ∧
    (l.mergeSort fun a b => decide (key a ≤ key b)).Perm l := by
  refine ⟨?_, List.mergeSort_perm _ _⟩
  have := List.pairwise_mergeSort (le := fun a b : α => decide (key a ≤ key b))
    (by intro a b c; simpa using le_trans) (by intro a b; simpa using le_total _ _) l
  simpa using this

/-- The sorted groups have strictly increasing strikes. -/
theorem sortedGroups_lt (qs : List CapQuote) :
    ((groupsOf qs).mergeSort fun a b => decide (a.1 ≤ b.1)).Pairwise fun a b => a.1 < b.1 := by
  obtain ⟨hs, hp⟩ := mergeSort_key (fun g : ℝ × List CapQuote => g.1) (groupsOf qs)
  have hd := hp.symm.pairwise (R := fun a b => 1 / 1000000000000 ≤ |a.1 - b.1|) (groupsOf_apart qs)
    (fun {a b} h => by rwa [abs_sub_comm])
  refine (hs.and hd).imp fun {a b} h => lt_of_le_of_ne h.1 fun e => ?_
  have := h.2
  rw [e, sub_self, abs_zero] at this
  norm_num at this

/-! ### Stripping one column -/

theorem stripColumns_strikes {solve : RootFinder} {cv : Curve} {val : Int}
    {gs : List (ℝ × List CapQuote)} {cols : List (ℝ × List StripPoint)}
    (h : stripColumns solve cv val gs = .ok cols) :
    List.Forall₂ (fun g c => c.1 = g.1 ∧ stripOneStrike solve cv val g.2 = .ok c.2) gs cols := by
  induction gs generalizing cols with
  | nil =>
    rw [stripColumns] at h
    obtain rfl := ok.inj h
    exact .nil
  | cons g gs ih =>
    rw [stripColumns] at h
    simp only [bind_eq_ok, ok.injEq] at h
    obtain ⟨s, hs, rest, hr, rfl⟩ := h
    exact .cons ⟨rfl, hs⟩ (ih hr)

theorem stripQuotes_cons {solve : RootFinder} {cv : Curve} {val : Int} {q : CapQuote}
    {qs : List CapQuote} {pre out : List StripPoint} :
    stripQuotes solve cv val (q :: qs) pre = .ok out ↔ ∃ last, q.lastStart = .ok last ∧
      (((∃ s, pre.getLast? = some s ∧ last ≤ s.expiry) ∧ stripQuotes solve cv val qs pre = .ok out) ∨
       ((∀ s, pre.getLast? = some s → s.expiry < last) ∧ ∃ sigma,
          solve (q.residual cv val pre) = .ok sigma ∧
          stripQuotes solve cv val qs (pre ++ [⟨last, sigma⟩]) = .ok out)) := by
  rw [stripQuotes, bind_eq_ok]
  refine exists_congr fun last => and_congr_right fun _ => ?_
  rcases h : pre.getLast? with _ | s
  · simp [bind_eq_ok]
  · by_cases hc : last ≤ s.expiry
    · simp [hc]
    · simp [hc, bind_eq_ok]
      omega

/-- The strip only grows, its expiries strictly increase. -/
theorem stripQuotes_sorted {solve : RootFinder} {cv : Curve} {val : Int} {qs : List CapQuote}
    {pre out : List StripPoint} (hp : pre.Pairwise fun a b => a.expiry < b.expiry)
    (h : stripQuotes solve cv val qs pre = .ok out) :
    (∃ post, out = pre ++ post) ∧ out.Pairwise fun a b => a.expiry < b.expiry := by
  induction qs generalizing pre with
  | nil =>
    rw [stripQuotes] at h
    obtain rfl := ok.inj h
    exact ⟨⟨[], by simp⟩, hp⟩
  | cons q qs ih =>
    obtain ⟨last, -, ⟨-, h⟩ | ⟨hc, sigma, -, h⟩⟩ := stripQuotes_cons.1 h
    · exact ih hp h
    · have hp' : (pre ++ [⟨last, sigma⟩] : List StripPoint).Pairwise fun a b => a.expiry < b.expiry := by
        refine List.pairwise_append.2 ⟨hp, List.pairwise_singleton _ _, fun a ha b hb => ?_⟩
        rw [List.mem_singleton.1 hb]
        rcases List.eq_nil_or_concat pre with rfl | ⟨l, s, rfl⟩
        · simp at ha
        · simp only [List.concat_eq_append] at *
          have hc := hc s (by simp)
          rcases List.mem_append.1 ha with ha | ha
          · exact ((List.pairwise_append.1 hp).2.2 a ha s (by simp)).trans hc
          · rw [List.mem_singleton.1 ha]; exact hc
      obtain ⟨⟨post, e⟩, h2⟩ := ih hp' h
      exact ⟨⟨⟨last, sigma⟩ :: post, by rw [e]; simp⟩, h2⟩

/-- Where every quote of a column reaches further than the one before, each has its own
segment, solved on the segments before it. -/
theorem stripQuotes_segments {solve : RootFinder} {cv : Curve} {val : Int} {last : CapQuote → Int}
    {qs : List CapQuote} {pre out : List StripPoint}
    (hl : ∀ q ∈ qs, q.lastStart = .ok (last q)) (hq : qs.Pairwise fun a b => last a < last b)
    (hpre : ∀ s ∈ pre, ∀ q ∈ qs, s.expiry < last q)
    (h : stripQuotes solve cv val qs pre = .ok out) :
    (∀ q ∈ qs, ∃ a sigma b, out = a ++ ⟨last q, sigma⟩ :: b ∧
      solve (q.residual cv val a) = .ok sigma) ∧
    ∀ s ∈ out, s ∈ pre ∨ ∃ q ∈ qs, s.expiry = last q := by
  induction qs generalizing pre with
  | nil =>
    rw [stripQuotes] at h
    obtain rfl := ok.inj h
    exact ⟨by simp, fun s hs => .inl hs⟩
  | cons q qs ih =>
    obtain ⟨hq1, hq2⟩ := List.pairwise_cons.1 hq
    obtain ⟨d, hd, h⟩ := stripQuotes_cons.1 h
    rw [hl q (by simp)] at hd
    obtain rfl := ok.inj hd
    rcases h with ⟨⟨s', hs', hle⟩, -⟩ | ⟨-, sigma, hsol, h⟩
    · exfalso
      rcases List.eq_nil_or_concat pre with rfl | ⟨l, s, rfl⟩
      · simp at hs'
      · simp only [List.concat_eq_append, List.getLast?_append, List.getLast?_singleton,
          Option.some_or, Option.some.injEq] at hs'
        subst hs'
        have := hpre s (by simp) q (by simp)
        omega
    · obtain ⟨post, hpost⟩ : ∃ post, out = (pre ++ [⟨last q, sigma⟩]) ++ post := by
        have key : ∀ (qs : List CapQuote) (pre : List StripPoint),
            stripQuotes solve cv val qs pre = .ok out → ∃ post, out = pre ++ post := by
          intro qs
          induction qs with
          | nil =>
            intro pre h
            rw [stripQuotes] at h
            obtain rfl := ok.inj h
            exact ⟨[], by simp⟩
          | cons q qs ih =>
            intro pre h
            obtain ⟨d, -, ⟨-, h⟩ | ⟨-, s, -, h⟩⟩ := stripQuotes_cons.1 h
            · exact ih pre h
            · obtain ⟨post, e⟩ := ih _ h
              exact ⟨⟨d, s⟩ :: post, by rw [e]; simp⟩
        exact key qs _ h
      obtain ⟨i1, i2⟩ := ih (fun x hx => hl x (by simp [hx])) hq2 (by
        intro s hs x hx
        rcases List.mem_append.1 hs with hs | hs
        · exact hpre s hs x (by simp [hx])
        · rw [List.mem_singleton.1 hs]; exact hq1 x hx) h
      refine ⟨fun x hx => ?_, fun s hs => ?_⟩
      · rcases List.mem_cons.1 hx with rfl | hx
        · exact ⟨pre, sigma, post, by rw [hpost]; simp, hsol⟩
        · exact i1 x hx
      · rcases i2 s hs with hs | ⟨x, hx, e⟩
        · rcases List.mem_append.1 hs with hs | hs
          · exact .inl hs
          · rw [List.mem_singleton.1 hs]; exact .inr ⟨q, by simp, rfl⟩
        · exact .inr ⟨x, by simp [hx], e⟩

/-- The segment used for a caplet starting on `start`. -/
theorem sigmaForStart_split {start : Int} {l : List StripPoint} {fb : ℝ} :
    (∃ a p b, l = a ++ p :: b ∧ (∀ x ∈ a, x.expiry < start) ∧ start ≤ p.expiry ∧
      sigmaForStart start l fb = p.sigma) ∨
    ((∀ x ∈ l, x.expiry < start) ∧ sigmaForStart start l fb = fb) := by
  induction l with
  | nil => exact .inr ⟨by simp, rfl⟩
  | cons s l ih =>
    rw [sigmaForStart]
    by_cases h : start ≤ s.expiry
    · rw [if_pos h]
      exact .inl ⟨[], s, l, rfl, by simp, h, rfl⟩
    · rw [if_neg h]
      rw [not_le] at h
      rcases ih with ⟨a, p, b, e, h1, h2, h3⟩ | ⟨h1, h2⟩
      · exact .inl ⟨s :: a, p, b, by rw [e]; rfl, by simpa using ⟨h, h1⟩, h2, h3⟩
      · exact .inr ⟨by simpa using ⟨h, h1⟩, h2⟩

/-! ### Assembling the pillars -/

/-- The expiries of the assembled surface. -/
noncomputable def columnExpiries (columns : List (ℝ × List StripPoint)) : List Int :=
  dedupDates ((columns.flatMap fun c => c.2.map StripPoint.expiry).mergeSort fun a b => decide (a ≤ b))

theorem mem_columnExpiries {columns : List (ℝ × List StripPoint)} {e : Int} :
    e ∈ columnExpiries columns ↔ ∃ c ∈ columns, ∃ p ∈ c.2, p.expiry = e := by
  unfold columnExpiries
  rw [mem_dedupDates, List.mem_mergeSort]
  simp

theorem columnExpiries_sorted (columns : List (ℝ × List StripPoint)) :
    (columnExpiries columns).Pairwise (· < ·) :=
  dedupDates_sorted _ (mergeSort_keyInt id _).1

theorem assemblePillars_eq (columns : List (ℝ × List StripPoint)) :
    assemblePillars columns = (columnExpiries columns).filterMap fun exp =>
      match pillarNodes columns exp with
      | [] => none
      | n :: ns => some ⟨exp, n :: ns⟩ := rfl

/-- The node columns before sorting. -/
theorem pillarNodes_sorted {columns : List (ℝ × List StripPoint)}
    (h : columns.Pairwise fun a b => a.1 < b.1) (exp : Int) :
    StrikesIncrease (pillarNodes columns exp) := by
  have h0 : (columns.filterMap fun c =>
      (c.2.reverse.find? fun p => decide (p.expiry ≤ exp)).map fun p => (c.1, p.sigma)).Pairwise
      fun a b : ℝ × ℝ => a.1 < b.1 := by
    refine List.Pairwise.filterMap _ (fun a a' haa b hb b' hb' => ?_) h
    simp only [Option.map_eq_some_iff, Option.mem_def] at hb hb'
    obtain ⟨_, _, rfl⟩ := hb
    obtain ⟨_, _, rfl⟩ := hb'
    exact haa
  unfold StrikesIncrease pillarNodes
  rwa [List.mergeSort_of_pairwise (h0.imp fun {a b} h => by simpa using h.le)]

theorem mem_pillarNodes {columns : List (ℝ × List StripPoint)} {exp : Int} {n : ℝ × ℝ} :
    n ∈ pillarNodes columns exp ↔ ∃ c ∈ columns, ∃ p,
      c.2.reverse.find? (fun p => decide (p.expiry ≤ exp)) = some p ∧ n = (c.1, p.sigma) := by
  unfold pillarNodes
  rw [List.mem_mergeSort, List.mem_filterMap]
  simp only [Option.map_eq_some_iff]
  constructor
  · rintro ⟨c, hc, p, hp, rfl⟩; exact ⟨c, hc, p, hp, rfl⟩
  · rintro ⟨c, hc, p, hp, rfl⟩; exact ⟨c, hc, p, hp, rfl⟩

theorem columns_strikes_lt {solve : RootFinder} {cv : Curve} {val : Int} {qs : List CapQuote}
    {cols : List (ℝ × List StripPoint)}
    (h : stripColumns solve cv val ((groupsOf qs).mergeSort fun a b => decide (a.1 ≤ b.1)) = .ok cols) :
    cols.Pairwise fun a b => a.1 < b.1 := by
  have h1 := sortedGroups_lt qs
  have h2 := stripColumns_strikes h
  generalize (groupsOf qs).mergeSort (fun a b => decide (a.1 ≤ b.1)) = gs at h1 h2
  have h3 : cols.map Prod.fst = gs.map Prod.fst := by
    clear h1 h
    induction h2 with
    | nil => rfl
    | cons hh _ ih => rw [List.map_cons, List.map_cons, ih, hh.1]
  have h4 : (gs.map Prod.fst).Pairwise (· < ·) := List.pairwise_map.2 h1
  rw [← h3] at h4
  exact List.pairwise_map.1 h4

/-- The pillar the assembled surface uses for a date and a strike, on a full grid. -/
theorem assembled_lookup {columns : List (ℝ × List StripPoint)}
    (hk : columns.Pairwise fun a b => a.1 < b.1)
    (hs : ∀ c ∈ columns, c.2.Pairwise fun a b => a.expiry < b.expiry)
    (hfull : ∀ c ∈ columns, ∀ c' ∈ columns, ∀ p ∈ c.2, ∃ p' ∈ c'.2, p'.expiry = p.expiry)
    {c : ℝ × List StripPoint} (hc : c ∈ columns) {a b : List StripPoint} {p : StripPoint}
    (e : c.2 = a ++ p :: b) {start : Int} (ha : ∀ x ∈ a, x.expiry < start) (hp : start ≤ p.expiry) :
    ∃ nodes, pickPillar start (assemblePillars columns) = some ⟨p.expiry, nodes⟩ ∧
      StrikesIncrease nodes ∧ (c.1, p.sigma) ∈ nodes := by
  have hcs := hs c hc
  have hmemn : (c.1, p.sigma) ∈ pillarNodes columns p.expiry := by
    refine mem_pillarNodes.2 ⟨c, hc, p, ?_, rfl⟩
    rw [List.find?_eq_some_iff_append]
    refine ⟨by simp, b.reverse, a.reverse, by rw [e]; simp, fun x hx => ?_⟩
    rw [e] at hcs
    have := (List.pairwise_cons.1 (List.pairwise_append.1 hcs).2.1).1 x (by simpa using hx)
    simpa using this
  refine ⟨pillarNodes columns p.expiry, ?_, pillarNodes_sorted hk _, hmemn⟩
  have hE : p.expiry ∈ columnExpiries columns := mem_columnExpiries.2 ⟨c, hc, p, by rw [e]; simp, rfl⟩
  have hEs := columnExpiries_sorted columns
  obtain ⟨E1, E2, hEe⟩ := List.append_of_mem hE
  have hfind : (assemblePillars columns).find? (fun q => decide (start ≤ q.expiry)) =
      some ⟨p.expiry, pillarNodes columns p.expiry⟩ := by
    rw [assemblePillars_eq, hEe, List.filterMap_append, List.filterMap_cons]
    have hne : ∃ n ns, pillarNodes columns p.expiry = n :: ns :=
      List.exists_cons_of_ne_nil (List.ne_nil_of_mem hmemn)
    obtain ⟨n, ns, hn⟩ := hne
    rw [hn]
    rw [List.find?_append, List.find?_eq_none.2, Option.none_or]
    · rw [List.find?_cons_of_pos]
      simpa using hp
    · intro q hq
      obtain ⟨ex, hex, hq⟩ := List.mem_filterMap.1 hq
      have hqe : q.expiry = ex := by
        split at hq
        · simp at hq
        · rw [← Option.some.inj hq]
      have hlt : ex < p.expiry := by
        rw [hEe] at hEs
        exact (List.pairwise_append.1 hEs).2.2 ex hex _ (by simp)
      obtain ⟨c', hc', p', hp', rfl⟩ := mem_columnExpiries.1 (hEe ▸ List.mem_append_left _ hex :
        ex ∈ columnExpiries columns)
      obtain ⟨p'', hp'', e''⟩ := hfull c' hc' c hc p' hp'
      rw [e] at hp'' hcs
      have : p'' ∈ a := by
        rcases List.mem_append.1 hp'' with h | h
        · exact h
        · exfalso
          rcases List.mem_cons.1 h with rfl | h
          · omega
          · have := (List.pairwise_cons.1 (List.pairwise_append.1 hcs).2.1).1 _ h
            omega
      have := ha _ this
      simp only [decide_eq_true_eq, not_le]
      omega
  unfold pickPillar
  rw [hfind]

/-! ### Prices -/

/-- The trade on a surface and the quote on a strip have the same value when the surface
returns the strip's volatilities. -/
theorem addCaplets_eq_addStrip {q : CapQuote} {cv : Curve} {val : Int} {vs : List CapletPillar}
    {strip : List StripPoint} {trial : ℝ} {ps : List SchedPeriod}
    (h : ∀ p ∈ ps, capletVolatility vs p.start q.strike = .ok (sigmaForStart p.start strip trial))
    (acc : ℝ) :
    (q.toTrade val).addCaplets cv vs 0 0 ps acc = q.addStrip cv val strip trial ps acc := by
  induction ps generalizing acc with
  | nil => rfl
  | cons p ps ih =>
    rw [CapFloor.addCaplets, CapQuote.addStrip]
    unfold CapFloor.market
    simp only [CapQuote.toTrade, C38_zero_shift]
    rw [h p (by simp)]
    rcases q.yearFraction p.start p.fin with tau | e | _
    · rcases cv.discount p.start with ds | e | _
      · rcases cv.discount p.fin with de | e | _
        · rcases cv.discount p.pay with dp | e | _
          · simp only [ok_bind, zero_mul, add_zero]
            rw [← ih fun p hp => h p (by simp [hp])]
            refine congrArg (CapFloor.addCaplets _ _ _ _ _ _) (congrArg (acc + ·) ?_)
            unfold optionValue
            cases q.kind <;> rfl
          · rfl
          · rfl
        · rfl
        · rfl
      · rfl
      · rfl
    · rfl
    · rfl

theorem lastStart_of_fixing {q : CapQuote} {d : Int} (h : q.LastFixing d) : q.lastStart = .ok d := by
  obtain ⟨⟨ps, p, e, rfl⟩, -⟩ := h
  unfold CapQuote.lastStart
  rw [e]
  simp

end Verif
