import Verif.Spec.Observer
import Mathlib.Data.List.Induction

/-!
# C45: observers
-/

namespace Verif

variable {σ : Type}

/-- What the registry knows after a history: the dropped observers are those of the
history, and the live weak references are the live attachments, in order. -/
theorem registry_inv (prune : Bool) (s : σ) (h : List (ObsOp σ)) :
    (∀ i, (Registry.run prune s h).1.alive i = true ↔ ObsOp.drop i ∉ h) ∧
    (Registry.run prune s h).1.weak.filter (Registry.run prune s h).1.alive =
      (attachments h).filter (Registry.run prune s h).1.alive := by
  induction h using List.reverseRecOn with
  | nil => simp [Registry.run, Registry.empty, Registry.alive, attachments]
  | append_singleton h op ih =>
    obtain ⟨ih1, ih2⟩ := ih
    have er : Registry.run prune s (h ++ [op]) = Registry.step prune (Registry.run prune s h) op := by
      simp [Registry.run, List.foldl_append]
    rw [er]
    generalize Registry.run prune s h = rs at ih1 ih2
    have ea : attachments (h ++ [op]) = attachments h ++ attachments [op] := by
      simp [attachments, List.filterMap_append]
    rw [ea]
    cases op with
    | attach i =>
      constructor
      · intro j
        simp only [Registry.step, List.mem_append, List.mem_singleton, reduceCtorEq, or_false]
        exact ih1 j
      · simp only [Registry.step, Registry.attach, List.filter_append]
        have e2 : attachments [ObsOp.attach (σ := σ) i] = [i] := rfl
        rw [e2]
        have e3 : (Registry.mk (rs.1.weak ++ [i]) rs.1.dropped).alive = rs.1.alive := rfl
        rw [e3, ih2]
    | drop i =>
      have hal : ∀ j, (rs.1.drop i).alive j = (rs.1.alive j && !(j == i)) := by
        intro j
        simp only [Registry.drop, Registry.alive, List.contains_cons, Bool.not_or]
        rw [Bool.and_comm]
      constructor
      · intro j
        simp only [Registry.step, hal, Bool.and_eq_true, ih1 j, List.mem_append, List.mem_singleton,
          ObsOp.drop.injEq, not_or]
        simp
      · have e2 : attachments [ObsOp.drop (σ := σ) i] = [] := rfl
        rw [e2, List.append_nil]
        simp only [Registry.step]
        have e3 : (rs.1.drop i).alive = fun j => !(j == i) && rs.1.alive j := by
          funext j; rw [hal, Bool.and_comm]
        rw [e3, show (rs.1.drop i).weak = rs.1.weak from rfl]
        have := congrArg (List.filter fun j => !(j == i)) ih2
        rwa [List.filter_filter, List.filter_filter] at this
    | notify u =>
      have e2 : attachments [ObsOp.notify u] = [] := rfl
      rw [e2, List.append_nil]
      have hstep : (Registry.step prune rs (.notify u)).1.alive = rs.1.alive ∧
          (Registry.step prune rs (.notify u)).1.weak.filter rs.1.alive =
            rs.1.weak.filter rs.1.alive := by
        cases prune
        · exact ⟨rfl, rfl⟩
        · refine ⟨rfl, ?_⟩
          simp only [Registry.step, Registry.notifyPruning, if_true, List.filter_filter, Bool.and_self]
      constructor
      · intro j
        rw [hstep.1]
        simp only [List.mem_append, List.mem_singleton, reduceCtorEq, or_false]
        exact ih1 j
      · rw [hstep.1, hstep.2, ih2]

/-- C45: after any history, `notify_observers` runs over exactly the live attachments, in
order of attachment, once per attachment; dropped observers are never called.  This holds
for the pruning and for the non-pruning implementations. -/
theorem C45_targets (prune : Bool) (s : σ) (h : List (ObsOp σ)) (u : Nat → σ → σ × Outcome Unit) (w : σ) :
    ((Registry.run prune s h).1.notify u w).2 = notifyLoop u (targets h) w ∧
    ((Registry.run prune s h).1.notifyPruning u w).2 = notifyLoop u (targets h) w := by
  obtain ⟨h1, h2⟩ := registry_inv prune s h
  have e : (Registry.run prune s h).1.weak.filter (Registry.run prune s h).1.alive = targets h := by
    rw [h2, targets]
    refine List.filter_congr fun i _ => ?_
    by_cases hd : ObsOp.drop i ∈ h
    · simp only [hd, not_true_eq_false, decide_false]
      cases ha : (Registry.run prune s h).1.alive i
      · rfl
      · exact absurd hd ((h1 i).1 ha)
    · simp only [hd, not_false_eq_true, decide_true]
      exact (h1 i).2 hd
  constructor
  · simp only [Registry.notify, e]
  · simp only [Registry.notifyPruning, Registry.alive]
    have e' : ∀ l : List Nat, List.filter (fun i => !(Registry.run prune s h).1.dropped.contains i)
        (List.filter (Registry.run prune s h).1.alive l) =
        List.filter (Registry.run prune s h).1.alive l := by
      intro l
      rw [List.filter_filter]
      refine List.filter_congr fun i _ => ?_
      simp [Registry.alive]
    exact congrArg (notifyLoop u · w) ((e' _).trans e)

/-- C45: a successful notification has called every live observer, each of which succeeded
in the world left by those before it. -/
theorem C45_all_called (u : Nat → σ → σ × Outcome Unit) {is called : List Nat} {w w' : σ}
    (h : notifyLoop u is w = (called, w', .ok ())) :
    called = is ∧ w' = worldAfter u is w ∧
      ∀ pre i post, is = pre ++ i :: post → (u i (worldAfter u pre w)).2 = .ok () := by
  induction is generalizing w called with
  | nil =>
    simp only [notifyLoop, Prod.mk.injEq] at h
    obtain ⟨rfl, rfl, -⟩ := h
    refine ⟨rfl, rfl, ?_⟩
    intro pre i post h
    simp at h
  | cons j js ih =>
    rw [notifyLoop] at h
    split at h
    · rename_i s' hu
      simp only [Prod.mk.injEq] at h
      obtain ⟨hc, hw⟩ := h
      obtain ⟨a, b, c⟩ := ih (called := (notifyLoop u js s').1) (w := s') (by rw [← hw])
      refine ⟨by rw [← hc, a], ?_, ?_⟩
      · rw [b]; simp [worldAfter, hu]
      · intro pre i post hp
        cases pre with
        | nil =>
          simp only [List.nil_append, List.cons.injEq] at hp
          obtain ⟨rfl, -⟩ := hp
          simp [worldAfter, hu]
        | cons k ks =>
          simp only [List.cons_append, List.cons.injEq] at hp
          obtain ⟨rfl, hp⟩ := hp
          have := c ks i post hp
          simpa [worldAfter, hu] using this
    · rename_i s' e hne hu
      simp only [Prod.mk.injEq] at h
      exact absurd h.2.2 hne

/-- C45: a failed notification stopped at the first observer that failed: everyone before
it was called and succeeded, nobody after it was called, and its error is returned. -/
theorem C45_stops_at_error (u : Nat → σ → σ × Outcome Unit) {is called : List Nat} {w w' : σ}
    {e : Outcome Unit} (h : notifyLoop u is w = (called, w', e)) (he : e ≠ .ok ()) :
    ∃ pre i post, is = pre ++ i :: post ∧ called = pre ++ [i] ∧
      u i (worldAfter u pre w) = (w', e) ∧
      ∀ a j b, pre = a ++ j :: b → (u j (worldAfter u a w)).2 = .ok () := by
  induction is generalizing w called with
  | nil =>
    simp only [notifyLoop, Prod.mk.injEq] at h
    exact absurd h.2.2.symm he
  | cons j js ih =>
    rw [notifyLoop] at h
    split at h
    · rename_i s' hu
      simp only [Prod.mk.injEq] at h
      obtain ⟨hc, hw⟩ := h
      obtain ⟨pre, i, post, a, b, c, d⟩ := ih (called := (notifyLoop u js s').1) (w := s') (by rw [← hw])
      refine ⟨j :: pre, i, post, by rw [a]; rfl, by rw [← hc, b]; rfl, ?_, ?_⟩
      · simpa [worldAfter, hu] using c
      · intro x k y hp
        cases x with
        | nil =>
          simp only [List.nil_append, List.cons.injEq] at hp
          obtain ⟨rfl, -⟩ := hp
          simp [worldAfter, hu]
        | cons l ls =>
          simp only [List.cons_append, List.cons.injEq] at hp
          obtain ⟨rfl, hp⟩ := hp
          simpa [worldAfter, hu] using d ls k y hp
    · rename_i s' e' hne hu
      simp only [Prod.mk.injEq] at h
      obtain ⟨rfl, rfl, rfl⟩ := h
      refine ⟨[], j, js, rfl, rfl, hu, ?_⟩
      intro a k b hp
      simp at hp

/-- C45: attaching keeps everyone attached before, in order, and adds the new one last. -/
theorem C45_attach_keeps (h : List (ObsOp σ)) (i : Nat) (hi : ObsOp.drop i ∉ h) :
    targets (h ++ [.attach i]) = targets h ++ [i] := by
  unfold targets attachments
  rw [List.filterMap_append, List.filter_append]
  congr 1
  · refine List.filter_congr fun j _ => ?_
    simp
  · simp [hi]

/-- C45: dropping an observer removes just its own attachments; notifying changes none. -/
theorem C45_drop_only_self (h : List (ObsOp σ)) (i : Nat) (u : Nat → σ → σ × Outcome Unit) :
    targets (h ++ [.drop i]) = (targets h).filter (· ≠ i) ∧ targets (h ++ [.notify u]) = targets h := by
  constructor
  · unfold targets attachments
    rw [List.filterMap_append, List.filter_append, List.filter_filter]
    simp only [List.filterMap_cons_none, List.filterMap_nil, List.filter_nil, List.append_nil]
    refine List.filter_congr fun j _ => ?_
    by_cases hj : j = i <;> by_cases hd : ObsOp.drop j ∈ h <;> simp_all
  · unfold targets attachments
    rw [List.filterMap_append, List.filter_append]
    simp only [List.filterMap_cons_none, List.filterMap_nil, List.filter_nil, List.append_nil]
    refine List.filter_congr fun j _ => ?_
    simp

/-- Non-vacuity of C45: four attachments (7 twice), 8 dropped, 9 fails: 7 is called, then
9 fails and the second 7 is not reached. -/
example :
    let u : Nat → List Nat → List Nat × Outcome Unit := fun i s =>
      (s ++ [i], if i = 9 then .fail .invalidData else .ok ())
    let r := (Registry.run true ([] : List Nat) [.attach 7, .attach 8, .notify u, .attach 9, .drop 8,
      .attach 7]).1.notifyPruning u []
    r.2 = ([7, 9], [7, 9], .fail .invalidData) ∧ r.1.weak = [7, 9, 7] := by
  decide

end Verif
