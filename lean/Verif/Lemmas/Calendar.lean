import Verif.Spec.Calendar
import Verif.Lemmas.Date

/-! # Characterisation of the rolling and stepping loops -/

namespace Verif

open Outcome

variable {c : Cal} {d r : Int}

theorem rollFwdFuel_ok (c : Cal) (k : Nat) (d r : Int) :
    rollFwdFuel c k d = .ok r ↔ FirstOpenFrom c d r ∧ r < d + k := by
  induction k generalizing d with
  | zero =>
    simp only [rollFwdFuel, reduceCtorEq, Nat.cast_zero, add_zero, false_iff]
    rintro ⟨h, h2⟩
    have := h.le
    omega
  | succ k ih =>
    rw [rollFwdFuel, bind_eq_ok]
    constructor
    · rintro ⟨b, hb, h⟩
      cases b with
      | true =>
        simp only [if_true, ok.injEq] at h
        subst h
        refine ⟨⟨le_rfl, hb, fun x h1 h2 => by omega⟩, by push_cast; omega⟩
      | false =>
        simp only [Bool.false_eq_true, if_false] at h
        obtain ⟨h, h2⟩ := (ih (d + 1)).1 h
        refine ⟨⟨by have := h.le; omega, h.isOpen, ?_⟩, by push_cast; omega⟩
        intro x h3 h4
        rcases eq_or_lt_of_le h3 with h5 | h5
        · rw [← h5]; exact hb
        · exact h.closed x (by omega) h4
    · rintro ⟨h, h2⟩
      rcases eq_or_lt_of_le h.le with h3 | h3
      · exact ⟨true, by rw [h3]; exact h.isOpen, by simp [h3]⟩
      · refine ⟨false, h.closed d le_rfl h3, ?_⟩
        simp only [Bool.false_eq_true, if_false]
        refine (ih (d + 1)).2 ⟨⟨by omega, h.isOpen, fun x h4 h5 => h.closed x (by omega) h5⟩, ?_⟩
        push_cast at h2; omega

theorem rollFwd_ok : rollFwd c d = .ok r ↔ FirstOpenFrom c d r ∧ r ≤ maxDay := by
  unfold rollFwd
  rw [rollFwdFuel_ok]
  constructor
  · rintro ⟨h, h2⟩
    have := h.le
    exact ⟨h, by omega⟩
  · rintro ⟨h, h2⟩
    have := h.le
    exact ⟨h, by omega⟩

theorem rollFwdFuel_fail (c : Cal) (k : Nat) (d : Int) (e : Err) :
    rollFwdFuel c k d = .fail e ↔
      ∃ x, d ≤ x ∧ x < d + k ∧ c x = .fail e ∧ ∀ y, d ≤ y → y < x → c y = .ok false := by
  induction k generalizing d with
  | zero =>
    simp only [rollFwdFuel, reduceCtorEq, Nat.cast_zero, add_zero, false_iff]
    rintro ⟨x, h1, h2, _⟩
    omega
  | succ k ih =>
    rw [rollFwdFuel]
    rcases hc : c d with b | e' | _
    · cases b with
      | true =>
        simp only [ok_bind, if_true, reduceCtorEq, false_iff]
        rintro ⟨x, h1, h2, h3, h4⟩
        rcases eq_or_lt_of_le h1 with h5 | h5
        · rw [h5, h3] at hc; cases hc
        · have := h4 d le_rfl h5; rw [this] at hc; cases hc
      | false =>
        simp only [ok_bind, Bool.false_eq_true, if_false]
        rw [ih]
        constructor
        · rintro ⟨x, h1, h2, h3, h4⟩
          refine ⟨x, by omega, by push_cast; omega, h3, fun y h5 h6 => ?_⟩
          rcases eq_or_lt_of_le h5 with h7 | h7
          · rw [← h7]; exact hc
          · exact h4 y (by omega) h6
        · rintro ⟨x, h1, h2, h3, h4⟩
          rcases eq_or_lt_of_le h1 with h5 | h5
          · rw [h5, h3] at hc; cases hc
          · exact ⟨x, by omega, by push_cast at h2; omega, h3, fun y h6 h7 => h4 y (by omega) h7⟩
    · simp only [fail_bind, fail.injEq]
      constructor
      · rintro rfl
        exact ⟨d, le_rfl, by push_cast; omega, hc, fun y h1 h2 => by omega⟩
      · rintro ⟨x, h1, h2, h3, h4⟩
        rcases eq_or_lt_of_le h1 with h5 | h5
        · rw [h5, h3] at hc; simpa using hc.symm
        · have := h4 d le_rfl h5; rw [this] at hc; cases hc
    · simp only [panic_bind, reduceCtorEq, false_iff]
      rintro ⟨x, h1, h2, h3, h4⟩
      rcases eq_or_lt_of_le h1 with h5 | h5
      · rw [h5, h3] at hc; cases hc
      · have := h4 d le_rfl h5; rw [this] at hc; cases hc

theorem rollFwdFuel_panic (c : Cal) (k : Nat) (d : Int) :
    rollFwdFuel c k d = .panic ↔
      (∃ x, d ≤ x ∧ x < d + k ∧ c x = .panic ∧ ∀ y, d ≤ y → y < x → c y = .ok false) ∨
      (∀ x, d ≤ x → x < d + k → c x = .ok false) := by
  induction k generalizing d with
  | zero =>
    simp only [rollFwdFuel, Nat.cast_zero, add_zero, true_iff]
    right; intro x h1 h2; omega
  | succ k ih =>
    rw [rollFwdFuel]
    rcases hc : c d with b | e' | _
    · cases b with
      | true =>
        simp only [ok_bind, if_true, reduceCtorEq, false_iff]
        rintro (⟨x, h1, h2, h3, h4⟩ | h)
        · rcases eq_or_lt_of_le h1 with h5 | h5
          · rw [h5, h3] at hc; cases hc
          · have := h4 d le_rfl h5; rw [this] at hc; cases hc
        · have := h d le_rfl (by push_cast; omega)
          rw [this] at hc; cases hc
      | false =>
        simp only [ok_bind, Bool.false_eq_true, if_false]
        rw [ih]
        constructor
        · rintro (⟨x, h1, h2, h3, h4⟩ | h)
          · refine Or.inl ⟨x, by omega, by push_cast; omega, h3, fun y h5 h6 => ?_⟩
            rcases eq_or_lt_of_le h5 with h7 | h7
            · rw [← h7]; exact hc
            · exact h4 y (by omega) h6
          · right
            intro x h1 h2
            rcases eq_or_lt_of_le h1 with h7 | h7
            · rw [← h7]; exact hc
            · exact h x (by omega) (by push_cast at h2; omega)
        · rintro (⟨x, h1, h2, h3, h4⟩ | h)
          · rcases eq_or_lt_of_le h1 with h5 | h5
            · rw [h5, h3] at hc; cases hc
            · exact Or.inl ⟨x, by omega, by push_cast at h2; omega, h3,
                fun y h6 h7 => h4 y (by omega) h7⟩
          · right
            intro x h1 h2
            exact h x (by omega) (by push_cast; omega)
    · simp only [fail_bind, reduceCtorEq, false_iff]
      rintro (⟨x, h1, h2, h3, h4⟩ | h)
      · rcases eq_or_lt_of_le h1 with h5 | h5
        · rw [h5, h3] at hc; cases hc
        · have := h4 d le_rfl h5; rw [this] at hc; cases hc
      · have := h d le_rfl (by push_cast; omega)
        rw [this] at hc; cases hc
    · simp only [panic_bind, true_iff]
      exact Or.inl ⟨d, le_rfl, by push_cast; omega, hc, fun y h1 h2 => by omega⟩

/-- Rolling back is rolling forward in the mirrored calendar. -/
theorem rollBackFuel_mirror (c : Cal) (k : Nat) (d : Int) :
    rollBackFuel c k d = (fun x => -x) <$> rollFwdFuel (fun x => c (-x)) k (-d) := by
  induction k generalizing d with
  | zero => simp [rollBackFuel, rollFwdFuel]
  | succ k ih =>
    rw [rollBackFuel, rollFwdFuel]
    simp only [neg_neg]
    rcases hc : c d with b | e' | _
    · cases b with
      | true => simp
      | false =>
        simp only [ok_bind, Bool.false_eq_true, if_false]
        rw [ih, show -(d - 1) = -d + 1 by omega]
    · simp
    · simp

theorem rollBackFuel_ok (c : Cal) (k : Nat) (d r : Int) :
    rollBackFuel c k d = .ok r ↔ LastOpenTo c d r ∧ d - k < r := by
  rw [rollBackFuel_mirror, map_eq_ok]
  constructor
  · rintro ⟨a, ha, rfl⟩
    obtain ⟨h, h2⟩ := (rollFwdFuel_ok _ _ _ _).1 ha
    refine ⟨⟨by have := h.le; omega, h.isOpen, fun x h3 h4 => ?_⟩, by omega⟩
    have := h.closed (-x) (by omega) (by omega)
    simpa using this
  · rintro ⟨h, h2⟩
    refine ⟨-r, (rollFwdFuel_ok _ _ _ _).2 ⟨⟨by have := h.le; omega, by simpa using h.isOpen,
      fun x h3 h4 => ?_⟩, by omega⟩, by omega⟩
    exact h.closed (-x) (by omega) (by omega)

theorem rollBack_ok : rollBack c d = .ok r ↔ LastOpenTo c d r ∧ minDay ≤ r := by
  unfold rollBack
  rw [rollBackFuel_ok]
  constructor
  · rintro ⟨h, h2⟩
    have := h.le
    exact ⟨h, by omega⟩
  · rintro ⟨h, h2⟩
    have := h.le
    exact ⟨h, by omega⟩

theorem FirstOpenFrom.unique {r' : Int} (h : FirstOpenFrom c d r) (h' : FirstOpenFrom c d r') :
    r = r' := by
  rcases lt_trichotomy r r' with h1 | h1 | h1
  · have := h'.closed r h.le h1; rw [h.isOpen] at this; cases this
  · exact h1
  · have := h.closed r' h'.le h1; rw [h'.isOpen] at this; cases this

theorem LastOpenTo.unique {r' : Int} (h : LastOpenTo c d r) (h' : LastOpenTo c d r') :
    r = r' := by
  rcases lt_trichotomy r r' with h1 | h1 | h1
  · have := h.closed r' h1 h'.le; rw [h'.isOpen] at this; cases this
  · exact h1
  · have := h'.closed r h1 h.le; rw [h.isOpen] at this; cases this

theorem rollFwd_of_open (hd : d ≤ maxDay) (h : c d = .ok true) : rollFwd c d = .ok d :=
  rollFwd_ok.2 ⟨⟨le_rfl, h, fun x h1 h2 => by omega⟩, hd⟩

theorem rollBack_of_open (hd : minDay ≤ d) (h : c d = .ok true) : rollBack c d = .ok d :=
  rollBack_ok.2 ⟨⟨le_rfl, h, fun x h1 h2 => by omega⟩, hd⟩

/-- If some day from `d` on is open and everything up to it is classified, the
first open day exists. -/
theorem exists_firstOpen {b : Int} (hdb : d ≤ b) (hb : c b = .ok true)
    (hcls : ∀ x, d ≤ x → x ≤ b → c x = .ok true ∨ c x = .ok false) :
    ∃ r, FirstOpenFrom c d r ∧ r ≤ b := by
  have key : ∀ n : Nat, ∀ d, d ≤ b → b - d = n →
      (∀ x, d ≤ x → x ≤ b → c x = .ok true ∨ c x = .ok false) →
      ∃ r, FirstOpenFrom c d r ∧ r ≤ b := by
    intro n
    induction n with
    | zero =>
      intro d h1 h2 _
      have : d = b := by omega
      subst this
      exact ⟨d, ⟨le_rfl, hb, fun x _ _ => by omega⟩, le_rfl⟩
    | succ n ih =>
      intro d h1 h2 h3
      rcases h3 d le_rfl h1 with h4 | h4
      · exact ⟨d, ⟨le_rfl, h4, fun x _ _ => by omega⟩, h1⟩
      · obtain ⟨r, hr, hrb⟩ := ih (d + 1) (by push_cast at h2; omega) (by push_cast at h2; omega)
          (fun x h5 h6 => h3 x (by omega) h6)
        refine ⟨r, ⟨by have := hr.le; omega, hr.isOpen, fun x h5 h6 => ?_⟩, hrb⟩
        rcases eq_or_lt_of_le h5 with h7 | h7
        · rw [← h7]; exact h4
        · exact hr.closed x (by omega) h6
  exact key (b - d).toNat d hdb (by omega) hcls

theorem exists_lastOpen {b : Int} (hdb : b ≤ d) (hb : c b = .ok true)
    (hcls : ∀ x, b ≤ x → x ≤ d → c x = .ok true ∨ c x = .ok false) :
    ∃ r, LastOpenTo c d r ∧ b ≤ r := by
  obtain ⟨r, hr, hrb⟩ := exists_firstOpen (c := fun x => c (-x)) (d := -d) (b := -b) (by omega)
    (by simpa using hb) (fun x h1 h2 => hcls (-x) (by omega) (by omega))
  refine ⟨-r, ⟨by have := hr.le; omega, hr.isOpen, fun x h1 h2 => ?_⟩, by omega⟩
  have := hr.closed (-x) (by omega) (by omega)
  simpa using this

theorem valid_addDays {k : Int} : addDays d k = .ok r ↔ r = d + k ∧ Valid (d + k) := by
  unfold addDays
  split
  · rename_i h
    simp only [ok.injEq]
    constructor
    · rintro rfl; exact ⟨rfl, h⟩
    · rintro ⟨rfl, _⟩; rfl
  · rename_i h
    simp [h]

/-- One forward step of `advance`. -/
theorem fwd_step {d r : Int} :
    (do rollFwd c (← addPeriod d (.days 1)) : Outcome Int) = .ok r ↔
      minDay ≤ d + 1 ∧ r ≤ maxDay ∧ FirstOpenFrom c (d + 1) r := by
  have h1 : tryDays 1 = .ok 1 := by decide
  simp only [addPeriod, h1, ok_bind, bind_eq_ok, valid_addDays, rollFwd_ok]
  constructor
  · rintro ⟨a, ⟨rfl, hv⟩, h2, h3⟩
    exact ⟨hv.1, h3, h2⟩
  · rintro ⟨h2, h3, h4⟩
    have := h4.le
    exact ⟨d + 1, ⟨rfl, h2, by omega⟩, h4, h3⟩

theorem back_step {d r : Int} :
    (do rollBack c (← subPeriod d (.days 1)) : Outcome Int) = .ok r ↔
      d - 1 ≤ maxDay ∧ minDay ≤ r ∧ LastOpenTo c (d - 1) r := by
  have h1 : tryDays 1 = .ok 1 := by decide
  simp only [subPeriod, h1, ok_bind, bind_eq_ok, valid_addDays, rollBack_ok]
  constructor
  · rintro ⟨a, ⟨rfl, hv⟩, h2, h3⟩
    exact ⟨hv.2, h3, h2⟩
  · rintro ⟨h2, h3, h4⟩
    have := h4.le
    exact ⟨d - 1, ⟨by omega, by unfold Valid; omega⟩, h4, h3⟩

theorem openCount_Ioc_split {a b e : Int} (h1 : a ≤ b) (h2 : b ≤ e) :
    openCount c (Finset.Ioc a e) = openCount c (Finset.Ioc a b) + openCount c (Finset.Ioc b e) := by
  unfold openCount
  rw [← Finset.card_union_of_disjoint]
  · rw [← Finset.filter_union]
    congr 2
    ext x; simp only [Finset.mem_Ioc, Finset.mem_union]; omega
  · rw [Finset.disjoint_left]
    intro x hx hy
    simp only [Finset.mem_filter, Finset.mem_Ioc] at hx hy
    omega

theorem openCount_Ioc_first {d r : Int} (h : FirstOpenFrom c (d + 1) r) :
    openCount c (Finset.Ioc d r) = 1 := by
  unfold openCount
  rw [Finset.card_eq_one]
  refine ⟨r, ?_⟩
  ext x
  simp only [Finset.mem_filter, Finset.mem_Ioc, Finset.mem_singleton]
  constructor
  · rintro ⟨⟨h1, h2⟩, h3⟩
    by_contra hne
    have := h.closed x (by omega) (by omega)
    rw [this] at h3; cases h3
  · rintro rfl
    have := h.le
    exact ⟨⟨by omega, le_rfl⟩, h.isOpen⟩

theorem openCount_empty_of_closed {s : Finset Int} (h : ∀ x ∈ s, c x = .ok false) :
    openCount c s = 0 := by
  unfold openCount
  rw [Finset.card_eq_zero, Finset.filter_eq_empty_iff]
  intro x hx
  rw [h x hx]; simp

/-- Characterisation of `advanceFwd`. -/
theorem advanceFwd_ok (c : Cal) (n : Nat) (hn : 0 < n) (d r : Int) :
    advanceFwd c n d = .ok r ↔
      minDay ≤ d + 1 ∧ r ≤ maxDay ∧ d < r ∧ c r = .ok true ∧
      (∀ x, d < x → x ≤ r → c x = .ok true ∨ c x = .ok false) ∧
      openCount c (Finset.Ioc d r) = n := by
  induction n generalizing d with
  | zero => omega
  | succ n ih =>
    have hexp : advanceFwd c (n + 1) d =
        ((do rollFwd c (← addPeriod d (.days 1)) : Outcome Int) >>= fun x => advanceFwd c n x) := by
      rw [advanceFwd]
      rcases addPeriod d (.days 1) with a | e | _ <;> simp
    rw [hexp, bind_eq_ok]
    simp only [fwd_step]
    rcases Nat.eq_zero_or_pos n with h0 | h0
    · subst h0
      simp only [advanceFwd, ok.injEq]
      constructor
      · rintro ⟨a, ⟨h1, h2, h3⟩, rfl⟩
        have hle := h3.le
        refine ⟨h1, h2, by omega, h3.isOpen, fun x h4 h5 => ?_, by
          rw [openCount_Ioc_first h3]⟩
        rcases eq_or_lt_of_le h5 with h6 | h6
        · rw [h6]; exact Or.inl h3.isOpen
        · exact Or.inr (h3.closed x (by omega) h6)
      · rintro ⟨h1, h2, h3, h4, h5, h6⟩
        refine ⟨r, ⟨h1, h2, ⟨by omega, h4, fun x h7 h8 => ?_⟩⟩, rfl⟩
        rcases h5 x (by omega) (by omega) with h9 | h9
        · exfalso
          unfold openCount at h6
          have : 1 < (Finset.filter (fun x => c x = .ok true) (Finset.Ioc d r)).card := by
            rw [Finset.one_lt_card]
            refine ⟨x, ?_, r, ?_, by omega⟩ <;> simp [h9, h4] <;> omega
          omega
        · exact h9
    · simp only [ih h0]
      constructor
      · rintro ⟨a, ⟨h1, h2, h3⟩, h4, h5, h6, h7, h8, h9⟩
        have hle := h3.le
        refine ⟨h1, h5, by omega, h7, fun x h10 h11 => ?_, ?_⟩
        · rcases lt_trichotomy x a with h12 | h12 | h12
          · exact Or.inr (h3.closed x (by omega) h12)
          · rw [h12]; exact Or.inl h3.isOpen
          · exact h8 x h12 h11
        · rw [openCount_Ioc_split (b := a) (by omega) (by omega), openCount_Ioc_first h3, h9]
          omega
      · rintro ⟨h1, h2, h3, h4, h5, h6⟩
        obtain ⟨a, ha, har⟩ := exists_firstOpen (c := c) (d := d + 1) (b := r) (by omega) h4
          (fun x h7 h8 => h5 x (by omega) h8)
        have hle := ha.le
        have hcount : openCount c (Finset.Ioc a r) = n := by
          have := openCount_Ioc_split (c := c) (a := d) (b := a) (e := r) (by omega) har
          rw [openCount_Ioc_first ha] at this
          omega
        have hlt : a < r := by
          rcases eq_or_lt_of_le har with h7 | h7
          · subst h7
            simp [openCount] at hcount; omega
          · exact h7
        exact ⟨a, ⟨h1, by omega, ha⟩, by omega, h2, hlt, h4, fun x h7 h8 => h5 x (by omega) h8,
          hcount⟩

theorem tryDays_one : tryDays 1 = .ok 1 := by decide

/-- `advanceBack` mirrors `advanceFwd`, up to the asymmetry of the representable
range, so its characterisation is proved directly. -/
theorem openCount_Ico_split {a b e : Int} (h1 : a ≤ b) (h2 : b ≤ e) :
    openCount c (Finset.Ico a e) = openCount c (Finset.Ico a b) + openCount c (Finset.Ico b e) := by
  unfold openCount
  rw [← Finset.card_union_of_disjoint]
  · rw [← Finset.filter_union]
    congr 2
    ext x; simp only [Finset.mem_Ico, Finset.mem_union]; omega
  · rw [Finset.disjoint_left]
    intro x hx hy
    simp only [Finset.mem_filter, Finset.mem_Ico] at hx hy
    omega

theorem openCount_Ico_last {d r : Int} (h : LastOpenTo c (d - 1) r) :
    openCount c (Finset.Ico r d) = 1 := by
  unfold openCount
  rw [Finset.card_eq_one]
  refine ⟨r, ?_⟩
  ext x
  simp only [Finset.mem_filter, Finset.mem_Ico, Finset.mem_singleton]
  constructor
  · rintro ⟨⟨h1, h2⟩, h3⟩
    by_contra hne
    have := h.closed x (by omega) (by omega)
    rw [this] at h3; cases h3
  · rintro rfl
    have := h.le
    exact ⟨⟨le_rfl, by omega⟩, h.isOpen⟩

theorem advanceBack_ok (c : Cal) (n : Nat) (hn : 0 < n) (d r : Int) :
    advanceBack c n d = .ok r ↔
      d - 1 ≤ maxDay ∧ minDay ≤ r ∧ r < d ∧ c r = .ok true ∧
      (∀ x, r ≤ x → x < d → c x = .ok true ∨ c x = .ok false) ∧
      openCount c (Finset.Ico r d) = n := by
  induction n generalizing d with
  | zero => omega
  | succ n ih =>
    have hexp : advanceBack c (n + 1) d =
        ((do rollBack c (← subPeriod d (.days 1)) : Outcome Int) >>= fun x => advanceBack c n x) := by
      rw [advanceBack]
      rcases subPeriod d (.days 1) with a | e | _ <;> simp
    rw [hexp, bind_eq_ok]
    simp only [back_step]
    rcases Nat.eq_zero_or_pos n with h0 | h0
    · subst h0
      simp only [advanceBack, ok.injEq]
      constructor
      · rintro ⟨a, ⟨h1, h2, h3⟩, rfl⟩
        have hle := h3.le
        refine ⟨h1, h2, by omega, h3.isOpen, fun x h4 h5 => ?_, by
          rw [openCount_Ico_last h3]⟩
        rcases eq_or_lt_of_le h4 with h6 | h6
        · rw [← h6]; exact Or.inl h3.isOpen
        · exact Or.inr (h3.closed x h6 (by omega))
      · rintro ⟨h1, h2, h3, h4, h5, h6⟩
        refine ⟨r, ⟨h1, h2, ⟨by omega, h4, fun x h7 h8 => ?_⟩⟩, rfl⟩
        rcases h5 x (by omega) (by omega) with h9 | h9
        · exfalso
          unfold openCount at h6
          have : 1 < (Finset.filter (fun x => c x = .ok true) (Finset.Ico r d)).card := by
            rw [Finset.one_lt_card]
            refine ⟨x, ?_, r, ?_, by omega⟩ <;> simp [h9, h4] <;> omega
          omega
        · exact h9
    · simp only [ih h0]
      constructor
      · rintro ⟨a, ⟨h1, h2, h3⟩, h4, h5, h6, h7, h8, h9⟩
        have hle := h3.le
        refine ⟨h1, h5, by omega, h7, fun x h10 h11 => ?_, ?_⟩
        · rcases lt_trichotomy x a with h12 | h12 | h12
          · exact h8 x h10 h12
          · rw [h12]; exact Or.inl h3.isOpen
          · exact Or.inr (h3.closed x h12 (by omega))
        · rw [openCount_Ico_split (b := a) (by omega) (by omega), openCount_Ico_last h3, h9]
      · rintro ⟨h1, h2, h3, h4, h5, h6⟩
        obtain ⟨a, ha, har⟩ := exists_lastOpen (c := c) (d := d - 1) (b := r) (by omega) h4
          (fun x h7 h8 => h5 x h7 (by omega))
        have hle := ha.le
        have hcount : openCount c (Finset.Ico r a) = n := by
          have := openCount_Ico_split (c := c) (a := r) (b := a) (e := d) har (by omega)
          rw [openCount_Ico_last ha] at this
          omega
        have hlt : r < a := by
          rcases eq_or_lt_of_le har with h7 | h7
          · subst h7
            simp [openCount] at hcount; omega
          · exact h7
        exact ⟨a, ⟨h1, by omega, ha⟩, by omega, h2, hlt, h4, fun x h7 h8 => h5 x h7 (by omega),
          hcount⟩

end Verif
