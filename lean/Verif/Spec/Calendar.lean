import Verif.Model.Calendar
import Mathlib.Order.Bounds.Basic
import Mathlib.Data.Finset.Card
import Mathlib.Order.Interval.Finset.Basic
import Mathlib.Data.Int.Interval

/-!
# Specifications for the calendar algorithms

Written in terms of the calendar's answers only; none of the loops of the model
are used here.
-/

namespace Verif

/-- `r` is the first open day on or after `d`, and every day before it (from `d`
on) is known to be closed. -/
structure FirstOpenFrom (c : Cal) (d r : Int) : Prop where
  le : d ≤ r
  isOpen : c r = .ok true
  closed : ∀ x, d ≤ x → x < r → c x = .ok false

/-- `r` is the last open day on or before `d`, and every day after it (up to `d`)
is known to be closed. -/
structure LastOpenTo (c : Cal) (d r : Int) : Prop where
  le : r ≤ d
  isOpen : c r = .ok true
  closed : ∀ x, r < x → x ≤ d → c x = .ok false

/-- Every representable day can be classified (no panic). -/
def Total (c : Cal) : Prop := ∀ x, Valid x → c x = .ok true ∨ c x = .ok false

/-- Same calendar month of the same year. -/
def SameMonth (a b : Int) : Prop := yearOf a = yearOf b ∧ monthOf a = monthOf b

/-- Number of open days in a finite set of days. -/
def openCount (c : Cal) (s : Finset Int) : Nat := (s.filter (fun x => c x = .ok true)).card

end Verif

namespace Verif

/-- Every day from `a` to `b` can be classified. -/
def ClassifiedOn (c : Cal) (a b : Int) : Prop :=
  ∀ x, a ≤ x → x ≤ b → c x = .ok true ∨ c x = .ok false

/-- `r` is the last open day of the month of `d`. -/
structure LastOpenOfMonth (c : Cal) (d r : Int) : Prop where
  sameMonth : SameMonth r d
  isOpen : c r = .ok true
  greatest : ∀ x, SameMonth x d → c x = .ok true → x ≤ r

/-- `r` is the first open day of the month of `d`. -/
structure FirstOpenOfMonth (c : Cal) (d r : Int) : Prop where
  sameMonth : SameMonth r d
  isOpen : c r = .ok true
  least : ∀ x, SameMonth x d → c x = .ok true → r ≤ x

/-- `u` is `k` calendar months after `d`, with the day of the month clamped to
the length of the target month. -/
structure MonthsLater (d : Int) (k : Int) (u : Int) : Prop where
  month : yearOf u * 12 + monthOf u = yearOf d * 12 + monthOf d + k
  day : dayOf u = min (dayOf d) (monthLen (yearOf u) (monthOf u))

end Verif
