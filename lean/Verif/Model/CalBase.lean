import Verif.Model.Calendar
import Verif.Model.Easter

/-! # What the shipped calendars have in common

`/repo/src/time/calendars.rs` 160-200: the tuple returned by
`naive_date_to_dkmy`, the weekend test and the Easter lookups. -/

namespace Verif

/-- The tuple `(d, w, m, y, dd)` of `Calendar::naive_date_to_dkmy`
(`calendars.rs` 162-170): day, weekday, month, year, ordinal day. -/
structure DateInfo where
  d : Int
  w : Weekday
  m : Int
  y : Int
  dd : Int
  deriving DecidableEq, Repr

/-- `Calendar::naive_date_to_dkmy` (`calendars.rs` 162-170). -/
def info (date : Int) : DateInfo :=
  ⟨dayOf date, weekdayOf date, monthOf date, yearOf date, ordinal date⟩

/-- `Calendar::is_weekend` (`calendars.rs` 197-200) on the weekday. -/
def Weekday.isWeekend : Weekday → Bool
  | .sat => true
  | .sun => true
  | _ => false

/-- `(a..=b).contains(&x)`. -/
def inRange (a b x : Int) : Bool := decide (a ≤ x) && decide (x ≤ b)

/-- Indexing a static table of day numbers.  The calendars that use it have
already looked up Easter of the same year, so that the index is in range. -/
def tableAt (t : List Int) (i : Int) : Int := t.getD i.toNat 0

/-- A calendar that never looks at the Easter tables. -/
def plainCal (r : DateInfo → Bool) : Cal := fun date => .ok (r (info date))

/-- A calendar that first looks up `self.easter_monday(y)`
(`calendars.rs` 189-191), which panics outside 1901-2199. -/
def easterCal (r : DateInfo → Int → Bool) : Cal := fun date => do
  let em ← easterMonday (yearOf date)
  .ok (r (info date) em)

/-- A calendar that first looks up `self.orthodox_easter_monday(y)`
(`calendars.rs` 193-195). -/
def orthodoxCal (r : DateInfo → Int → Bool) : Cal := fun date => do
  let em ← orthodoxEasterMonday (yearOf date)
  .ok (r (info date) em)

end Verif
