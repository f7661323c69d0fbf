import Verif.Model.Date

/-! # The Easter tables of `/repo/src/time/calendars.rs` (lines 8-72)

Transcribed by a script from the Rust source. -/

namespace Verif

/-- `static EASTER_MONDAY: [u32; 299]` (`calendars.rs` 8-39). -/
def easterTable : List Int := [
  98, 90, 103, 95, 114, 106, 91, 111, 102, 87, 107, 99, 83, 103, 95,
  115, 99, 91, 111, 96, 87, 107, 92, 112, 103, 95, 108, 100, 91, 111,
  96, 88, 107, 92, 112, 104, 88, 108, 100, 85, 104, 96, 116, 101, 92,
  112, 97, 89, 108, 100, 85, 105, 96, 109, 101, 93, 112, 97, 89, 109,
  93, 113, 105, 90, 109, 101, 86, 106, 97, 89, 102, 94, 113, 105, 90,
  110, 101, 86, 106, 98, 110, 102, 94, 114, 98, 90, 110, 95, 86, 106,
  91, 111, 102, 94, 107, 99, 90, 103, 95, 115, 106, 91, 111, 103, 87,
  107, 99, 84, 103, 95, 115, 100, 91, 111, 96, 88, 107, 92, 112, 104,
  95, 108, 100, 92, 111, 96, 88, 108, 92, 112, 104, 89, 108, 100, 85,
  105, 96, 116, 101, 93, 112, 97, 89, 109, 100, 85, 105, 97, 109, 101,
  93, 113, 97, 89, 109, 94, 113, 105, 90, 110, 101, 86, 106, 98, 89,
  102, 94, 114, 105, 90, 110, 102, 86, 106, 98, 111, 102, 94, 114, 99,
  90, 110, 95, 87, 106, 91, 111, 103, 94, 107, 99, 91, 103, 95, 115,
  107, 91, 111, 103, 88, 108, 100, 85, 105, 96, 109, 101, 93, 112, 97,
  89, 109, 93, 113, 105, 90, 109, 101, 86, 106, 97, 89, 102, 94, 113,
  105, 90, 110, 101, 86, 106, 98, 110, 102, 94, 114, 98, 90, 110, 95,
  86, 106, 91, 111, 102, 94, 107, 99, 90, 103, 95, 115, 106, 91, 111,
  103, 87, 107, 99, 84, 103, 95, 115, 100, 91, 111, 96, 88, 107, 92,
  112, 104, 95, 108, 100, 92, 111, 96, 88, 108, 92, 112, 104, 89, 108,
  100, 85, 105, 96, 116, 101, 93, 112, 97, 89, 109, 100, 85, 105]

/-- `static ORTHODOX_EASTER_MONDAY: [u32; 299]` (`calendars.rs` 41-72). -/
def orthodoxTable : List Int := [
  105, 118, 110, 102, 121, 106, 126, 118, 102, 122, 114, 99, 118, 110, 95,
  115, 106, 126, 111, 103, 122, 107, 99, 119, 110, 123, 115, 107, 126, 111,
  103, 123, 107, 99, 119, 104, 123, 115, 100, 120, 111, 96, 116, 108, 127,
  112, 104, 124, 115, 100, 120, 112, 96, 116, 108, 128, 112, 104, 124, 109,
  100, 120, 105, 125, 116, 101, 121, 113, 104, 117, 109, 101, 120, 105, 125,
  117, 101, 121, 113, 98, 117, 109, 129, 114, 105, 125, 110, 102, 121, 106,
  98, 118, 109, 122, 114, 106, 118, 110, 102, 122, 106, 126, 118, 103, 122,
  114, 99, 119, 110, 95, 115, 107, 126, 111, 103, 123, 107, 99, 119, 111,
  123, 115, 107, 127, 111, 103, 123, 108, 99, 119, 104, 124, 115, 100, 120,
  112, 96, 116, 108, 128, 112, 104, 124, 116, 100, 120, 112, 97, 116, 108,
  128, 113, 104, 124, 109, 101, 120, 105, 125, 117, 101, 121, 113, 105, 117,
  109, 101, 121, 105, 125, 110, 102, 121, 113, 98, 118, 109, 129, 114, 106,
  125, 110, 102, 122, 106, 98, 118, 110, 122, 114, 99, 119, 110, 102, 115,
  107, 126, 118, 103, 123, 115, 100, 120, 112, 96, 116, 108, 128, 112, 104,
  124, 109, 100, 120, 105, 125, 116, 108, 121, 113, 104, 124, 109, 101, 120,
  105, 125, 117, 101, 121, 113, 98, 117, 109, 129, 114, 105, 125, 110, 102,
  121, 113, 98, 118, 109, 129, 114, 106, 125, 110, 102, 122, 106, 126, 118,
  103, 122, 114, 99, 119, 110, 102, 115, 107, 126, 111, 103, 123, 114, 99,
  119, 111, 130, 115, 107, 127, 111, 103, 123, 108, 99, 119, 104, 124, 115,
  100, 120, 112, 103, 116, 108, 128, 119, 104, 124, 116, 100, 120, 112]

/-- `TABLE[year as usize - 1901]`: negative years become huge, years before 1901
underflow and years after 2199 are out of bounds; all panic. -/
def tableLookup (t : List Int) (y : Int) : Outcome Int :=
  if y < 1901 then .panic else unwrap t[(y - 1901).toNat]?

/-- `Calendar::easter_monday` (`calendars.rs` 189-191): the ordinal day. -/
def easterMonday (y : Int) : Outcome Int := tableLookup easterTable y

/-- `Calendar::orthodox_easter_monday` (`calendars.rs` 193-195). -/
def orthodoxEasterMonday (y : Int) : Outcome Int := tableLookup orthodoxTable y

end Verif
