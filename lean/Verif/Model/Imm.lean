import Verif.Model.Calendar

/-!
# IMM dates and codes: `/repo/src/time/imm.rs`

Codes (`String`) are lists of characters; `String::len` is the number of UTF-8
bytes.  The default reference date of `IMM::date` (today's date) is a parameter.
-/

namespace Verif

/-- `IMM::is_imm_date` (`imm.rs` 34-49). -/
def isImmDate (d : Int) (mainCycle : Bool) : Bool :=
  if weekdayOf d ≠ .wed then false
  else if ¬ (15 ≤ dayOf d ∧ dayOf d ≤ 21) then false
  else if ¬ mainCycle then true
  else monthOf d = 3 || monthOf d = 6 || monthOf d = 9 || monthOf d = 12

/-- `String::len`: number of UTF-8 bytes. -/
def byteLen (s : List Char) : Nat := (s.map Char.utf8Size).sum

/-- `str::chars().nth(i).expect(..)`. -/
def nthChar (s : List Char) (i : Nat) : Outcome Char := unwrap s[i]?

/-- `IMM::is_imm_code` (`imm.rs` 52-82). -/
def isImmCode (s : List Char) (mainCycle : Bool) : Outcome Bool := do
  if byteLen s ≠ 2 then .ok false
  else
    let y ← nthChar s 1
    if y ∉ "0123456789".toList then .ok false
    else
      let m ← nthChar s 0
      .ok (m ∈ (if mainCycle then "hmzuHMZU" else "fghjkmnquvxzFGHJKMNQUVXZ").toList)

/-- The variants of `enum IMMMonth` in order (`imm.rs` 10-23), as printed by strum's
`Display`. -/
def immLetters : List Char := ['F', 'G', 'H', 'J', 'K', 'M', 'N', 'Q', 'U', 'V', 'X', 'Z']

/-- `IMM::code` (`imm.rs` 85-97).  `%` is Rust's truncated remainder. -/
def immCode (d : Int) : Outcome (Option (List Char)) :=
  if ¬ isImmDate d false then .ok none
  else do
    let l ← unwrap immLetters[(monthOf d - 1).toNat]?
    .ok (some (l :: (toString ((yearOf d).tmod 10)).toList))

/-- `IMMMonth::from_str(..).unwrap() as u32` (`imm.rs` 107): strum's `EnumString`
accepts exactly the variant names (upper case). -/
def immMonthNum (c : Char) : Outcome Int :=
  if c ∈ immLetters then .ok ((immLetters.idxOf c : Int) + 1) else .panic

/-- `IMM::nth_weekday` (`imm.rs` 149-167); `u32` arithmetic that underflows or
overflows panics. -/
def nthWeekday (nth : Int) (wd : Weekday) (m y : Int) : Outcome (Option Int) :=
  if ¬ (0 ≤ nth ∧ nth ≤ 6) then .ok none
  else do
    let f ← unwrap (fromYmdOpt y m 1)
    let first := weekdayOf f
    let skip := nth - (if wd.num ≥ first.num then 1 else 0)
    if skip < 0 then .panic
    else if 1 + wd.num + skip * 7 - first.num < 0 then .panic
    else .ok (fromYmdOpt y m (1 + wd.num + skip * 7 - first.num))

/-- `IMM::next_date` (`imm.rs` 127-147).  The Rust function is recursive; `none`
means that the recursion has not ended within `fuel` calls. -/
def immNextDate (mainCycle : Bool) : Nat → Int → Option (Outcome Int)
  | 0, _ => none
  | fuel + 1, d =>
    let offset : Int := if mainCycle then 3 else 1
    let skip := offset - monthOf d % offset
    -- `month` and `year` after lines 132-138
    let bump : Bool := (skip ≠ offset ∨ dayOf d > 21) ∧ skip + monthOf d > 12
    let month := if bump then monthOf d - 12 else monthOf d
    let year := if bump then yearOf d + 1 else yearOf d
    -- `month -= 12` on `u32`
    if month < 0 then some .panic
    else
      match nthWeekday 3 .wed month year with
      | .ok (some r) =>
        if r ≤ d then
          match fromYmdOpt year month 22 with
          | some d' => immNextDate mainCycle fuel d'
          | none => some .panic
        else some (.ok r)
      | .ok none => some .panic
      | .fail e => some (.fail e)
      | .panic => some .panic

/-- The value of the decimal digit `c` (`char::to_digit(10).unwrap()`). -/
def toDigit (c : Char) : Outcome Int :=
  if '0' ≤ c ∧ c ≤ '9' then .ok ((c.toNat : Int) - 48) else .panic

/-- `IMM::date` with reference date `ref` (`imm.rs` 100-124); `none` when a call of
`next_date` does not end within `fuel` calls. -/
def immDate (fuel : Nat) (s : List Char) (ref : Int) : Option (Outcome (Option Int)) :=
  match isImmCode s false with
  | .ok false => some (.ok none)
  | .ok true =>
    match (do
        let mc ← nthChar s 0
        let yc ← nthChar s 1
        let y ← toDigit yc
        let m ← immMonthNum mc
        let y := if y = 0 ∧ yearOf ref ≤ 1909 then y + 10 else y
        let y := y + (yearOf ref - (yearOf ref).tmod 10)
        let f ← unwrap (fromYmdOpt y m 1)
        .ok (y, m, f) : Outcome (Int × Int × Int)) with
    | .ok (y, m, f) =>
      match immNextDate false fuel f with
      | some (.ok r) =>
        if r < ref then
          match unwrap (fromYmdOpt (y + 10) m 1) with
          | .ok f' => (immNextDate false fuel f').map (fun o => some <$> o)
          | _ => some .panic
        else some (.ok (some r))
      | some _ => some .panic
      | none => none
    | _ => some .panic
  | _ => some .panic

end Verif
