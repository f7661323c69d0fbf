import Verif.Model.Calendar
import Mathlib.Data.Real.Basic

/-!
# FX forward points

Model of `FXForwardHelper` (`/repo/src/markets/forex/quotes/forwardpoints.rs` 49-150).
Forward points are real numbers.  `sort_unstable_by_key` and `binary_search_by_key`
of Rust's standard library are represented by their documented contracts
(`SliceOps`): which of several quotes with the same settlement date ends up first, and
which of them the search returns, is left open.
-/

namespace Verif

/-- Result of `slice::binary_search_by_key`. -/
inductive Search where
  | found (i : Nat)
  | missing (i : Nat)

/-- The documented behaviour of the two standard-library calls used by `get_forward`:
`sort_unstable_by_key` returns a permutation in ascending key order;
`binary_search_by_key` on ascending input returns some matching index, or the insertion
point if there is none. -/
structure SliceOps where
  /-- `sort_unstable_by_key(|(d, _)| *d)`. -/
  sort : List (Int × ℝ) → List (Int × ℝ)
  /-- `binary_search_by_key(&t, |(d, _)| *d)`. -/
  search : List (Int × ℝ) → Int → Search
  sort_perm : ∀ l, (sort l).Perm l
  sort_sorted : ∀ l, (sort l).Pairwise fun a b => a.1 ≤ b.1
  search_found : ∀ l t i, (l.Pairwise fun a b => a.1 ≤ b.1) → search l t = .found i →
    ∃ v, l[i]? = some (t, v)
  search_missing : ∀ l t i, (l.Pairwise fun a b => a.1 ≤ b.1) → search l t = .missing i →
    i ≤ l.length ∧ (∀ q ∈ l.take i, q.1 < t) ∧ ∀ q ∈ l.drop i, t < q.1

/-- `FXForwardQuote` (`forwardpoints.rs` 49-53). -/
structure FwdQuote where
  tenor : Period
  value : ℝ

/-- `FXForwardHelper` (`forwardpoints.rs` 55-63) without the observer list and the
unused spot reference. -/
structure FwdHelper where
  valuation : Int
  spotLag : Int
  quotes : List FwdQuote

/-- `FXForwardHelper::new` (`forwardpoints.rs` 67-69): spot lag two. -/
def FwdHelper.new (valuation : Int) (quotes : List FwdQuote) : FwdHelper := ⟨valuation, 2, quotes⟩

/-- The dated quotes (`forwardpoints.rs` 101-114): settlement date by settlement date,
the first failure is returned. -/
noncomputable def datedQuotes (val lag : Int) (c : Cal) : List FwdQuote → Outcome (List (Int × ℝ))
  | [] => .ok []
  | q :: qs => do
    let d ← settlementDateWithLag q.tenor val c lag
    let rest ← datedQuotes val lag c qs
    .ok ((d, q.value) :: rest)

/-- The last part of `get_forward` (`forwardpoints.rs` 121-147): search and linear
interpolation.  An index out of bounds panics. -/
noncomputable def interpolateAt (ops : SliceOps) (l : List (Int × ℝ)) (target : Int) :
    Outcome (Option ℝ) :=
  match ops.search l target with
  | .found i =>
    match l[i]? with
    | some q => .ok (some q.2)
    | none => .panic
  | .missing i =>
    if i = 0 ∨ i = l.length then .ok none
    else
      match l[i - 1]?, l[i]? with
      | some a, some b =>
        let total := b.1 - a.1
        if total = 0 then .ok (some a.2)
        else
          let weight : ℝ := ((target - a.1 : Int) : ℝ) / ((total : Int) : ℝ)
          .ok (some (a.2 + (b.2 - a.2) * weight))
      | _, _ => .panic

/-- `FXForwardHelper::get_forward` (`forwardpoints.rs` 90-148). -/
noncomputable def getForward (ops : SliceOps) (h : FwdHelper) (target : Int) (c : Cal) :
    Outcome (Option ℝ) :=
  if h.valuation ≥ target then .ok none
  else do
    let dated ← datedQuotes h.valuation h.spotLag c h.quotes
    if dated.length < 2 then .ok none
    else interpolateAt ops (ops.sort dated) target

end Verif
