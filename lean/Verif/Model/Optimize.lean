import Verif.Model.Outcome
import Mathlib.Data.Real.Basic
import Mathlib.Data.List.FinRange
import Mathlib.Algebra.Order.Group.Unbundled.Abs

/-!
# Nelder-Mead

Model of `/repo/src/math/optimize.rs` over the reals.  The objective is a pure function to
`Option ℝ`, where `none` stands for NaN.  The `FnMut` objective of the source may carry state;
that is not modelled.
-/

namespace Verif

open Classical Outcome

/-- `NelderMeadOptions` (`optimize.rs` 26-40). -/
structure NmOptions where
  maxIter : Nat
  ftol : ℝ
  xtol : ℝ
  stepFrac : ℝ

/-- `Minimum` (`optimize.rs` 13-22). -/
structure NmResult (n : Nat) where
  x : Fin n → ℝ
  f : ℝ
  iterations : Nat
  converged : Bool

/-- The vectors `simplex` and `values` (`optimize.rs` 62-74). -/
structure NmState (n : Nat) where
  simplex : Fin (n + 1) → Fin n → ℝ
  values : Fin (n + 1) → Option ℝ

/-- Offset of the vertex moved along coordinate `i` (`optimize.rs` 66-70). -/
noncomputable def nmDelta {n : Nat} (o : NmOptions) (x0 : Fin n → ℝ) (i : Fin n) : ℝ :=
  if |x0 i| > 1 / 10 ^ 12 then o.stepFrac * |x0 i| else max o.stepFrac (1 / 10 ^ 4)

/-- The initial simplex (`optimize.rs` 62-73). -/
noncomputable def nmVertices {n : Nat} (o : NmOptions) (x0 : Fin n → ℝ) :
    Fin (n + 1) → Fin n → ℝ :=
  Fin.cases x0 fun i => Function.update x0 i (x0 i + nmDelta o x0 i)

/-- The initial state (`optimize.rs` 62-74). -/
noncomputable def nmInit {n : Nat} (f : (Fin n → ℝ) → Option ℝ) (o : NmOptions)
    (x0 : Fin n → ℝ) : NmState n :=
  ⟨nmVertices o x0, fun i => f (nmVertices o x0 i)⟩

/-- `a < b` on floats: false when either is NaN. -/
def ltNan : Option ℝ → Option ℝ → Prop
  | some a, some b => a < b
  | _, _ => False

/-- `a >= b` on floats: false when either is NaN. -/
def geNan : Option ℝ → Option ℝ → Prop
  | some a, some b => a ≥ b
  | _, _ => False

/-- All values as numbers; `none` if one of them is NaN. -/
noncomputable def nmNumbers {n : Nat} (v : Fin n → Option ℝ) : Option (Fin n → ℝ) :=
  if ∀ i, v i ≠ none then some fun i => (v i).getD 0 else none

/-- `order` (`optimize.rs` 82-83): a stable sort by value. -/
noncomputable def nmOrder {n : Nat} (v : Fin (n + 1) → ℝ) : List (Fin (n + 1)) :=
  (List.finRange (n + 1)).mergeSort fun a b => decide (v a ≤ v b)

/-- Extent of the simplex in coordinate `j` (`optimize.rs` 92-98). -/
noncomputable def nmExtent {n : Nat} (s : Fin (n + 1) → Fin n → ℝ) (order : List (Fin (n + 1)))
    (best : Fin (n + 1)) (j : Fin n) : ℝ :=
  order.foldl (fun hi i => max hi (s i j)) (s best j) -
    order.foldl (fun lo i => min lo (s i j)) (s best j)

/-- `x_spread` (`optimize.rs` 90-100). -/
noncomputable def nmSpread {n : Nat} (s : Fin (n + 1) → Fin n → ℝ) (order : List (Fin (n + 1)))
    (best : Fin (n + 1)) : ℝ :=
  (List.finRange n).foldl (fun m j => max m (nmExtent s order best j)) 0

/-- `centroid` of all but the worst vertex (`optimize.rs` 107-118). -/
noncomputable def nmCentroid {n : Nat} (s : Fin (n + 1) → Fin n → ℝ)
    (order : List (Fin (n + 1))) (j : Fin n) : ℝ :=
  (order.take n).foldl (fun c i => c + s i j) 0 / n

/-- Replace vertex `i` by `x` with value `v` (e.g. `optimize.rs` 127-128). -/
def NmState.set {n : Nat} (s : NmState n) (i : Fin (n + 1)) (x : Fin n → ℝ) (v : Option ℝ) :
    NmState n :=
  ⟨Function.update s.simplex i x, Function.update s.values i v⟩

/-- The shrink loop (`optimize.rs` 159-166). -/
noncomputable def nmShrink {n : Nat} (f : (Fin n → ℝ) → Option ℝ) (best : Fin (n + 1))
    (idxs : List (Fin (n + 1))) (s : NmState n) : NmState n :=
  idxs.foldl (fun s i =>
    let shrunk := fun j => s.simplex best j + 1 / 2 * (s.simplex i j - s.simplex best j)
    s.set i shrunk (f shrunk)) s

/-- One pass of the loop body after the convergence test (`optimize.rs` 107-166). -/
noncomputable def nmMove {n : Nat} (f : (Fin n → ℝ) → Option ℝ) (s : NmState n)
    (order : List (Fin (n + 1))) (best worst second : Fin (n + 1)) : NmState n :=
  let c := nmCentroid s.simplex order
  let xr := fun j => c j + (c j - s.simplex worst j)
  let fr := f xr
  if ltNan fr (s.values second) ∧ geNan fr (s.values best) then s.set worst xr fr
  else if ltNan fr (s.values best) then
    let xe := fun j => c j + 2 * (xr j - c j)
    let fe := f xe
    if ltNan fe fr then s.set worst xe fe else s.set worst xr fr
  else
    let xc := fun j => c j + 1 / 2 * (s.simplex worst j - c j)
    let fc := f xc
    if ltNan fc (s.values worst) then s.set worst xc fc
    else nmShrink f best (order.drop 1) s

/-- The main loop (`optimize.rs` 76-167) with `fuel = max_iter - iteration`.  Sorting at least two
values compares every one of them, so a NaN panics through `partial_cmp().unwrap()`. -/
noncomputable def nmLoop {n : Nat} (f : (Fin n → ℝ) → Option ℝ) (o : NmOptions) :
    Nat → Nat → NmState n → Outcome (NmState n × Nat × Bool)
  | 0, it, s => .ok (s, it, false)
  | fuel + 1, it, s =>
    match nmNumbers s.values with
    | none => .panic
    | some v =>
      let order := nmOrder v
      let best := order.getD 0 0
      let worst := order.getD n 0
      let second := order.getD (n - 1) 0
      if |v worst - v best| < o.ftol ∧ nmSpread s.simplex order best < o.xtol then
        .ok (s, it + 1, true)
      else nmLoop f o fuel (it + 1) (nmMove f s order best worst second)

/-- `min_by` over the vertex indices (`optimize.rs` 169-171): the first minimum. -/
noncomputable def nmArgmin {n : Nat} (v : Fin (n + 1) → ℝ) : Fin (n + 1) :=
  (List.finRange (n + 1)).foldl (fun b i => if v i < v b then i else b) 0

/-- `nelder_mead` (`optimize.rs` 54-178). -/
noncomputable def nelderMead {n : Nat} (f : (Fin n → ℝ) → Option ℝ) (x0 : Fin n → ℝ)
    (o : NmOptions) : Outcome (NmResult n) :=
  if n < 1 then .panic
  else do
    let r ← nmLoop f o o.maxIter 0 (nmInit f o x0)
    match nmNumbers r.1.values with
    | none => .panic
    | some v =>
      let b := nmArgmin v
      .ok ⟨r.1.simplex b, v b, r.2.1, r.2.2⟩

end Verif
