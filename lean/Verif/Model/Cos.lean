import Verif.Model.Outcome
import Mathlib.Analysis.SpecialFunctions.Trigonometric.Basic
import Mathlib.Analysis.SpecialFunctions.Log.Basic
import Mathlib.Analysis.SpecialFunctions.Sqrt

/-!
# The COS pricer

Model of `/repo/src/models/common/cos_pricer.rs` over the real and complex numbers.  A
characteristic function is a value of `ForwardChf`; the three implementations (FX-HHW1,
FX-HLMM1, FX-FMM1) fill in its fields.
-/

namespace Verif

open Classical

/-- The trait `ForwardChf` (`cos_pricer.rs` 29-41): what a characteristic function exposes. -/
structure ForwardChf where
  evaluate : ℂ → ℂ
  expiry : ℝ
  logForward : ℝ
  typicalVariance : ℝ

/-- `CosPricer` (`cos_pricer.rs` 98-104); `lo` and `hi` are the two components of `range`. -/
structure CosPricer where
  chf : ForwardChf
  nTerms : ℕ
  lo : ℝ
  hi : ℝ

/-- `CosPricer::new` (`cos_pricer.rs` 110-121). -/
noncomputable def CosPricer.new (chf : ForwardChf) : CosPricer :=
  let halfWidth := 10 * max √(chf.typicalVariance * chf.expiry) (1 / 10 ^ 6)
  ⟨chf, 128, chf.logForward - halfWidth, chf.logForward + halfWidth⟩

/-- `CosPricer::with_n_terms` (`cos_pricer.rs` 124-128). -/
noncomputable def CosPricer.withNTerms (p : CosPricer) (n : ℕ) : Outcome CosPricer :=
  if 2 ≤ n then .ok { p with nTerms := n } else .panic

/-- `CosPricer::with_range` (`cos_pricer.rs` 131-135). -/
noncomputable def CosPricer.withRange (p : CosPricer) (a b : ℝ) : Outcome CosPricer :=
  if a < b then .ok { p with lo := a, hi := b } else .panic

/-- `chi_k` (`cos_pricer.rs` 185-194). -/
noncomputable def chiK (k : ℕ) (a b c d : ℝ) : ℝ :=
  let width := b - a
  let kPiW := k * Real.pi / width
  let argD := kPiW * (d - a)
  let argC := kPiW * (c - a)
  let denom := 1 + kPiW * kPiW
  let termCos := Real.cos argD * Real.exp d - Real.cos argC * Real.exp c
  let termSin := Real.sin argD * Real.exp d - Real.sin argC * Real.exp c
  (termCos + kPiW * termSin) / denom

/-- `psi_k` (`cos_pricer.rs` 200-207). -/
noncomputable def psiK (k : ℕ) (a b c d : ℝ) : ℝ :=
  if k = 0 then d - c
  else
    let width := b - a
    let kPiW := k * Real.pi / width
    (Real.sin (kPiW * (d - a)) - Real.sin (kPiW * (c - a))) / kPiW

/-- One term of the loop of `price_european` (`cos_pricer.rs` 164-178). -/
noncomputable def CosPricer.term (p : CosPricer) (strike c d : ℝ) (isCall : Bool) (k : ℕ) : ℝ :=
  let width := p.hi - p.lo
  let u := k * Real.pi / width
  let chi := chiK k p.lo p.hi c d
  let psi := psiK k p.lo p.hi c d
  let vk := if isCall then (2 / width) * (chi - strike * psi)
    else (2 / width) * (-chi + strike * psi)
  let phi := p.chf.evaluate (u : ℂ)
  let shift := Complex.exp ⟨0, -u * p.lo⟩
  let weight : ℝ := if k = 0 then 0.5 else 1
  weight * (phi * shift).re * vk

/-- `CosPricer::price_european` (`cos_pricer.rs` 151-181); the assertion is a panic. -/
noncomputable def CosPricer.priceEuropean (p : CosPricer) (strike discount : ℝ) (isCall : Bool) :
    Outcome ℝ :=
  if 0 < strike then
    let logK := Real.log strike
    let c := if isCall then logK else p.lo
    let d := if isCall then p.hi else logK
    .ok (discount * (List.range p.nTerms).foldl (fun t k => t + p.term strike c d isCall k) 0)
  else .panic

/-- `CosPricer::call` (`cos_pricer.rs` 142-144). -/
noncomputable def CosPricer.call (p : CosPricer) (strike discount : ℝ) : Outcome ℝ :=
  p.priceEuropean strike discount true

/-- `CosPricer::put` (`cos_pricer.rs` 147-149). -/
noncomputable def CosPricer.put (p : CosPricer) (strike discount : ℝ) : Outcome ℝ :=
  p.priceEuropean strike discount false

end Verif
