import Mathlib.MeasureTheory.Constructions.Pi

/-!
# Chains driven by independent draws
-/

namespace Verif

/-- The state after `n` steps of a chain; step `k` consumes the draw numbered `k`. -/
def chain {S Z : Type} (step : ℕ → S → Z → S) : ℕ → S → (ℕ → Z) → S
  | 0, s, _ => s
  | n + 1, s, z => step n (chain step n s z) (z n)

/-- The first `n` draws of a stream. -/
def firstDraws {Z : Type} [Zero Z] {n : ℕ} (zs : Fin n → Z) (k : ℕ) : Z :=
  if h : k < n then zs ⟨k, h⟩ else 0

/-- The law of `n` independent draws with law `μ`. -/
noncomputable def iidLaw {Z : Type} [MeasurableSpace Z] (μ : MeasureTheory.Measure Z) (n : ℕ) :
    MeasureTheory.Measure (Fin n → Z) :=
  MeasureTheory.Measure.pi fun _ => μ

end Verif
