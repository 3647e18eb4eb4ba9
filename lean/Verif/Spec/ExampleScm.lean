import Mathlib.Probability.Distributions.Gaussian.Real
import Mathlib.MeasureTheory.Integral.IntervalIntegral.Basic
import Mathlib.Analysis.SpecialFunctions.Exp

/-!
# Specification vocabulary for the example SCMs: the law of one unit

A unit is a function of independent uniform numbers, one per binary variable, and of a standard normal number.
-/

namespace Verif
namespace Example
open MeasureTheory ProbabilityTheory

/-- A binary variable that is 1 with probability `q`, as a function of a uniform number. -/
noncomputable def bit (q u : ℝ) : ℝ := if u < q then 1 else 0

/-- Expectation over two uniform numbers and a normal one. -/
noncomputable def E2 (f : ℝ → ℝ → ℝ → ℝ) : ℝ :=
  ∫ u in (0 : ℝ)..1, ∫ v in (0 : ℝ)..1, ∫ e, f u v e ∂gaussianReal 0 1

/-- Variance over two uniform numbers and a normal one. -/
noncomputable def V2 (f : ℝ → ℝ → ℝ → ℝ) : ℝ := E2 fun u v e => (f u v e - E2 f) ^ 2

/-- Expectation over three uniform numbers and a normal one. -/
noncomputable def E3 (f : ℝ → ℝ → ℝ → ℝ → ℝ) : ℝ :=
  ∫ u in (0 : ℝ)..1, ∫ v in (0 : ℝ)..1, ∫ t in (0 : ℝ)..1, ∫ e, f u v t e ∂gaussianReal 0 1

/-- Variance over three uniform numbers and a normal one. -/
noncomputable def V3 (f : ℝ → ℝ → ℝ → ℝ → ℝ) : ℝ := E3 fun u v t e => (f u v t e - E3 f) ^ 2

/-- The logistic function. -/
noncomputable def logistic (x : ℝ) : ℝ := 1 / (1 + Real.exp (-x))

/-! ## One unit of each example, as a function of its random numbers -/

/-- `Z` of a unit of the back-door example. -/
noncomputable def bZ (p u : ℝ) : ℝ := bit p u
/-- `X` of a unit of the back-door example. -/
noncomputable def bX (p alpha u v : ℝ) : ℝ := bit (1 / 2 + alpha * bZ p u) v
/-- `Y` of a unit of the back-door example with exposure `x`. -/
noncomputable def bY (p beta u x e : ℝ) : ℝ := 10 * x + beta * bZ p u + e

/-- `U` of a unit of the front-door example. -/
noncomputable def fU (p u : ℝ) : ℝ := bit p u
/-- `X` of a unit of the front-door example. -/
noncomputable def fX (p alpha1 u v : ℝ) : ℝ := bit (logistic (alpha1 * fU p u)) v
/-- `Z` of a unit of the front-door example with exposure `x`. -/
noncomputable def fZ (beta x t : ℝ) : ℝ := bit (logistic (beta * x)) t
/-- `Y` of a unit of the front-door example. -/
noncomputable def fY (p gamma alpha2 u z e : ℝ) : ℝ := gamma * z + alpha2 * fU p u + e

end Example
end Verif
