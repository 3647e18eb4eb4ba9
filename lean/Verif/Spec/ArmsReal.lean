import Mathlib.Analysis.Real.Sqrt
import Mathlib.Analysis.SpecialFunctions.Log.Basic

/-!
# The finite-sample width as a formula

Written from the formula on arms.py 272-275, on real numbers.
-/

namespace Verif

/-- The quantity under the square root on arms.py 275. -/
noncomputable def fsInner (g m δ : ℝ) (n : ℕ) : ℝ :=
  2 * Real.log (max g (8 * g ^ 2) * n / m) / n + 1 / 2 + Real.log (4 / δ)

/-- The statistical part of the half-width (arms.py 273-275), without the nuisance width. -/
noncomputable def fsHalfWidth (g τ m δ : ℝ) (n : ℕ) : ℝ :=
  5 / 8 * (Real.sqrt (2 * g) + τ) * (Real.sqrt (fsInner g m δ n) / Real.sqrt n)

/-- Arithmetic mean of a finite sample. -/
noncomputable def pmean (xs : List ℝ) : ℝ := xs.sum / xs.length

/-- Population variance of a finite sample. -/
noncomputable def pvar (xs : List ℝ) : ℝ := pmean (xs.map fun x => (x - pmean xs) ^ 2)

/-- The squared deviations of a sample from its mean. -/
noncomputable def sqDevs (xs : List ℝ) : List ℝ := xs.map fun x => (x - pmean xs) ^ 2

/-- The standard error used by the CLT interval (arms.py 251-256): of the mean squared deviation of
`xs` seen as the mean of `n` observations. -/
noncomputable def cltSe (xs : List ℝ) (n : ℕ) : ℝ := Real.sqrt (pvar (sqDevs xs) / n)

end Verif
