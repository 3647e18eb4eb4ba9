import Verif.Model.Arms
import Mathlib.Probability.CDF
import Mathlib.Probability.Distributions.Gaussian.Real
import Mathlib.Probability.Distributions.Gamma
import Mathlib.Analysis.SpecialFunctions.Log.Basic

/-!
# The library functions over the real numbers

The idealised `np.sqrt`, `np.log`, `scipy.stats.norm.ppf` and `scipy.stats.chi2.ppf`: exact real functions,
with the NumPy conventions outside their domains.
-/

namespace Verif

open MeasureTheory ProbabilityTheory

/-- `np.sqrt`: NaN on negative numbers. -/
noncomputable def Fl.realSqrt : Fl ℝ → Fl ℝ
  | .fin a => if a < 0 then .nan else .fin (Real.sqrt a)
  | .pinf => .pinf
  | _ => .nan

/-- `np.log`: `-inf` at zero, NaN on negative numbers. -/
noncomputable def Fl.realLog : Fl ℝ → Fl ℝ
  | .fin a => if a < 0 then .nan else if a = 0 then .ninf else .fin (Real.log a)
  | .pinf => .pinf
  | _ => .nan

/-- The quantile function of a probability measure on the line. -/
noncomputable def quantile (μ : Measure ℝ) (p : ℝ) : ℝ := sInf {x | p ≤ cdf μ x}

/-- `dist.ppf(p)` for a distribution with law `μ` (only interior levels are used by the code; the
end points and levels outside `[0, 1]` are mapped to NaN). -/
noncomputable def Fl.ppf (μ : Measure ℝ) : Fl ℝ → Fl ℝ
  | .fin p => if 0 < p ∧ p < 1 then .fin (quantile μ p) else .nan
  | _ => .nan

/-- Exact real arithmetic versions of the library functions; `chi2.ppf` with `df` degrees of freedom is
the quantile of the Gamma(df/2, rate 1/2) law, NaN for `df ≤ 0`. -/
noncomputable def realLib : Libm ℝ where
  sqrt := Fl.realSqrt
  log := Fl.realLog
  normPpf := Fl.ppf (gaussianReal 0 1)
  chi2Ppf := fun q df => if 0 < df then Fl.ppf (gammaMeasure ((df : ℝ) / 2) (1 / 2)) q else .nan

end Verif
