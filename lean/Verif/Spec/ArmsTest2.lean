import Verif.Spec.ParametersTest

/-!
# Specification vocabulary: the variance of the front-door score on the data of the front-door example
-/

namespace Verif
namespace Example

/-- The mean of `A u x z` over the confounder, the exposure and the mediator of a unit: the confounder is 1 with probability `p`, the exposure with probability
`logistic alpha1` or 1/2, depending on the confounder, and the mediator with probability `logistic beta` or 1/2, depending on the exposure. -/
noncomputable def frontMean (p beta alpha1 : ℝ) (A : ℝ → ℝ → ℝ → ℝ) : ℝ :=
  p * (logistic alpha1 * (logistic beta * A 1 1 1 + (1 - logistic beta) * A 1 1 0) + (1 - logistic alpha1) * (1 / 2 * A 1 0 1 + 1 / 2 * A 1 0 0)) +
    (1 - p) * (1 / 2 * (logistic beta * A 0 1 1 + (1 - logistic beta) * A 0 1 0) + 1 / 2 * (1 / 2 * A 0 0 1 + 1 / 2 * A 0 0 0))

/-- The probability of the mediator `z` for the exposure `x`. -/
noncomputable def frontCond (beta x z : ℝ) : ℝ := if x = 1 then (if z = 1 then logistic beta else 1 - logistic beta) else 1 / 2

/-- The score of `parameters.py` of a unit with the given confounder, exposure, mediator and noise, for the response function `mu` and the true values of the other
nuisance parameters. -/
noncomputable def frontScore (p beta gamma alpha1 alpha2 : ℝ) (mu : ℝ → ℝ → ℝ) (u x z noise : ℝ) : ℝ :=
  frontDoorPoint (1 / 20) (p * logistic alpha1 + (1 - p) / 2) mu (frontCond beta) {0, 1} (fun _ => z, x, gamma * z + alpha2 * u + noise)

/-- The variance of this score, if the noise is standard normal: the score is an affine function of the noise. -/
noncomputable def frontVariance (p beta gamma alpha1 alpha2 : ℝ) (mu : ℝ → ℝ → ℝ) : ℝ :=
  frontMean p beta alpha1 (fun u x z => frontScore p beta gamma alpha1 alpha2 mu u x z 0 ^ 2 +
    (frontScore p beta gamma alpha1 alpha2 mu u x z 1 - frontScore p beta gamma alpha1 alpha2 mu u x z 0) ^ 2) -
    frontMean p beta alpha1 (fun u x z => frontScore p beta gamma alpha1 alpha2 mu u x z 0) ^ 2

/-- The mean of the response of the units with exposure `x` and mediator `z`. -/
noncomputable def trueResponse (p gamma alpha1 alpha2 x z : ℝ) : ℝ :=
  alpha2 * (unexposedMean p alpha1 + (exposedMean p alpha1 - unexposedMean p alpha1) * x) + gamma * z

/-- The response function with the coefficients that `test_frontdoor_arm` calls true. -/
def testResponse (p gamma alpha2 x z : ℝ) : ℝ := alpha2 * p + alpha2 * x + gamma * z

end Example
end Verif
