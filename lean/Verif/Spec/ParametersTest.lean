import Verif.Spec.FrontDoorLimit

/-!
# Specification vocabulary: the confounder of the front-door example
-/

namespace Verif
namespace Example

/-- The mean of the confounder of the units that are not exposed, if `p` is the probability of the confounder and `logistic alpha1` and 1/2 are the
probabilities of exposure with and without it. -/
noncomputable def unexposedMean (p alpha1 : ℝ) : ℝ := p * (1 - logistic alpha1) / (p * (1 - logistic alpha1) + (1 - p) / 2)

/-- The mean of the confounder of the units that are exposed. -/
noncomputable def exposedMean (p alpha1 : ℝ) : ℝ := p * logistic alpha1 / (p * logistic alpha1 + (1 - p) / 2)

end Example
end Verif
