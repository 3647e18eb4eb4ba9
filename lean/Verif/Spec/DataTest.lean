import Verif.Model.ExampleScm

/-!
# Specification vocabulary: the statistics of the responses of the back-door example
-/

namespace Verif
namespace Example

/-- The covariance term `2 Cov(10 X, beta Z)` of the variance of the responses of the back-door example, which `var_y` lacks (C65). -/
noncomputable def backCross (p beta alpha : ℝ) : ℝ := 20 * beta * alpha * (p * (1 - p))

/-- The second moment of the responses of the back-door example. -/
noncomputable def backSecond (p beta alpha : ℝ) : ℝ := (backDoorStats p beta alpha).varY + backCross p beta alpha + (backDoorStats p beta alpha).muY ^ 2

end Example
end Verif
