import Verif.Spec.Numbers
import Verif.Spec.Sklearn
import Verif.Model.PaperBandits

/-!
# Specification vocabulary: the arms of a bandit on the data of the back-door example
-/

namespace Verif
namespace Example
variable {M Q : Type}

/-- An unused sample-splitting arm that is shown the data as it is, with CLT or CHI2 intervals and a `LinearRegressionParameter` with positive `l_reg` or an AIPW parameter with `min_unique_units` `μ` and
`min_overlap` `κ`. -/
def BackDoorArm (SR : M → Prop) (SC : Q → Prop) (μ : ℤ) (κ : ℝ) (cfg : SSConfig (Cell ℝ) ℝ) (s : ArmState (LinReg 1 ℝ ⊕ AIPW M Q ℝ) (Cell ℝ) ℝ) : Prop :=
  (cfg.alg = .clt ∨ cfg.alg = .chi2) ∧ cfg.stable = true ∧ cfg.transform = ExpData.identityFn ∧ s.split = none ∧ s.numPulled = 0 ∧
    match s.eta with
    | .inl e => 0 < e.lReg
    | .inr e => AIPW.Regular 1 SR SC μ κ e

/-- The asymptotic variance of the estimate of an arm in the back-door example. -/
noncomputable def armVariance (p beta alpha : ℝ) : LinReg 1 ℝ ⊕ AIPW M Q ℝ → ℝ
  | .inl _ => regressionVariance p beta alpha
  | .inr _ => aipwVariance p alpha

end Example
end Verif
