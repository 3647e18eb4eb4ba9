import Verif.Spec.Sklearn
import Verif.Spec.Regression

/-!
# Specification vocabulary: logistic regression and adjusted effects in a population
-/

namespace Verif
open MeasureTheory

section
variable {Ω : Type} [MeasurableSpace Ω] {k d : ℕ}

/-- The regressors of the propensity: the constant 1, then the covariates. -/
def withOne (p : (Fin k → ℝ) × ℝ × ℝ) : Fin (k + 1) → ℝ := Fin.cons 1 p.1

/-- No non-trivial linear combination of the variables vanishes almost surely. -/
def Nondegenerate (P : Measure Ω) (w : Ω → Fin d → ℝ) : Prop := ∀ v : Fin d → ℝ, (∀ᵐ ω ∂P, ∑ j, v j * w ω j = 0) → v = 0

/-- No hyperplane separates the exposed from the other units: for every non-trivial affine function of the covariates, exposed units with a negative
value or other units with a positive value have positive probability. -/
def NotSeparable (P : Measure Ω) (V : Ω → (Fin k → ℝ) × ℝ × ℝ) : Prop :=
  ∀ v : Fin (k + 1) → ℝ, v ≠ 0 →
    ¬ ∀ᵐ ω ∂P, ((V ω).2.1 = 1 → 0 ≤ ∑ j, v j * withOne (V ω) j) ∧ ((V ω).2.1 = 0 → ∑ j, v j * withOne (V ω) j ≤ 0)

/-- `θ` are the coefficients of the logistic regression of the exposure on the covariates: the only minimiser of the expected cross entropy. -/
def LogisticRegression (P : Measure Ω) (V : Ω → (Fin k → ℝ) × ℝ × ℝ) (θ : Fin (k + 1) → ℝ) : Prop :=
  ∀ t : Fin (k + 1) → ℝ, t ≠ θ →
    ∫ ω, crossEntropy (V ω).2.1 (Real.sigmoid (∑ j, θ j * withOne (V ω) j)) ∂P < ∫ ω, crossEntropy (V ω).2.1 (Real.sigmoid (∑ j, t j * withOne (V ω) j)) ∂P

/-- The conditional mean of the response given exposure and covariates is `m`. -/
def ResponseMean (P : Measure Ω) (V : Ω → (Fin k → ℝ) × ℝ × ℝ) (m : ℝ → (Fin k → ℝ) → ℝ) : Prop :=
  P[fun ω => (V ω).2.2 | MeasurableSpace.comap (fun ω => ((V ω).2.1, (V ω).1)) inferInstance] =ᵐ[P] fun ω => m (V ω).2.1 (V ω).1

/-- The conditional probability of exposure given the covariates is `e`. -/
def PropensityIs (P : Measure Ω) (V : Ω → (Fin k → ℝ) × ℝ × ℝ) (e : (Fin k → ℝ) → ℝ) : Prop :=
  P[fun ω => (V ω).2.1 | MeasurableSpace.comap (fun ω => (V ω).1) inferInstance] =ᵐ[P] fun ω => e (V ω).1

end
end Verif
