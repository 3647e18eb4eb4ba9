import Verif.Spec.Stream
import Mathlib.LinearAlgebra.Matrix.NonsingularInverse

/-!
# Specification vocabulary: least squares in a population
-/

namespace Verif
open MeasureTheory

/-- The regressors of an observed unit: exposure, then covariates. -/
def regressor {k : ℕ} (p : (Fin k → ℝ) × ℝ × ℝ) : Fin (k + 1) → ℝ := Fin.cons p.2.1 p.1

/-- The regressors with a constant in front. -/
def affineRegressor {k : ℕ} (p : (Fin k → ℝ) × ℝ × ℝ) : Fin (k + 2) → ℝ := Fin.cons 1 (regressor p)

section
variable {Ω : Type} [MeasurableSpace Ω] {k : ℕ}

/-- The second moments of the regressors. -/
noncomputable def designMoments (P : Measure Ω) (V : Ω → (Fin k → ℝ) × ℝ × ℝ) : Matrix (Fin (k + 1)) (Fin (k + 1)) ℝ :=
  .of fun i j => ∫ ω, regressor (V ω) i * regressor (V ω) j ∂P

/-- `b` are the coefficients of the least-squares regression of the response on the regressors: the residual is orthogonal to all regressors. -/
def LeastSquares (P : Measure Ω) (V : Ω → (Fin k → ℝ) × ℝ × ℝ) (b : Fin (k + 1) → ℝ) : Prop :=
  ∀ j, ∫ ω, regressor (V ω) j * ((V ω).2.2 - ∑ l, b l * regressor (V ω) l) ∂P = 0

/-- `b` are the intercept and the coefficients of the least-squares regression of the response on the regressors with an intercept. -/
def LeastSquaresIntercept (P : Measure Ω) (V : Ω → (Fin k → ℝ) × ℝ × ℝ) (b : Fin (k + 2) → ℝ) : Prop :=
  ∀ j, ∫ ω, affineRegressor (V ω) j * ((V ω).2.2 - ∑ l, b l * affineRegressor (V ω) l) ∂P = 0

/-- The score of a unit for exact second moments with inverse `M`: entry 0 of `M d y` for regressors `d` and response `y`. -/
noncomputable def regressionScore (M : Matrix (Fin (k + 1)) (Fin (k + 1)) ℝ) (p : (Fin k → ℝ) × ℝ × ℝ) : ℝ :=
  ∑ j, M 0 j * (regressor p j * p.2.2)

end
end Verif
