import Verif.Spec.Parameters
import Mathlib.Analysis.SpecialFunctions.Sigmoid
import Mathlib.Analysis.SpecialFunctions.Log.Basic

/-!
# Specification vocabulary: what the estimators of sklearn compute

`linear_model.Ridge(alpha)` with and without an intercept and `linear_model.LogisticRegression(C=1)` as defined in sklearn's documentation: exact minimisers of
their documented objectives (rounding and the stopping rule of the numerical solver are left out).
-/

namespace Verif

/-- The value of the linear function with coefficients `b` at the row `r`. -/
noncomputable def linearValue {d : ℕ} (b : Fin d → ℝ) (r : List ℝ) : ℝ := ∑ j : Fin d, b j * r.getD j 0

/-- The cross entropy of a label `x` (0 or 1) and a predicted probability `e`. -/
noncomputable def crossEntropy (x e : ℝ) : ℝ := -(x * Real.log e + (1 - x) * Real.log (1 - e))

/-- The objective of `Ridge(alpha, fit_intercept=False)`: squared errors plus the penalty `alpha ‖b‖²`. -/
noncomputable def ridgeObjective {d : ℕ} (alpha : ℝ) (rows : List (List ℝ)) (ys : List ℝ) (b : Fin d → ℝ) : ℝ :=
  ((rows.zip ys).map fun q => (q.2 - linearValue b q.1) ^ 2).sum + alpha * ∑ j, b j ^ 2

/-- The probability predicted by a logistic model with intercept `θ 0`. -/
noncomputable def logisticValue {d : ℕ} (θ : Fin (d + 1) → ℝ) (r : List ℝ) : ℝ := Real.sigmoid (θ 0 + linearValue (fun j => θ j.succ) r)

/-- The objective of `LogisticRegression(C=1)`: cross entropies plus half the squared length of the weights; the intercept `θ 0` is not penalised. -/
noncomputable def logisticObjective {d : ℕ} (rows : List (List ℝ)) (ys : List ℝ) (θ : Fin (d + 1) → ℝ) : ℝ :=
  ((rows.zip ys).map fun q => crossEntropy q.2 (logisticValue θ q.1)).sum + 1 / 2 * ∑ j : Fin d, θ j.succ ^ 2

/-- `R` is a `Ridge(alpha, fit_intercept=False)` in the states `S`: fitting rows of equal positive lengths succeeds, and the fitted model is linear with
coefficients that minimise the objective. -/
def Predictor.IsRidge {M : Type} (R : Predictor M ℝ) (S : M → Prop) (alpha : ℝ) : Prop :=
  ∀ (m : M) (d : ℕ) (rows : List (List ℝ)) (ys : List ℝ), S m → 0 < d → rows ≠ [] → rows.length = ys.length → (∀ r ∈ rows, r.length = d) → ∃ (m' : M) (b : Fin d → ℝ),
    R.fit m rows ys = (.ok (), m') ∧ S m' ∧ (∀ r, r.length = d → R.predict m' r = linearValue b r) ∧
    ∀ c : Fin d → ℝ, ridgeObjective alpha rows ys b ≤ ridgeObjective alpha rows ys c

/-- The value predicted by a linear model with intercept `θ 0`. -/
noncomputable def affineValue {d : ℕ} (θ : Fin (d + 1) → ℝ) (r : List ℝ) : ℝ := θ 0 + linearValue (fun j => θ j.succ) r

/-- The objective of `Ridge(alpha, fit_intercept=True)`: squared errors plus `alpha` times the squared length of the weights; the intercept `θ 0` is not
penalised. -/
noncomputable def ridgeInterceptObjective {d : ℕ} (alpha : ℝ) (rows : List (List ℝ)) (ys : List ℝ) (θ : Fin (d + 1) → ℝ) : ℝ :=
  ((rows.zip ys).map fun q => (q.2 - affineValue θ q.1) ^ 2).sum + alpha * ∑ j : Fin d, θ j.succ ^ 2

/-- `R` is a `Ridge(alpha, fit_intercept=True)` in the states `S`: fitting rows of equal positive lengths succeeds, and the fitted model has an intercept
and weights that minimise the objective. -/
def Predictor.IsRidgeIntercept {M : Type} (R : Predictor M ℝ) (S : M → Prop) (alpha : ℝ) : Prop :=
  ∀ (m : M) (d : ℕ) (rows : List (List ℝ)) (ys : List ℝ), S m → 0 < d → rows ≠ [] → rows.length = ys.length → (∀ r ∈ rows, r.length = d) →
    ∃ (m' : M) (θ : Fin (d + 1) → ℝ),
      R.fit m rows ys = (.ok (), m') ∧ S m' ∧ (∀ r, r.length = d → R.predict m' r = affineValue θ r) ∧
      ∀ t : Fin (d + 1) → ℝ, ridgeInterceptObjective alpha rows ys θ ≤ ridgeInterceptObjective alpha rows ys t

/-- `C` is a `LogisticRegression(C=1)` in the states `S`: fitting rows of equal positive lengths with labels 0 and 1, both of which occur, succeeds, and the fitted
model is logistic with coefficients that minimise the objective. -/
def Predictor.IsLogistic {M : Type} (C : Predictor M ℝ) (S : M → Prop) : Prop :=
  ∀ (m : M) (d : ℕ) (rows : List (List ℝ)) (ys : List ℝ), S m → 0 < d → rows.length = ys.length → (∀ r ∈ rows, r.length = d) → (∀ y ∈ ys, y = 0 ∨ y = 1) → (0 : ℝ) ∈ ys → (1 : ℝ) ∈ ys →
    ∃ (m' : M) (θ : Fin (d + 1) → ℝ), C.fit m rows ys = (.ok (), m') ∧ S m' ∧ (∀ r, r.length = d → C.predict m' r = logisticValue θ r) ∧
    ∀ t : Fin (d + 1) → ℝ, logisticObjective rows ys θ ≤ logisticObjective rows ys t

/-- The parameter has estimators in the states `SR` and `SC` and the given numbers of covariates, of units needed and of overlap. -/
structure AIPW.Regular {M Q : Type} (k : ℕ) (SR : M → Prop) (SC : Q → Prop) (μ : ℤ) (κ : ℝ) (e : AIPW M Q ℝ) : Prop where
  covDim : e.covDim = k
  response : SR e.response
  propensity : SC e.propensity
  minUnits : e.minUnits = μ
  minOverlap : e.minOverlap = κ

end Verif
