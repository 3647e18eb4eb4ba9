import Verif.Spec.Regression
import Verif.Spec.Stream
import Verif.Spec.ExampleScm
import Mathlib.MeasureTheory.Integral.Bochner.Basic

/-!
# Specification vocabulary: front-door scores with exact nuisance values
-/

namespace Verif
open MeasureTheory

/-- An observed unit with exposure 0 or 1 and one integer covariate from `S`. -/
def Obs.FiniteZ (S : Finset ℤ) (u : Obs ℝ) : Prop := (u.x = .int 0 ∨ u.x = .int 1) ∧ ∃ a ∈ S, u.z = [.int a]

/-- `p` moved into the interval from `κ` to `1 - κ`. -/
noncomputable def clamp (κ p : ℝ) : ℝ := min (max p κ) (1 - κ)

/-- The conditional probability of covariate `a` given exposure `x`. -/
noncomputable def condProb {Ω : Type} [MeasurableSpace Ω] (P : Measure Ω) (V : Ω → (Fin 1 → ℝ) × ℝ × ℝ) (x a : ℝ) : ℝ :=
  P.real {ω | (V ω).2.1 = x ∧ (V ω).1 0 = a} / P.real {ω | (V ω).2.1 = x}

/-- The response predicted by the regression with intercept `b 0`, for exposure `x` and covariate `a`. -/
def planeValue (b : Fin 3 → ℝ) (x a : ℝ) : ℝ := b 0 + b 1 * x + b 2 * a

/-- The front-door score of a unit as defined by parameters.py 677-831 (with the third term of `f_3` as it is there), for the probability `q` of exposure 1,
the response regression `mu`, the conditional probabilities `c x a`, clamped by `κ`, and the support `S` of the covariate. -/
noncomputable def frontDoorPoint (κ q : ℝ) (mu c : ℝ → ℝ → ℝ) (S : Finset ℤ) (p : (Fin 1 → ℝ) × ℝ × ℝ) : ℝ :=
  (p.2.2 - mu p.2.1 (p.1 0)) * (clamp κ (c 1 (p.1 0)) - clamp κ (c 0 (p.1 0))) / clamp κ (c p.2.1 (p.1 0))
    + ∑ a ∈ S, mu p.2.1 a * (c 1 a - c 0 a)
    + (p.2.1 / q - (1 - p.2.1) / (1 - q)) * (q * mu 1 (p.1 0) + (1 - q) * mu 0 (p.1 0)
      - ∑ a ∈ S, (mu 1 a * q * clamp κ (c 1 (p.1 0)) + mu 0 a * (1 - q) * clamp κ (c 0 (p.1 0))))

/-- The front-door score of a unit of the paper: the last term of `f_3` is the mean over the covariates given the exposure of the unit. -/
noncomputable def frontDoorPaper (q : ℝ) (mu c : ℝ → ℝ → ℝ) (S : Finset ℤ) (p : (Fin 1 → ℝ) × ℝ × ℝ) : ℝ :=
  (p.2.2 - mu p.2.1 (p.1 0)) * (c 1 (p.1 0) - c 0 (p.1 0)) / c p.2.1 (p.1 0)
    + ∑ a ∈ S, mu p.2.1 a * (c 1 a - c 0 a)
    + (p.2.1 / q - (1 - p.2.1) / (1 - q)) * (q * mu 1 (p.1 0) + (1 - q) * mu 0 (p.1 0) - ∑ a ∈ S, (mu 1 a * q + mu 0 a * (1 - q)) * c p.2.1 a)

/-- The score with the exact nuisance values of the distribution of `V`: least-squares coefficients `b`, probability of exposure, conditional
probabilities. -/
noncomputable def frontDoorLimit {Ω : Type} [MeasurableSpace Ω] (P : Measure Ω) (V : Ω → (Fin 1 → ℝ) × ℝ × ℝ) (κ : ℝ) (b : Fin 3 → ℝ) (S : Finset ℤ) :
    (Fin 1 → ℝ) × ℝ × ℝ → ℝ :=
  frontDoorPoint κ (clamp κ (P.real {ω | (V ω).2.1 = 1})) (planeValue b) (condProb P V) S

/-- A front-door parameter with its estimator in the states `SR` and the given settings, whose table has keys of the data. -/
structure FrontDoor.Regular {M : Type} (S : Finset ℤ) (SR : M → Prop) (μ : ℤ) (κ ratio : ℝ) (e : FrontDoor M ℝ) : Prop where
  covDim : e.covDim = 1
  response : SR e.yResponse
  minUnits : e.minUnits = μ
  minOverlap : e.minOverlap = κ
  ratio : e.cpd.ratio = ratio
  xs : ∀ x ∈ e.cpd.xValues, x = .int 0 ∨ x = .int 1
  xnd : e.cpd.xValues.Nodup
  zs : ∀ z ∈ e.cpd.zValues, ∃ a ∈ S, z = [.int a]
  znd : e.cpd.zValues.Nodup
  q : κ ≤ e.expProb ∧ e.expProb ≤ 1 - κ

/-- The limit of the estimates of an arm with a front-door parameter in the front-door example. -/
noncomputable def Example.frontDoorArmLimit (p beta gamma alpha1 alpha2 : ℝ) : ℝ :=
  2 * (gamma * (logistic beta - 1 / 2)) -
    2 * ((p * logistic alpha1 + (1 - p) / 2) * gamma + 2 * alpha2 * p * logistic alpha1) * (logistic beta - 1 / 2) ^ 2

/-- The limit of the estimates of an arm with a linear regression parameter that is shown the confounder in the front-door example: the line has no intercept. -/
noncomputable def Example.confounderRegression (p beta gamma alpha1 : ℝ) : ℝ :=
  gamma * (logistic beta - p * logistic alpha1 * (1 - logistic alpha1) / (p * logistic alpha1 * (1 - logistic alpha1) + (1 - p) / 2) / 2)

end Verif
