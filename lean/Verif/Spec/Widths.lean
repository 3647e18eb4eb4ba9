import Verif.Spec.Parameters
import Mathlib.Analysis.SpecialFunctions.Log.Basic
import Mathlib.Analysis.SpecialFunctions.Sqrt
import Mathlib.LinearAlgebra.Matrix.NonsingularInverse
import Mathlib.LinearAlgebra.Matrix.Charpoly.Basic

/-!
# Specification vocabulary for nuisance widths and ridge regression
-/

namespace Verif

/-- The matrix of second moments `sum_i r_i r_i^T` of rows with `d` columns. -/
def secondMoments {α : Type} [Field α] (rows : List (List α)) (d : Nat) : Matrix (Fin d) (Fin d) α :=
  Matrix.of fun i j => (rows.map fun r => r.getD i 0 * r.getD j 0).sum

/-- The square of the self-normalised radius: `g log( det(g V + rho I) / (rho^d delta^2) )`. -/
noncomputable def selfNormalised {d : Nat} (v : Matrix (Fin d) (Fin d) ℝ) (delta g rho : ℝ) : ℝ :=
  g * Real.log ((g • v + rho • (1 : Matrix (Fin d) (Fin d) ℝ)).det / (rho ^ d * delta ^ 2))

/-- `m` is the smallest eigenvalue of `a`. -/
def IsLeastEigenvalue {d : Nat} (a : Matrix (Fin d) (Fin d) ℝ) (m : ℝ) : Prop :=
  IsLeast {x | ∃ u : Fin d → ℝ, u ≠ 0 ∧ a.mulVec u = x • u} m

/-- The ridge loss of coefficients `b` (first the exposure, then the covariates). -/
def ridgeLoss {α : Type} [Field α] [LinearOrder α] {k : Nat} (us : List (Obs α)) (lam : α) (b : Fin (k + 1) → α) : α :=
  (us.map fun u => (u.yv - (b 0 * u.xv + ∑ j : Fin k, b j.succ * u.zv.getD j 0)) ^ 2).sum + lam * ∑ j, b j ^ 2

end Verif
