import Verif.Spec.LinearGen
import Verif.Model.Cpds

/-!
# Specification vocabulary for structural equations
-/

namespace Verif
namespace Cpds
variable {W α : Type} [Field α]

/-- The values of one unit (a 1-D array has one value per unit). -/
def rowAt (a : Arr α) (j : Nat) : List α := (a.row? j).getD []

/-- What a parent with its coefficient contributes to a scalar equation for unit `j`. -/
def scalarTerm (j : Nat) : Arr α × Coef α → α
  | (a, .vec b) => ∑ i : Fin b.length, (rowAt a j).getD i 0 * b.getD i 0
  | (a, .num b) => (rowAt a j).getD 0 0 * b
  | (_, .mat _ _) => 0

/-- A parent of `n` units and a coefficient of matching shape, for a scalar equation. -/
def ScalarFit (n : Nat) : Arr α × Coef α → Prop
  | (.d2 d rows, .vec b) => rows.length = n ∧ (∀ r ∈ rows, r.length = d) ∧ b.length = d
  | (.d1 xs, .num _) => xs.length = n
  | _ => False

/-- What a parent with its coefficient contributes to component `l` of a vector equation for unit `j`. -/
def vectorTerm (j l : Nat) : Arr α × Coef α → α
  | (a, .mat _ m) => ∑ i : Fin m.length, (rowAt a j).getD i 0 * (m.getD i []).getD l 0
  | (a, .num b) => (rowAt a j).getD l 0 * b
  | (_, .vec _) => 0

/-- A parent of `n` units and a coefficient of matching shape, for an equation with `k` components. -/
def VectorFit (n k : Nat) : Arr α × Coef α → Prop
  | (.d2 d rows, .mat c m) => rows.length = n ∧ (∀ r ∈ rows, r.length = d) ∧ m.length = d ∧ c = k
  | (.d2 d rows, .num _) => rows.length = n ∧ (∀ r ∈ rows, r.length = d) ∧ d = k
  | _ => False

/-- Noise number `j` of a normal variable with the given mean and variance, for a generator in state `w`. -/
def noiseAt (r : Noise W α) (mean cov : α) (w : W) (j : Nat) : α := mean + r.sqrt cov * nthDraw r.gauss w j

/-- A function applied to every number of an array (a NumPy ufunc). -/
def elementwise (φ : α → α) : Arr α → Except PyErr (Arr α)
  | .d1 xs => .ok (.d1 (xs.map φ))
  | .d2 k rows => .ok (.d2 k (rows.map (·.map φ)))

/-- A function applied to every row of a 2-D array, giving rows of length `k`. -/
def rowwise (k : Nat) (g : List α → List α) : Arr α → Except PyErr (Arr α)
  | .d1 _ => .error .valueError
  | .d2 _ rows => .ok (.d2 k (rows.map g))

end Cpds
end Verif
