import Verif.Spec.Data
import Verif.Model.Parameters
import Mathlib.Algebra.BigOperators.Group.Finset.Basic
import Mathlib.Algebra.BigOperators.Group.Finset.Piecewise
import Mathlib.Data.Fintype.Basic
import Mathlib.Algebra.BigOperators.Fin

/-!
# Specification vocabulary for nuisance parameters
-/

namespace Verif

/-- One observed unit: covariate row, exposure, response. -/
structure Obs (α : Type) where
  z : List (Cell α)
  x : Cell α
  y : Cell α
  deriving DecidableEq, Repr

namespace Obs
variable {α : Type} [Field α] [LinearOrder α]

/-- Numeric covariates. -/
def zv (u : Obs α) : List α := u.z.map Cell.val
/-- Numeric exposure. -/
def xv (u : Obs α) : α := u.x.val
/-- Numeric response. -/
def yv (u : Obs α) : α := u.y.val

/-- Exposure 0 or 1. -/
def Binary (u : Obs α) : Prop := u.xv = 0 ∨ u.xv = 1

/-- The dataset `ExpData(cov, exp, rsp)` of these units, with a 2-D covariate array of `c` columns. -/
def dataset (c : Nat) (us : List (Obs α)) : ExpData (Cell α) :=
  ExpData.new (some (.d2 c (us.map Obs.z))) (some (us.map Obs.x)) (some (us.map Obs.y))

/-- Number of treated units. -/
def treated (us : List (Obs α)) : Nat := us.countP fun u => decide (u.xv = 1)
/-- Number of control units. -/
def control (us : List (Obs α)) : Nat := us.countP fun u => decide (u.xv = 0)

end Obs

/-- The textbook augmented inverse-propensity score of a unit for an outcome model `mu x z` and a
propensity model `e z`. -/
def aipwScore {α : Type} [Field α] [LinearOrder α] (mu : α → List α → α) (e : List α → α) (u : Obs α) : α :=
  mu 1 u.zv - mu 0 u.zv + (u.yv - mu u.xv u.zv) * (u.xv / e u.zv - (1 - u.xv) / (1 - e u.zv))

/-! ## Weighted finite populations -/

/-- Conditional mean of `f` given `key = k` in the population with weights `w` on the finite set `I`
(zero when the condition has no weight). -/
def condMean {ι K α : Type} [DecidableEq K] [Field α] (I : Finset ι) (w : ι → α) (key : ι → K) (f : ι → α) (k : K) : α :=
  (∑ i ∈ I.filter (fun i => key i = k), w i * f i) / ∑ i ∈ I.filter (fun i => key i = k), w i

end Verif

namespace Verif

/-- What a user can do to a nuisance parameter: fit it on a dataset with `c` covariate columns, or reset it. -/
inductive EtaEvent (α : Type)
  | fit (c : Nat) (us : List (Obs α))
  | reset
  deriving DecidableEq

/-- The parameter after a sequence of events (an exception raised by a fit is caught by the user). -/
def runEvents {E α : Type} [Field α] [LinearOrder α] (fit : ExpData (Cell α) → Py E Unit) (reset : E → E) :
    List (EtaEvent α) → E → E
  | [], e => e
  | .fit c us :: h, e => runEvents fit reset h (fit (Obs.dataset c us) e).2
  | .reset :: h, e => runEvents fit reset h (reset e)

/-- A predictor whose `fit` never raises on non-empty data. -/
def Predictor.Total {M α : Type} (R : Predictor M α) : Prop :=
  ∀ m rows ys, rows ≠ [] → rows.length = ys.length → (R.fit m rows ys).1 = .ok ()

/-- The laws of `sklearn.clone`: it forgets what was learned and keeps the hyperparameters. -/
structure Predictor.CloneLaws {M α : Type} (R : Predictor M α) : Prop where
  fit : ∀ m rows ys, R.clone (R.fit m rows ys).2 = R.clone m
  clone : ∀ m, R.clone (R.clone m) = R.clone m

end Verif

namespace Verif
open Obs

/-- The covariate-adjusted effect in a weighted population of units:
`E_z[ E[Y | X = 1, Z = z] - E[Y | X = 0, Z = z] ]`. -/
def adjustedEffect {n : Nat} {α : Type} [Field α] [LinearOrder α] (w : Fin n → α) (unit : Fin n → Obs α) : α :=
  ∑ i, w i *
    (condMean Finset.univ w (fun j => ((unit j).xv, (unit j).zv)) (fun j => (unit j).yv) (1, (unit i).zv) -
     condMean Finset.univ w (fun j => ((unit j).xv, (unit j).zv)) (fun j => (unit j).yv) (0, (unit i).zv))

/-- `P(X = 1 | Z = z)` in a weighted population of units with binary exposure. -/
def truePropensity {n : Nat} {α : Type} [Field α] [LinearOrder α] (w : Fin n → α) (unit : Fin n → Obs α) (z : List α) : α :=
  condMean Finset.univ w (fun j => (unit j).zv) (fun j => (unit j).xv) z

/-- `E[Y | X = x, Z = z]` in a weighted population of units. -/
def trueResponse {n : Nat} {α : Type} [Field α] [LinearOrder α] (w : Fin n → α) (unit : Fin n → Obs α) (x : α) (z : List α) : α :=
  condMean Finset.univ w (fun j => ((unit j).xv, (unit j).zv)) (fun j => (unit j).yv) (x, z)

end Verif

namespace Verif

/-- The documented front-door score of a unit (parameters.py 692-699): `mu x z` the response model, `q` the
exposure probability, `p1`, `p0`, `px` the probabilities of the unit's covariates given exposure 1, 0 and
its own, `f1 = sum_z' mu(x,z') (P(z'|1) - P(z'|0))` and `f3 = sum_z',x' mu(x',z') P(z|x') P(x')`. -/
def frontDoorScore {α : Type} [Field α] [LinearOrder α] (mu : α → List α → α) (q p1 p0 px f1 f3 : α) (u : Obs α) : α :=
  (u.yv - mu u.xv u.zv) * (p1 - p0) / px + f1 +
    (u.xv / q - (1 - u.xv) / (1 - q)) * ((q * mu 1 u.zv + (1 - q) * mu 0 u.zv) - f3)

end Verif

namespace Verif
open Obs
variable {n : Nat} {α : Type} [Field α] [LinearOrder α]

/-- `P(Z = z | X = x)` in a weighted population of units. -/
def trueCond (w : Fin n → α) (unit : Fin n → Obs α) (x : α) (z : List α) : α :=
  condMean Finset.univ w (fun j => (unit j).xv) (fun j => if (unit j).zv = z then 1 else 0) x

/-- `P(X = 1)` in a population with total weight 1 and binary exposure. -/
def trueExposure (w : Fin n → α) (unit : Fin n → Obs α) : α := ∑ i, w i * (unit i).xv

/-- The values taken by the covariates. -/
def zSupport (unit : Fin n → Obs α) : Finset (List α) := Finset.univ.image fun i => (unit i).zv

/-- The front-door functional `sum_z (P(z|1) - P(z|0)) sum_x' E[Y|x',z] P(x')`: the average causal effect
of `X` on `Y` when `Z` mediates all of it and is unconfounded with `X` and, given `X`, with `Y`. -/
def frontDoorEffect (w : Fin n → α) (unit : Fin n → Obs α) : α :=
  ∑ z ∈ zSupport unit, (trueCond w unit 1 z - trueCond w unit 0 z) *
    (trueExposure w unit * trueResponse w unit 1 z + (1 - trueExposure w unit) * trueResponse w unit 0 z)

end Verif
