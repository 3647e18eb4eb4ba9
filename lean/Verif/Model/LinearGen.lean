import Verif.Model.Parameters

/-!
# Model of `LinearDataGenerator` (`data.py` 230-296), of `set_to_truth` (`parameters.py` 264-275, 461-474) and of
`estimate_true_variance` (`test_utils.py` 87-110)

Exact arithmetic.  The global generator is a state `W` with the primitives `gauss` (a standard normal number) and
`unif` (a number of the unit interval); `np.random.binomial(1, q)` is modelled by inversion: 1 when the next uniform
number is below `q`.  `sig` stands for `1 / (1 + np.exp(-x))`.  `beta` and `gamma` are vectors.
-/

namespace Verif
open Param

/-- Numbers from the global generator, and the logistic function. -/
structure Draws (W α : Type) where
  gauss : W → α × W
  unif : W → α × W
  sig : α → α

/-- data.py 249-270: the attributes of a `LinearDataGenerator`. -/
structure LinGen (W α : Type) where
  nFeatures : Nat
  beta : List α
  tau : α
  gamma : List α
  noise : Nat → Py W (List α)

namespace LinGen
variable {W α : Type} [Field α] [LinearOrder α]

/-- data.py 249-270 `LinearDataGenerator.__init__`. -/
def new (nFeatures : Nat) (beta : List α) (tau : α) (noise : Nat → Py W (List α)) (gamma : Option (List α)) :
    Except PyErr (LinGen W α) :=
  match gamma with
  | none => .ok { nFeatures, beta, tau, noise, gamma := List.replicate nFeatures 0 }    -- 262-263
  | some c =>
    if c.length ≠ nFeatures then .error .valueError                                     -- 264-266
    else .ok { nFeatures, beta, tau, noise, gamma := c }                                -- 268

/-- The scalar product of two vectors of equal length. -/
def dot (a b : List α) : α := (List.zipWith (· * ·) a b).sum

/-- `n` successive numbers. -/
def drawN (f : W → α × W) : Nat → W → List α × W
  | 0, w => ([], w)
  | n + 1, w =>
    match f w with
    | (a, w') =>
      match drawN f n w' with
      | (l, w'') => (a :: l, w'')

/-- `np.random.randn(n, k)`, filled row by row. -/
def drawRows (f : W → α × W) (k : Nat) : Nat → W → List (List α) × W
  | 0, w => ([], w)
  | n + 1, w =>
    match drawN f k w with
    | (a, w') =>
      match drawRows f k n w' with
      | (l, w'') => (a :: l, w'')

/-- `np.random.randn(n, k)`. -/
def randn (r : Draws W α) (n k : Nat) : Py W (List (List α)) := fun w =>
  (.ok (drawRows r.gauss k n w).1, (drawRows r.gauss k n w).2)

/-- `np.random.binomial(1, qs)`: `ValueError` if a probability is outside `[0, 1]`. -/
def bernoulli (r : Draws W α) (qs : List α) : Py W (List Int) := fun w =>
  if qs.any fun q => decide (q < 0 ∨ 1 < q) then (.error .valueError, w)
  else (.ok (List.zipWith (fun u q => if u < q then 1 else 0) (drawN r.unif qs.length w).1 qs), (drawN r.unif qs.length w).2)

/-- The sum of two 1-D arrays, with NumPy's broadcasting of arrays of length one. -/
def addArr (a b : List α) : Except PyErr (List α) :=
  if a.length = b.length then .ok (List.zipWith (· + ·) a b)
  else match a, b with
    | [x], b => .ok (b.map (x + ·))
    | a, [y] => .ok (a.map (· + y))
    | _, _ => .error .valueError

/-- data.py 272-284 `LinearDataGenerator.generate`. -/
def generate (r : Draws W α) (g : LinGen W α) (n : Nat) : Py W (ExpData (Cell α)) := do
  let x ← randn r n g.nFeatures                                                         -- 273
  let t ← bernoulli r (x.map fun row => r.sig (dot row g.gamma))                        -- 275-276
  let noise ← g.noise n                                                                 -- 277
  if noise.length ≠ n then Py.raise .valueError                                         -- 279-281
  else if g.beta.length ≠ g.nFeatures then Py.raise .valueError                         -- 283: x.dot(beta)
  else do
    let noise' ← g.noise n                                                              -- 283
    let y ← Py.lift (addArr (List.zipWith (fun row s => dot row g.beta + g.tau * (s : Int)) x t) noise')
    return ExpData.new (some (.d2 g.nFeatures (x.map (·.map .flt)))) (some (t.map .int)) (some (y.map .flt))  -- 284

end LinGen

/-- The objects that can be passed to `set_to_truth`: a `LinearDataGenerator` or another `DataGenerator` (which has no
attribute `tau`). -/
inductive AnyGen (W α : Type)
  | linear (g : LinGen W α)
  | other

/-- An sklearn linear estimator: `coef_`, `intercept_` and everything else. -/
structure LinEst (H α : Type) where
  coef : List α
  intercept : α
  rest : H
  deriving DecidableEq

/-- An sklearn linear estimator with inverse link `link` (the identity for `Ridge`, the logistic function for column 1
of `LogisticRegression.predict_proba`), an arbitrary `fit` and an arbitrary `clone`.  Rows and coefficients of
different lengths raise in sklearn and are not modelled. -/
def LinEst.predictor {H α : Type} [Field α] (link : α → α)
    (fit : LinEst H α → List (List α) → List α → Except PyErr Unit × LinEst H α) (clone : LinEst H α → LinEst H α) : Predictor (LinEst H α) α where
  fit := fit
  predict := fun m row => link ((List.zipWith (· * ·) m.coef row).sum + m.intercept)
  clone := clone

variable {H H' W α : Type}

/-- parameters.py 461-474 `AIPW.set_to_truth`. -/
def AIPW.setToTruth (gen : AnyGen W α) [Field α] : Py (AIPW (LinEst H α) (LinEst H' α) α) Unit :=
  match gen with
  | .other => Py.raise .valueError                                                      -- 469-471
  | .linear g => do
    Py.modify fun s => { s with response := { s.response with coef := g.tau :: g.beta } }        -- 472
    let s ← Py.get
    if g.gamma.length ≠ s.covDim then Py.raise .valueError                              -- 473: reshape
    else Py.modify fun s => { s with propensity := { s.propensity with coef := g.gamma, intercept := 0 } }  -- 473-474

/-- parameters.py 264-275 `LinearParameterBinaryTreatment.set_to_truth`. -/
def BinLin.setToTruth (gen : AnyGen W α) [Field α] : Py (BinLin (LinEst H α) α) Unit :=
  match gen with
  | .other => Py.raise .attributeError                                                  -- 272: data_gen.tau
  | .linear g => Py.modify fun s => { s with
      treat := { s.treat with intercept := g.tau, coef := g.beta }                      -- 272-273
      cont := { s.cont with coef := g.beta, intercept := 0 } }                          -- 274-275

/-- Run a computation on the generator's state, leaving the parameter alone. -/
def onWorld {E A : Type} (m : Py W A) : Py (E × W) A := fun (e, w) => ((m w).1, (e, (m w).2))

/-- Run a computation on the parameter, leaving the generator's state alone. -/
def onEta {E A : Type} (m : Py E A) : Py (E × W) A := fun (e, w) => ((m e).1, ((m e).2, w))

/-- test_utils.py 87-110 `estimate_true_variance`, for an arm with nuisance parameter `E`. -/
def estimateTrueVariance {E β : Type} [Field α] [LinearOrder α] (generate : Nat → Py W (ExpData β)) (setTruth : Py E Unit)
    (score : ExpData β → Py E (List (Fl α))) (n : Nat) : Py (E × W) (Fl α) := do
  let d ← onWorld (generate n)                                                          -- 107
  onEta setTruth                                                                        -- 108
  let s ← onEta (score d)                                                               -- 110
  return Fl.var s

end Verif
