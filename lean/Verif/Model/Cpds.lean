import Verif.Model.LinearGen
import Verif.Model.SCM

/-!
# Model of the CPD helpers of `causal_effect_bandits/scm.py` (164-308)

Exact arithmetic.  The global generator is a state `W`; `gauss` is a standard normal number, `unif` a number of the unit
interval, `mvn mean cov` one row of `np.random.multivariate_normal(mean, cov, size=n)` (rows are drawn one after the
other).  `np.random.normal(m, s, size=n)` is `m + s * gauss` for `n` successive numbers and `np.random.binomial(1, q)` is
1 when the next uniform number is below `q`.  `sig` stands for `1 / (1 + np.exp(-x))`.

`mean` and `cov` are both scalars (`uni`) or a vector and a matrix (`multi`).  Not modelled (`PyErr.unmodelled`): mixing the
two, NumPy's broadcasting of arrays of length one, and products of 1-D arrays with coefficients of the same length, which
give a number instead of an array.
-/

namespace Verif

/-- Numbers from the global generator, the square root and the logistic function. -/
structure Noise (W α : Type) where
  gauss : W → α × W
  unif : W → α × W
  mvn : List α → List (List α) → W → List α × W
  sqrt : α → α
  sig : α → α

/-- An entry of `betas` or `gammas`: a number, a vector, or a matrix with the given number of columns. -/
inductive Coef (α : Type)
  | num (b : α)
  | vec (b : List α)
  | mat (ncols : Nat) (rows : List (List α))
  deriving DecidableEq

/-- The arguments `mean` and `cov`. -/
inductive NoiseArg (α : Type)
  | uni (mean cov : α)
  | multi (mean : List α) (cov : List (List α))

namespace Cpds
variable {W α : Type} [Field α] [LinearOrder α]

/-- `len(parents[0])`. -/
def nUnits : List (Arr α) → Except PyErr Nat
  | [] => .error .indexError
  | a :: _ => .ok a.len

/-- `l[i]` for a non-negative index. -/
def item {γ : Type} (l : List γ) (i : Nat) : Except PyErr γ :=
  match l[i]? with
  | some x => .ok x
  | none => .error .indexError

/-- Row `r` times the matrix with `k` columns and rows `m`. -/
def rowMat (k : Nat) (m : List (List α)) (r : List α) : List α :=
  (List.range k).map fun j => (List.zipWith (fun a row => a * row.getD j 0) r m).sum

/-- `parent.dot(beta)`. -/
def dotArr : Arr α → Coef α → Except PyErr (Arr α)
  | .d2 d rows, .vec b => if d = b.length then .ok (.d1 (rows.map fun r => LinGen.dot r b)) else .error .valueError
  | .d2 d rows, .mat k m => if d = m.length then .ok (.d2 k (rows.map (rowMat k m))) else .error .valueError
  | .d2 d rows, .num b => .ok (.d2 d (rows.map fun r => r.map (· * b)))
  | .d1 xs, .num b => .ok (.d1 (xs.map (· * b)))
  | .d1 xs, .vec b => if xs.length = b.length then .error .unmodelled else .error .valueError
  | .d1 xs, .mat _ m => if xs.length = m.length then .error .unmodelled else .error .valueError

/-- `a + b` of two arrays of one shape. -/
def addArrs : Arr α → Arr α → Except PyErr (Arr α)
  | .d1 a, .d1 b =>
    if a.length = b.length then .ok (.d1 (List.zipWith (· + ·) a b))
    else if a.length = 1 ∨ b.length = 1 then .error .unmodelled
    else .error .valueError
  | .d2 k a, .d2 k' b =>
    if k = k' ∧ a.length = b.length then .ok (.d2 k (List.zipWith (List.zipWith (· + ·)) a b))
    else if k = 1 ∨ k' = 1 ∨ a.length = 1 ∨ b.length = 1 then .error .unmodelled
    else .error .valueError
  | _, _ => .error .unmodelled

/-- The loops `for i in range(1, len(parents))`: add `term i` for `i` from `i` on, `k` times. -/
def sumFrom (term : Nat → Except PyErr (Arr α)) : Nat → Nat → Arr α → Except PyErr (Arr α)
  | 0, _, acc => .ok acc
  | k + 1, i, acc => do
    let t ← term i
    let acc ← addArrs acc t
    sumFrom term k (i + 1) acc

/-- `parents[i].dot(betas[i])`. -/
def term (parents : List (Arr α)) (betas : List (Coef α)) (i : Nat) : Except PyErr (Arr α) := do
  let p ← item parents i
  let b ← item betas i
  dotArr p b

/-- `np.random.normal(mean, sqrt(cov), size=n)`. -/
def normals (r : Noise W α) (mean cov : α) (n : Nat) (w : W) : List α × W :=
  ((LinGen.drawN r.gauss n w).1.map fun g => mean + r.sqrt cov * g, (LinGen.drawN r.gauss n w).2)

/-- `np.random.multivariate_normal(mean, cov, size=n)`. -/
def mvns (r : Noise W α) (mean : List α) (cov : List (List α)) : Nat → W → List (List α) × W
  | 0, w => ([], w)
  | n + 1, w =>
    match r.mvn mean cov w with
    | (x, w') =>
      match mvns r mean cov n w' with
      | (l, w'') => (x :: l, w'')

/-- `x + np.random.normal(mean, np.sqrt(cov), size=n)` for a 1-D array. -/
def addNormals (r : Noise W α) (x : List α) (mean cov : α) (n : Nat) : Py W (Arr α) := fun w =>
  match normals r mean cov n w with
  | (e, w') => (addArrs (.d1 x) (.d1 e), w')

/-- `x + np.random.multivariate_normal(mean, cov, size=n)`. -/
def addMvns (r : Noise W α) (x : Arr α) (mean : List α) (cov : List (List α)) (n : Nat) : Py W (Arr α) := fun w =>
  match mvns r mean cov n w with
  | (e, w') => (addArrs x (.d2 mean.length e), w')

/-- `x.flatten()`. -/
def flatten : Arr α → List α
  | .d1 xs => xs
  | .d2 _ rows => rows.flatten

/-- scm.py 164-186 `normal_cpd`. -/
def normalCpd (r : Noise W α) (parents : List (Arr α)) (betas : List (Coef α)) (noise : NoiseArg α) : Py W (Arr α) := do
  let n ← Py.lift (nUnits parents)                                                      -- 179
  let t ← Py.lift (term parents betas 0)                                                -- 180
  let total ← Py.lift (sumFrom (term parents betas) (parents.length - 1) 1 t)           -- 181-182
  match total, noise with
  | .d1 x, .uni mean cov => addNormals r x mean cov n                                   -- 183-184
  | .d2 k rows, .multi mean cov => addMvns r (.d2 k rows) mean cov n                    -- 186
  | .d2 _ _, .uni _ _ => Py.raise .valueError                                           -- 186: mean must be 1 dimensional
  | .d1 _, .multi _ _ => Py.raise .unmodelled

/-- scm.py 189-212 `add_gaussian_noise`. -/
def addGaussianNoise (r : Noise W α) (x : Arr α) (noise : NoiseArg α) : Py W (Arr α) :=
  match x, noise with
  | .d1 xs, .uni mean cov => addNormals r xs mean cov xs.length                         -- 204-208
  | .d2 k rows, .uni mean cov =>
    if k = 1 then addNormals r rows.flatten mean cov rows.length                        -- 204-208
    else Py.raise .typeError                                                            -- 210: len(mean)
  | .d1 _, .multi _ _ => Py.raise .unmodelled
  | .d2 k rows, .multi mean cov =>
    if k = 1 then Py.raise .unmodelled
    else if k ≠ mean.length then Py.raise .valueError                                   -- 210-211
    else addMvns r (.d2 k rows) mean cov rows.length                                    -- 212

/-- `fns[i](parents[i].dot(betas[i]))`. -/
def fnTerm (parents : List (Arr α)) (betas : List (Coef α)) (fns : List (Arr α → Except PyErr (Arr α))) (i : Nat) :
    Except PyErr (Arr α) := do
  let f ← item fns i
  let x ← term parents betas i
  f x

/-- scm.py 215-244 `transformed_normal_cpd`. -/
def transformedNormalCpd (r : Noise W α) (parents : List (Arr α)) (betas : List (Coef α))
    (fns : List (Arr α → Except PyErr (Arr α))) (noise : NoiseArg α) : Py W (Arr α) := do
  let n ← Py.lift (nUnits parents)                                                      -- 232
  if parents.length ≠ fns.length then Py.raise .valueError                              -- 233-234
  else do
    let t ← Py.lift (fnTerm parents betas fns 0)                                        -- 235
    let total ← Py.lift (sumFrom (fnTerm parents betas fns) (parents.length - 1) 1 t)   -- 236-237
    match noise with
    | .uni mean cov => addNormals r (flatten total) mean cov n                          -- 240-242
    | .multi mean cov => addMvns r total mean cov n                                     -- 244

/-- scm.py 247-272 `structural_equation_with_noise`. -/
def structuralEquation (r : Noise W α) (parents : List (Arr α)) (f : Arr α → Except PyErr (Arr α)) (noise : NoiseArg α) :
    Py W (Arr α) := do
  let n ← Py.lift (nUnits parents)                                                      -- 267
  let x ← Py.lift (SCM.columnStack parents)                                             -- 268
  let y ← Py.lift (f x)                                                                 -- 268
  match noise with
  | .uni mean cov => addNormals r (flatten y) mean cov n                                -- 269-270
  | .multi mean cov => addMvns r y mean cov n                                           -- 272

/-- `np.random.binomial(1, q)` for each number of an array: `ValueError` if a probability is outside `[0, 1]`. -/
def binomial (r : Noise W α) (qs : List α) : Py W (List α) := fun w =>
  if qs.any fun q => decide (q < 0 ∨ 1 < q) then (.error .valueError, w)
  else (.ok (List.zipWith (fun u q => if u < q then 1 else 0) (LinGen.drawN r.unif qs.length w).1 qs),
    (LinGen.drawN r.unif qs.length w).2)

/-- A number or an array. -/
inductive Val (α : Type)
  | num (x : α)
  | arr (a : Arr α)

/-- scm.py 275-289 `logistic_bernoulli_cpd` for a mapping `f` that returns a number or a 1-D array. -/
def logisticBernoulli (r : Noise W α) (parents : List (Arr α)) (f : List (Arr α) → Except PyErr (Val α)) : Py W (Val α) := do
  let params ← Py.lift (f parents)                                                      -- 287
  match params with
  | .num x => do
    let b ← binomial r [r.sig x]                                                        -- 288-289
    return .num (b.getD 0 0)
  | .arr (.d1 x) => do
    let b ← binomial r (x.map r.sig)                                                    -- 288-289
    return .arr (.d1 b)
  | .arr (.d2 _ _) => Py.raise .unmodelled

/-- scm.py 302-306: the linear function of the parents.  Adding an array to the initial number 0 gives the array. -/
def linearScore (gammas : List (Coef α)) : List (Arr α) → Except PyErr (Val α)
  | [] => .ok (.num 0)                                                                  -- 303
  | p :: ps => do
    let t ← term (p :: ps) gammas 0                                                     -- 305
    let x ← sumFrom (term (p :: ps) gammas) ps.length 1 t                               -- 304-305
    return .arr x

/-- scm.py 292-308 `logistic_linear_bernoulli_cpd`. -/
def logisticLinear (r : Noise W α) (parents : List (Arr α)) (gammas : List (Coef α)) : Py W (Val α) :=
  logisticBernoulli r parents (linearScore gammas)                                      -- 308

end Cpds
end Verif
