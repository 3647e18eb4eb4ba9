import Verif.Model.SCM

/-!
# Model of `generate_random_nd_function` (`causal_effect_bandits/nonlinear_utils.py` 33-99)

The Gaussian process regressor is abstract: `sample_y` with a given integer `random_state` and `fit` are functions of
their arguments (a new regressor is made for each component).  Arithmetic is exact.
-/

namespace Verif
namespace Nonlinear

/-- What the code uses of `sklearn.gaussian_process.GaussianProcessRegressor(kernel, alpha)`.  `K` is the type of
kernels and `F` of fitted regressors. -/
structure GPLib (K F α : Type) where
  /-- The kernel used when none is given (64-69). -/
  defaultKernel : K
  /-- `GaussianProcessRegressor(kernel, alpha=alpha).sample_y(x, 1, random_state=seed)` -/
  sampleY : K → α → List (List α) → Nat → List α
  /-- `GaussianProcessRegressor(kernel, alpha=alpha)` after `fit(x, y)` -/
  fit : K → α → List (List α) → List α → F
  /-- `predict(x)`, flattened; one number per row -/
  predict : F → List (List α) → List α

section Grid
variable {α : Type} [Field α]

/-- `np.linspace(0, 1, n)`: `n` equally spaced points from 0 to 1, only 0 when `n = 1`. -/
def linspace01 (n : Nat) : List α := (List.range n).map fun i : Nat => (i : α) / ((n - 1 : Nat) : α)

/-- `itertools.product(*[xs] * dim)`. -/
def product (xs : List α) : Nat → List (List α)
  | 0 => [[]]
  | dim + 1 => xs.flatMap fun x => (product xs dim).map (x :: ·)

/-- nonlinear_utils.py 78-80: the design points. -/
def grid (dim n : Nat) (minX maxX : α) : List (List α) :=
  (product (linspace01 n) dim).map fun p => p.map fun t => t * (maxX - minX) + minX

variable {K F W : Type}

/-- nonlinear_utils.py 82-90: the loop over the components.  `seed` is a local variable of the function, assigned
on line 83 when it is `None`. -/
def fitComponents (lib : GPLib K F α) (randint : Nat → W → Nat × W) (kernel : K) (alpha : α) (x : List (List α)) :
    Nat → Option Nat → List F → W → List F × W
  | 0, _, fns, w => (fns, w)
  | k + 1, seed, fns, w =>
    let sw : Nat × W := match seed with
      | some s => (s, w)
      | none => randint 10000 w                                                         -- 85-86
    let y := lib.sampleY kernel alpha x sw.1                                            -- 88
    fitComponents lib randint kernel alpha x k (some sw.1) (fns ++ [lib.fit kernel alpha x y]) sw.2

/-- nonlinear_utils.py 67-90: the list `fns` the returned function uses. -/
def randomFns (lib : GPLib K F α) (randint : Nat → W → Nat × W) (dim outDim : Nat) (kernel : Option K) (minX maxX : α) (n : Nat)
    (seed : Option Nat) (alpha : α) (w : W) : List F × W :=
  fitComponents lib randint (kernel.getD lib.defaultKernel) alpha (grid dim n minX maxX) outDim seed [] w

/-- nonlinear_utils.py 94-101: the returned function, on a 2-D array. -/
def outF (lib : GPLib K F α) (fns : List F) (x : List (List α)) : Except PyErr (Arr α) :=
  SCM.columnStack (fns.map fun f => .d1 (lib.predict f x))

end Grid
end Nonlinear
end Verif
