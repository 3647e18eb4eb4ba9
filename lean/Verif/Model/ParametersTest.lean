import Verif.Model.ExampleScm2
import Verif.Model.LinearGen

/-!
# Model of the project's tests of nuisance parameters, `causal_effect_bandits/parameters_test.py`

A test returns `true` if it passes and `false` if one of its assertions fails (`AssertionError`, raised by `np.testing.assert_allclose`); assertions have no
effects, so that evaluating all of them instead of stopping at the first that fails makes no difference.  `np.random.seed(0)` is not modelled: the state of
the generator is an argument, and so is the number `n` of units (100000 in the tests).
-/

namespace Verif
namespace ParametersTest

/-- `np.testing.assert_allclose(actual, desired, rtol, atol)` for two numbers. -/
noncomputable def close (actual desired rtol atol : ℝ) : Bool := decide (|actual - desired| ≤ atol + rtol * |desired|)

/-- The same for two vectors (vectors of different lengths fail). -/
noncomputable def allClose (actual desired : List ℝ) (rtol atol : ℝ) : Bool :=
  actual.length == desired.length && (List.zipWith (fun x y => close x y rtol atol) actual desired).all id

variable {M W : Type}

/-- parameters_test.py 53-60: a probability of the table for `x` and `z`, which is compared with `desired`; reading may insert keys.  The arrays of
integers `one` and `zero` of length one are looked up by their entries (49-50). -/
noncomputable def checkCell (x z : Int) (desired : ℝ) : Py (FrontDoor M ℝ) Bool := do
  let v ← FrontDoor.look [Cell.int x] [[Cell.int z]]
  return allClose v [desired] (1 / 10) 0

/-- parameters_test.py 43-72: the assertions about a front-door parameter; 43: `tol = .1`. -/
noncomputable def frontDoorChecks (R : Predictor M ℝ) (F : Example.FrontDoorReturn W) : Py (FrontDoor M ℝ) Bool := do
  let s ← Py.get
  let c0 := close s.expProb F.stats.muX (1 / 10 * F.stats.muX) 0                        -- 51-52
  let c1 ← checkCell 1 1 (Example.g F.beta)                                             -- 53-54
  let c2 ← checkCell 1 0 (1 - Example.g F.beta)                                         -- 55-56
  let c3 ← checkCell 0 1 (1 / 2)                                                        -- 57-58
  let c4 ← checkCell 0 0 (1 / 2)                                                        -- 59-60
  let y ← Py.lift (R.predictRows s.yResponse [[0, 0], [0, 1], [1, 0], [1, 1]])          -- 63-68
  let c5 := allClose y [0, F.gamma, F.alpha2 * F.stats.muU, F.gamma + F.alpha2] (1 / 10 ^ 7) (1 / 5)   -- 62, 68-72: `rtol` has its default
  return c0 && c1 && c2 && c3 && c4 && c5

/-- parameters_test.py 30-72 `test_frontdoorlinearfinitez`; `ridge0` is the new `Ridge(alpha=1.0, fit_intercept=True)` of the parameter, whose constructor
has the defaults `min_units=5` and `min_overlap=.05`. -/
noncomputable def testFrontDoor (r : Example.Rng W) (R : Predictor M ℝ) (ridge0 : M) (n : Nat) : Py W Bool := do
  let F ← (Example.frontDoor r : Py W (Example.FrontDoorReturn W))                      -- 33
  let d ← Example.generate F.scm n                                                      -- 40
  let d' ← Py.lift (ExpData.removeCoord 0 d)                                            -- 41
  Py.lift ((do FrontDoor.fit R d'; frontDoorChecks R F : Py (FrontDoor M ℝ) Bool)
    (FrontDoor.new ridge0 1 5 (1 / 20) 5)).1                                            -- 36-37, 41-72

variable {H M' : Type}

/-- parameters_test.py 74-87 `test_AIPWLinearLogistic`; `ridge0` and `logistic0` are the new `Ridge(alpha=1.0, fit_intercept=False)` and
`LogisticRegression(warm_start=True)` of the parameter, whose constructor has the defaults `min_units=5` and `min_overlap=.05`.  The response is a ridge
regression, so that `get_response_parameters` returns its coefficients and its intercept (parameters.py 499-503). -/
noncomputable def testAipw (r : Example.Rng W) (R : Predictor (LinEst H ℝ) ℝ) (C : Predictor M' ℝ) (ridge0 : LinEst H ℝ) (logistic0 : M') (n : Nat) : Py W Bool := do
  let F ← (Example.backDoor r : Py W (Example.BackDoorReturn W))                        -- 77
  let d ← Example.generate F.scm n                                                      -- 83
  let c ← Py.lift ((do AIPW.fit R C d; let s ← Py.get; return s.response.coef : Py (AIPW (LinEst H ℝ) M' ℝ) (List ℝ))
    (AIPW.new 1 ridge0 logistic0 5 (1 / 20))).1                                         -- 80, 84
  return allClose c [F.stats.tau, F.beta] (1 / 10) 0                                    -- 86-87

end ParametersTest
end Verif
