import Verif.Model.BanditArms
import Verif.Model.ExampleScm2
import Verif.Model.LinearGen
import Verif.Model.ParametersReal
import Verif.Model.RealLib
import Verif.Model.TestUtils

/-!
# Model of the project's tests of arms, `causal_effect_bandits/arms_test.py`

A test returns `true` if it passes and `false` if one of its assertions fails (`AssertionError`).  `np.random.seed(0)` is not modelled: the state of the generator
is an argument.  The loop of `run_single_arm` takes a fuel; the result is `none` if the fuel does not suffice.
-/

namespace Verif
namespace ArmsTest
open TestUtils

/-- The number in an entry of a returned list; `None` cannot be compared. -/
def value : Entry ℝ → Except PyErr (Fl ℝ)
  | .num (some x) => .ok x
  | .num none => .error .typeError
  | .int n => .ok (.fin n)

/-- `np.testing.assert_array_less` at one position: NaN is accepted if both are NaN, and infinity is not less than itself. -/
noncomputable def lessAt (x y : Fl ℝ) : Bool := if x.isNan || y.isNan then x.isNan && y.isNan else x.lt y

/-- `np.testing.assert_array_less` (lists of different lengths fail). -/
noncomputable def arrayLess (xs ys : List (Entry ℝ)) : Except PyErr Bool := do
  let xs ← xs.mapM value
  let ys ← ys.mapM value
  return xs.length == ys.length && (List.zipWith lessAt xs ys).all id

/-- `arm_output[key]`. -/
def lookup (d : Dict String (List (Entry ℝ))) (key : String) : Except PyErr (List (Entry ℝ)) :=
  match d.get? key with
  | none => .error .keyError
  | some l => .ok l

open Classical in
/-- arms_test.py 83-92, 113-122: the assertions about the lists returned by `run_single_arm`. -/
noncomputable def checks (d : Dict String (List (Entry ℝ))) : Except PyErr Bool := do
  let lcbs ← lookup d "LCBs"
  let vars ← lookup d "var_estimates"
  if !(← arrayLess lcbs vars) then return false                                         -- 84-85, 114-115
  let ucbs ← lookup d "UCBs"
  if !(← arrayLess vars ucbs) then return false                                         -- 88-89, 118-119
  let ns ← lookup d "n_samples"
  return decide (ns = (List.range 7).map fun k : Nat => .int (1500 * (k + 1)))          -- 92, 122

/-- arms_test.py 98-107: the arm of `test_back_door_arm`; `stable_splits` and `eta_sub_gscale` have their defaults. -/
noncomputable def backArm : SSConfig (Cell ℝ) ℝ where
  transform := ExpData.identityFn                                                       -- 101
  alg := .finiteSample                                                                  -- 102
  stable := true
  subG := .fin 1                                                                        -- 103
  etaSubG := .fin 1
  tauBound := .fin 10                                                                   -- 104
  burnIn := .fin 1000                                                                   -- 105
  rho := .fin 1                                                                         -- 106

variable {M M' W : Type}

/-- arms_test.py 56-57, 110-111: `run_single_arm(arm, data_gen=scm_gen, max_samples, increment=1500)`; `total_delta` has its default `.05`. -/
noncomputable def runArm {E : Type} (cfg : SSConfig (Cell ℝ) ℝ) (ops : EtaOps E (Cell ℝ) ℝ) (q : Verif.Rng W ℝ) (scm : SCM String ℝ W) (maxSamples : ℤ) (fuel : Nat) :
    Py (ArmState E (Cell ℝ) ℝ × W) (Option (Dict String (List (Entry ℝ)))) :=
  runSingleArm (ssArmOps cfg ops realLib q (.fin 1)) (fun s => s.ate) (Example.generate scm) maxSamples 1500 (.fin (1 / 20)) fuel

/-- arms_test.py 94-122 `test_back_door_arm`; `ridge0` and `logistic0` are the new estimators of the AIPW parameter, whose constructor has the defaults `min_units=5` and
`min_overlap=.05`. -/
noncomputable def testBackDoor (r : Example.Rng W) (q : Verif.Rng W ℝ) (R : Predictor M ℝ) (C : Predictor M' ℝ) (ridge0 : M) (logistic0 : M') (fuel : Nat) : Py W (Option Bool) := fun w =>
  match Example.backDoor r w with                                                       -- 96
  | (.error e, w') => (.error e, w')
  | (.ok B, w') =>
    match runArm backArm (AIPW.ops R C) q B.scm 10000 fuel (Arm.init (AIPW.new 1 ridge0 logistic0 5 (1 / 20)), w') with   -- 98-111
    | (.error e, (_, w'')) => (.error e, w'')
    | (.ok none, (_, w'')) => (.ok none, w'')
    | (.ok (some d), (_, w'')) => ((checks d).map some, w'')                            -- 113-122

/-- arms_test.py 42-53: the arm of `test_frontdoor_arm`. -/
noncomputable def frontArm : SSConfig (Cell ℝ) ℝ where
  transform := ExpData.removeCoord 0                                                    -- 47
  alg := .finiteSample                                                                  -- 48
  stable := true
  subG := .fin 1                                                                        -- 49
  etaSubG := .fin 1
  tauBound := .fin 2                                                                    -- 50
  burnIn := .fin 1000                                                                   -- 51
  rho := .fin 1                                                                         -- 52

/-- `table[x][z] = v` for the nested `defaultdict` of a `TabularCPD`. -/
noncomputable def setCell (x z : ℤ) (v : ℝ) (t : Tab (Cell ℝ) (List (Cell ℝ)) ℝ) : Tab (Cell ℝ) (List (Cell ℝ)) ℝ :=
  { t with table := t.table.set (.int x) ((t.table.getD (.int x) []).set [.int z] v) }

variable {H : Type}

/-- arms_test.py 62-75: the attributes that the test sets; `y_response` is a ridge regression. -/
noncomputable def setNuisances (F : Example.FrontDoorReturn W) (s : FrontDoor (LinEst H ℝ) ℝ) : FrontDoor (LinEst H ℝ) ℝ :=
  { s with
    expProb := F.stats.muX                                                              -- 63
    cpd := setCell 0 0 (1 / 2) (setCell 0 1 (1 / 2)
      (setCell 1 0 (1 - Example.g F.beta) (setCell 1 1 (Example.g F.beta) s.cpd)))      -- 68-71
    yResponse := { s.yResponse with
      coef := [F.alpha2, F.gamma]                                                       -- 74
      intercept := F.alpha2 * F.stats.muU } }                                           -- 75

/-- `np.testing.assert_allclose(actual, desired, rtol)` for two numbers; infinite numbers and NaNs have to agree. -/
noncomputable def closeTo (actual desired : Fl ℝ) (rtol : ℝ) : Bool :=
  match actual, desired with
  | .fin x, .fin y => decide (|x - y| ≤ rtol * |y|)
  | .nan, .nan => true
  | .pinf, .pinf => true
  | .ninf, .ninf => true
  | _, _ => false

/-- arms_test.py 77-81: the variance estimate of the arm is compared with the variance of the scores (`np.var`) of the samples that were generated first. -/
noncomputable def varianceCheck (R : Predictor (LinEst H ℝ) ℝ) (F : Example.FrontDoorReturn W) (samples : ExpData (Cell ℝ)) (st : ArmState (FrontDoor (LinEst H ℝ) ℝ) (Cell ℝ) ℝ) :
    Except PyErr Bool := do
  let d ← ExpData.removeCoord 0 samples
  let xs ← (FrontDoor.score R d (setNuisances F st.eta)).1                              -- 77-78
  match st.varEst with
  | none => .error .typeError
  | some v => return closeTo v (Fl.var xs) (1 / 20)                                   -- 81

/-- arms_test.py 36-57: an SCM is drawn, `n` samples are generated (50000 in the test), and the arm is run with `maxSamples` samples (10000 in the test).
`ridge0` is the new `Ridge(alpha=1.0, fit_intercept=True)` of the parameter, whose constructor has the defaults `min_units=5` and `min_overlap=.05`. -/
noncomputable def runFrontDoor (r : Example.Rng W) (q : Verif.Rng W ℝ) (R : Predictor (LinEst H ℝ) ℝ) (ridge0 : LinEst H ℝ) (n : Nat) (maxSamples : ℤ) (fuel : Nat) :
    Py W (Option (Example.FrontDoorReturn W × ExpData (Cell ℝ) × ArmState (FrontDoor (LinEst H ℝ) ℝ) (Cell ℝ) ℝ × Dict String (List (Entry ℝ)))) := fun w =>
  match Example.frontDoor r w with                                                      -- 37
  | (.error e, w') => (.error e, w')
  | (.ok F, w') =>
    match Example.generate F.scm n w' with                                              -- 40
    | (.error e, w') => (.error e, w')
    | (.ok samples, w') =>
      match runArm frontArm (FrontDoor.ops R ridge0) q F.scm maxSamples fuel (Arm.init (FrontDoor.new ridge0 1 5 (1 / 20) 5), w') with   -- 42-57
      | (.error e, (_, w'')) => (.error e, w'')
      | (.ok none, (_, w'')) => (.ok none, w'')
      | (.ok (some d), (st, w'')) => (.ok (some (F, samples, st, d)), w'')

/-- arms_test.py 34-81: whether the first assertion of `test_frontdoor_arm` holds, for any number of samples. -/
noncomputable def frontDoorVariance (r : Example.Rng W) (q : Verif.Rng W ℝ) (R : Predictor (LinEst H ℝ) ℝ) (ridge0 : LinEst H ℝ) (n : Nat) (maxSamples : ℤ) (fuel : Nat) : Py W (Option Bool) := fun w =>
  match runFrontDoor r q R ridge0 n maxSamples fuel w with
  | (.error e, w') => (.error e, w')
  | (.ok none, w') => (.ok none, w')
  | (.ok (some (F, samples, st, _)), w') => ((varianceCheck R F samples st).map some, w')

/-- arms_test.py 34-92 `test_frontdoor_arm`. -/
noncomputable def testFrontDoor (r : Example.Rng W) (q : Verif.Rng W ℝ) (R : Predictor (LinEst H ℝ) ℝ) (ridge0 : LinEst H ℝ) (fuel : Nat) : Py W (Option Bool) := fun w =>
  match runFrontDoor r q R ridge0 50000 10000 fuel w with
  | (.error e, w') => (.error e, w')
  | (.ok none, w') => (.ok none, w')
  | (.ok (some (F, samples, st, d)), w') =>
    match varianceCheck R F samples st with
    | .error e => (.error e, w')
    | .ok false => (.ok (some false), w')
    | .ok true => ((checks d).map some, w')                                             -- 83-92

end ArmsTest
end Verif
