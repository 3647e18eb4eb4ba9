import Verif.Model.Bandits
import Verif.Model.ExampleScm2
import Verif.Model.ParametersTest

/-!
# Model of the project's tests of the bandits, `causal_effect_bandits/bandits_test.py`

The three tests run a bandit with three arms of a class defined in the file, `ConstantArm`, on the data of `frontdoor_scm`.  A test returns `some true` if it passes, `some false` if an assertion
fails and `none` if the bandit still runs after `fuel` rounds.  `reset` is not called by these tests (it would fail, since a `ConstantArm` has no `_eta`); the tests compare
lists of finite numbers, `np.testing.assert_allclose` with its default tolerances.
-/

namespace Verif

/-- bandits_test.py 31-55 `ConstantArm` (without its name). -/
structure ConstantArm (α : Type) where
  varEst : α
  width : Nat → Fl α
  nSamples : Nat
  ci : Fl α × Fl α
  cost : α

namespace ConstantArm
variable {α W β : Type} [Field α] [LinearOrder α]

/-- bandits_test.py 38-49 `ConstantArm.__init__`. -/
def new (varEst : α) (width : Nat → Fl α) : ConstantArm α := ⟨varEst, width, 0, (.fin 0, .pinf), 1⟩

/-- bandits_test.py 51-55 `ConstantArm.update`. -/
def update (s : ConstantArm α) (n : Nat) : ConstantArm α :=
  { s with
    nSamples := s.nSamples + n
    ci := ((Fl.fin s.varEst).sub (s.width (s.nSamples + n)), (Fl.fin s.varEst).add (s.width (s.nSamples + n))) }

/-- The methods of `ConstantArm`, as a `VarianceEstimatorArm`. -/
def ops : ArmOps (ConstantArm α) W β α where
  update := fun d _ (s, w) => (.ok (s.update d.nUnits).ci, s.update d.nUnits, w)
  ci := fun s => (some s.ci.1, some s.ci.2)
  varEst := fun s => some (.fin s.varEst)
  cost := fun s => .fin s.cost
  numUnits := fun _ => 0                                                               -- arms.py 103-105, inherited
  reset := fun s => s

end ConstantArm

namespace BanditsTest
open ParametersTest
variable {W : Type}

/-- bandits_test.py 69-70, 132-133, 193-194: `np.sqrt(20) / np.sqrt(n)`. -/
noncomputable def width (n : Nat) : Fl ℝ := (Fl.fin (Real.sqrt 20)).div (.fin (Real.sqrt n))

/-- `np.testing.assert_allclose(actual, desired)`: same length, and each entry within `1e-7` of the desired one, relatively. -/
noncomputable def allClose : List (Fl ℝ) → List (Fl ℝ) → Bool
  | [], [] => true
  | .fin x :: xs, .fin y :: ys => close x y (1 / 10 ^ 7) 0 && allClose xs ys
  | _, _ => false

/-- The assertions about one arm: estimates `v`, samples `ns` and bounds `v - width(k)`, `v + width(k)` for the totals `k` of samples in `ks`. -/
noncomputable def checkArm (D : BanditData (Fin 3) ℝ) (a : Fin 3) (v : ℝ) (ns ks : List Nat) : Bool :=
  allClose (D.var a) (ns.map fun _ => .fin v)
    && allClose ((D.samples a).map fun n => .fin n) (ns.map fun n => .fin n)
    && allClose (D.lcb a) (ks.map fun k => (Fl.fin v).sub (width k))
    && allClose (D.ucb a) (ks.map fun k => (Fl.fin v).add (width k))

/-- The three arms of a test. -/
noncomputable def threeArms (v : Fin 3 → ℝ) : Fin 3 → ConstantArm ℝ := fun a => ConstantArm.new (v a) width

/-- The tests up to their assertions: draw an SCM, construct the bandit (`error_prob`, `error_tol` and `confidence` are .05, 0 and .05) and run it. -/
noncomputable def runThree (r : Example.Rng W) (env : BanditEnv W (Cell ℝ)) (limit : ℝ) (units : Nat) (v : Fin 3 → ℝ)
    (run : BanditEnv W (Cell ℝ) → BanditCfg (Fin 3) ℝ → Py ((Fin 3 → ConstantArm ℝ) × W) (Option (BanditData (Fin 3) ℝ))) : Py W (Option (BanditData (Fin 3) ℝ)) := fun w =>
  match (Example.frontDoor r w) with
  | (.error e, w') => (.error e, w')
  | (.ok F, w') =>
    match Bandit.construct [0, 1, 2] (some (.fin (1 / 20))) (some (.fin 0)) (some (.fin (1 / 20))) (some (.fin limit)) units with
    | .error e => (.error e, w')
    | .ok cfg =>
      match run { env with generate := Example.generate F.scm } cfg (threeArms v, w') with
      | (x, _, w'') => (x, w'')

/-- bandits_test.py 60-121 `test_uniform_bandit`. -/
noncomputable def testUniform (r : Example.Rng W) (env : BanditEnv W (Cell ℝ)) (fuel : Nat) : Py W (Option Bool) := do
  let D ← runThree r env 50 5 ![1, 2, 2] fun env cfg => Bandit.uniformRun env ConstantArm.ops cfg none fuel
  return D.map fun D =>
    decide (D.best = [0])                                                               -- 88
      && checkArm D 0 1 [5, 5, 5, 5] [5, 10, 15, 20]                                    -- 91-121
      && checkArm D 1 2 [5, 5, 5, 5] [5, 10, 15, 20]
      && checkArm D 2 2 [5, 5, 5, 5] [5, 10, 15, 20]

/-- bandits_test.py 123-181 `test_successive_elimination_bandit`. -/
noncomputable def testElimination (r : Example.Rng W) (env : BanditEnv W (Cell ℝ)) (fuel : Nat) : Py W (Option Bool) := do
  let D ← runThree r env 100 10 ![1, 9 / 4, 3] fun env cfg => Bandit.seRun env ConstantArm.ops cfg none fuel
  return D.map fun D =>
    decide (D.best = [0])                                                               -- 151
      && checkArm D 0 1 [10, 10, 10, 10, 10] [10, 20, 30, 40, 50]                       -- 154-181
      && checkArm D 1 (9 / 4) [10, 10, 10, 10, 10] [10, 20, 30, 40, 50]
      && checkArm D 2 3 [10, 10, 0, 0, 0] [10, 20, 20, 20, 20]

/-- bandits_test.py 183-244 `test_lucb_bandit`. -/
noncomputable def testLucb (r : Example.Rng W) (env : BanditEnv W (Cell ℝ)) (fuel : Nat) : Py W (Option Bool) := do
  let D ← runThree r env 50 5 ![1, 2, 5 / 2] fun env cfg => Bandit.lucbRun env ConstantArm.ops cfg none fuel
  return D.map fun D =>
    decide (D.best = [0])                                                               -- 212
      && checkArm D 0 1 [5, 5, 5, 5, 5] [5, 10, 15, 20, 25]                             -- 215-244
      && checkArm D 1 2 [5, 5, 0, 5, 5] [5, 10, 10, 15, 20]
      && checkArm D 2 (5 / 2) [5, 0, 5, 0, 0] [5, 5, 10, 10, 10]

end BanditsTest
end Verif
