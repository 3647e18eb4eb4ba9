import Verif.Model.ParametersTest

/-!
# Model of the project's tests of the example SCMs, `causal_effect_bandits/data_test.py` (`SCMTest`)

As in `Model/ParametersTest.lean`, a test returns `true` if it passes and `false` if an assertion fails, and the number `n` of units (100000 and 1000000 in the
tests) is an argument.  The tests do not seed the generator.  For `n = 0` NumPy's means are NaN; this case is left out (the means are 0 in the model).
-/

namespace Verif
namespace DataTest
open ParametersTest
variable {W : Type}

/-- `np.mean(xs)` of finite numbers. -/
noncomputable def mean (xs : List ℝ) : ℝ := xs.sum / xs.length

/-- `np.var(xs)`: the mean of the squared deviations. -/
noncomputable def var (xs : List ℝ) : ℝ := mean (xs.map fun x => (x - mean xs) ^ 2)

/-- `max(xs)`; the maximum of nothing is a `ValueError`. -/
noncomputable def maximum : List ℝ → Except PyErr ℝ
  | [] => .error .valueError
  | x :: xs => .ok (xs.foldl max x)

/-- `new_data.exp`, `new_data.rsp` as numbers; arithmetic with `None` is a `TypeError`. -/
noncomputable def numbers : Option (List (Cell ℝ)) → Except PyErr (List ℝ)
  | none => .error .typeError
  | some xs => .ok (xs.map Cell.val)

/-- All entries of `new_data.cov`. -/
noncomputable def entries (d : ExpData (Cell ℝ)) : Except PyErr (List ℝ) :=
  match d.cov with
  | none => .error .typeError
  | some (.d1 xs) => .ok (xs.map Cell.val)
  | some (.d2 _ rows) => .ok (rows.flatten.map Cell.val)

/-- `new_data.cov[:, j]`. -/
noncomputable def column (j : Nat) (d : ExpData (Cell ℝ)) : Except PyErr (List ℝ) :=
  match d.cov with
  | none => .error .typeError
  | some (.d1 _) => .error .indexError
  | some (.d2 _ rows) => rows.mapM fun r => match r[j]? with
    | none => .error .indexError
    | some c => .ok c.val

/-- data_test.py 74-94: the assertions of `test_scm_frontdoor_statistics`; `rtol` has its default `1e-7`. -/
noncomputable def frontDoorChecks (s : Example.FrontDoorStats) (n : Nat) (d : ExpData (Cell ℝ)) : Except PyErr Bool := do
  let exp ← numbers d.exp
  let rsp ← numbers d.rsp
  let z ← column 1 d
  let u ← column 0 d
  let top ← maximum rsp
  let tol := 4 * top ^ 2 / Real.sqrt n                                                  -- 74
  return close (mean exp) s.muX (1 / 10 ^ 7) tol                                        -- 79
    && close (mean rsp) s.muY (1 / 10 ^ 7) tol                                          -- 80
    && close (mean z) s.muZ (1 / 10 ^ 7) tol                                            -- 81-82
    && close (mean u) s.muU (1 / 10 ^ 7) tol                                            -- 83-84
    && close (var u) s.varU (1 / 10 ^ 7) (tol * s.varU)                                 -- 87-88
    && close (var z) s.varZ (1 / 10 ^ 7) (tol * s.varZ)                                 -- 89-90
    && close (var exp) s.varX (1 / 10 ^ 7) (tol * s.varX)                               -- 91-92
    && close (var rsp) s.varY (1 / 10 ^ 7) (4 * tol * s.varY)                           -- 93-94

/-- data_test.py 68-94 `test_scm_frontdoor_statistics`. -/
noncomputable def testFrontDoor (r : Example.Rng W) (n : Nat) : Py W Bool := do
  let F ← (Example.frontDoor r : Py W (Example.FrontDoorReturn W))
  let d ← Example.generate F.scm n
  Py.lift (frontDoorChecks F.stats n d)

/-- data_test.py 102-117: the assertions of `test_scm_back_door_statistics`; the third argument of the first three is `rtol`. -/
noncomputable def backDoorChecks (s : Example.BackDoorStats) (n : Nat) (d : ExpData (Cell ℝ)) : Except PyErr Bool := do
  let exp ← numbers d.exp
  let rsp ← numbers d.rsp
  let z ← entries d
  let tol := mean (rsp.map fun y => y ^ 2) / Real.sqrt n                                -- 102
  return decide (s.tau = 10)                                                            -- 104
    && close (mean exp) s.muX tol 0                                                     -- 107
    && close (mean rsp) s.muY tol 0                                                     -- 108
    && close (mean z) s.muZ tol 0                                                       -- 109
    && close (var exp) s.varX (1 / 10 ^ 7) (tol * s.varX)                               -- 112-113
    && close (var z) s.varZ (1 / 10 ^ 7) (tol * s.varZ)                                 -- 114-115
    && close (var rsp) s.varY (1 / 10 ^ 7) (2 * tol * s.varY)                           -- 116-117

/-- data_test.py 96-117 `test_scm_back_door_statistics`. -/
noncomputable def testBackDoor (r : Example.Rng W) (n : Nat) : Py W Bool := do
  let F ← (Example.backDoor r : Py W (Example.BackDoorReturn W))
  let d ← Example.generate F.scm n
  Py.lift (backDoorChecks F.stats n d)

end DataTest
end Verif
