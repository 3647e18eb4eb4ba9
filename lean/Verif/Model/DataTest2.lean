import Verif.Model.Data
import Verif.Model.Tabular

/-!
# Model of the project's tests of data classes, `causal_effect_bandits/data_test.py` (`ExpDataTest`, `TestTabularCPD`)

A test returns `true` if it passes and `false` if an assertion fails; assertions have no effects.  `np.random.seed` is not modelled: the shuffles are arguments.
-/

namespace Verif
namespace DataTest

/-- data_test.py 30-33: the four units of `test_k_fold`. -/
def fourUnits : ExpData ℤ := ExpData.new (some (.d2 2 [[0, 1], [2, 3], [4, 5], [6, 7]])) (some [-2, -1, 0, 1]) (some [0, 2, 4, 6])

/-- `np.testing.assert_array_equal` for the three arrays of a dataset. -/
def sameArrays (d : ExpData ℤ) (cov : Option (Arr ℤ)) (exp rsp : Option (List ℤ)) : Bool := decide (d.cov = cov) && decide (d.exp = exp) && decide (d.rsp = rsp)

/-- data_test.py 29-48 `test_k_fold`; `σ` and `τ` are the shuffles of the two calls of `k_fold`. -/
def testKFold (σ τ : Equiv.Perm (Fin fourUnits.nUnits)) : Except PyErr Bool := do
  let one ← fourUnits.kFold 1 σ                                                         -- 34
  let c1 := match one with
    | [f] => sameArrays f fourUnits.cov fourUnits.exp fourUnits.rsp                     -- 35-38
    | _ => false
  let two ← fourUnits.kFold 2 τ                                                         -- 41
  let c2 := match two with
    | [f, g] => sameArrays f (some (.d2 2 [[0, 1], [6, 7]])) (some [-2, 1]) (some [0, 6])
        && sameArrays g (some (.d2 2 [[2, 3], [4, 5]])) (some [-1, 0]) (some [2, 4])    -- 42-48
    | _ => false
  return c1 && c2

variable {α : Type} [Field α] [LinearOrder α]

/-- data_test.py 61-63: the predictions of one table, one after the other (each may insert keys), all of which have to be `p`. -/
def predictsAll (p : α) : List (ℤ × ℤ) → Tab ℤ ℤ α → Bool
  | [], _ => true
  | (x, z) :: rest, t =>
    match t.predictArr [x] [z] with
    | (v, t') => decide (v = [p]) && predictsAll p rest t'

/-- data_test.py 53-63 `test_fit`. -/
def testFit (α : Type) [Field α] [LinearOrder α] : Except PyErr Bool :=
  match (Tab.new 10 : Tab ℤ ℤ α).fit [0, 1, 2, 0, 1, 2, 0, 1, 2] [3, 3, 3, 4, 4, 4, 5, 5, 5] with   -- 54-57
  | (.error e, _) => .error e
  | (.ok (), t) =>
    .ok (decide (t.xValues = [0, 1, 2]) && decide (t.zValues = [3, 4, 5])               -- 59-60
      && predictsAll (1 / 3) ([0, 1, 2].flatMap fun x => [3, 4, 5].map fun z => (x, z)) t)   -- 61-63

end DataTest
end Verif
