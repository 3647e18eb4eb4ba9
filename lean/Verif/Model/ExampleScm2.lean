import Verif.Model.ExampleScm
import Verif.Model.Section5

/-!
# The data of the example SCMs as datasets of integers and floats
-/

namespace Verif
namespace Example
open Section5
variable {W : Type}

/-- `ExpData(cov, exp, rsp)` (scm.py 101-105) for an SCM of `example_scm.py`: covariates and treatment are drawn by `np.random.binomial` and integer valued,
the response is a float. -/
noncomputable def toData (s : Sample ℝ) : ExpData (Cell ℝ) :=
  ExpData.new
    (some (match s.cov with
      | .d1 xs => .d1 (xs.map fun x => .int (trunc x))
      | .d2 k rows => .d2 k (rows.map (·.map fun x => .int (trunc x)))))
    (some ((Cpds.flatten s.exp).map fun x => .int (trunc x)))
    (some ((Cpds.flatten s.rsp).map .flt))

/-- `scm_gen.generate(n)`. -/
noncomputable def generate (scm : SCM String ℝ W) (n : Nat) : Py W (ExpData (Cell ℝ)) := fun w =>
  match scm.generate n w with
  | (.error e, w') => (.error e, w')
  | (.ok s, w') => (.ok (toData s), w')

end Example
end Verif
