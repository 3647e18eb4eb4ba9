import Verif.Spec.Data

/-!
# Specification of slices

What Python's documentation says of `start:stop:step`, without the clipping of bounds in the code.
-/

namespace Verif
namespace ExpData

/-- A negative bound counts from the end. -/
def fromEnd (n : Nat) (i : Int) : Int := if i < 0 then i + n else i

/-- `is` are the positions that `start:stop:step` denotes on an axis of size `n`: for a positive step those from the first position on (`start`,
but at least `0`) and before `stop` at a distance that is a multiple of the step, in increasing order; for a negative step those from the
first position (`start`, but at most `n - 1`) down and above `stop`, in decreasing order. -/
def IsSlice (n : Nat) (start stop step : Option Int) (is : List Nat) : Prop :=
  let st := step.getD 1
  if 0 < st then
    let first := max 0 ((start.map (fromEnd n)).getD 0)
    is.Pairwise (· < ·) ∧ ∀ i : Nat, i ∈ is ↔ i < n ∧ first ≤ i ∧ (∀ e, stop = some e → (i : Int) < fromEnd n e) ∧ st ∣ i - first
  else
    let first := min (n - 1 : Int) ((start.map (fromEnd n)).getD (n - 1))
    is.Pairwise (· > ·) ∧ ∀ i : Nat, i ∈ is ↔ (i : Int) ≤ first ∧ (∀ e, stop = some e → fromEnd n e < (i : Int)) ∧ st ∣ first - i

end ExpData
end Verif
