import Verif.Model.Bandits
import Mathlib.Data.Rat.Floor

/-!
# Specification vocabulary for `run_single_arm`
-/

namespace Verif
namespace TestUtils
variable {S W β α : Type}

/-- One round: data are generated and the arm is updated with them, without exception. -/
def Round (ops : ArmOps S W β α) (generate : Nat → Py W (ExpData β)) (increment : Nat) (delta : Fl α) (a b : S × W) : Prop :=
  ∃ d w' ci, generate increment a.2 = (.ok d, w') ∧ ops.update d delta (a.1, w') = (.ok ci, b)

/-- Successive rounds: `l` lists the states after each round, starting from `a`. -/
def Rounds (ops : ArmOps S W β α) (generate : Nat → Py W (ExpData β)) (increment : Nat) (delta : Fl α) : S × W → List (S × W) → Prop
  | _, [] => True
  | a, b :: l => Round ops generate increment delta a b ∧ Rounds ops generate increment delta b l

/-- The number of rounds needed to reach `maxSamples` in steps of `increment`: the ceiling of the quotient, or zero. -/
def roundsNeeded (maxSamples : Int) (increment : Nat) : Nat := ⌈(maxSamples : ℚ) / increment⌉.toNat

end TestUtils
end Verif
