import Verif.Spec.Parameters
import Verif.Model.LinearGen

/-!
# Specification vocabulary for the linear model
-/

namespace Verif

/-- State of the generator after `n` numbers. -/
def afterDraws {W α : Type} (f : W → α × W) (w : W) (n : Nat) : W := (fun v => (f v).2)^[n] w

/-- Number `i` (from 0) produced from state `w` on. -/
def nthDraw {W α : Type} (f : W → α × W) (w : W) (i : Nat) : α := (f (afterDraws f w i)).1

/-- Unit `i` of a sample of `n` units of the linear model with standard normal covariates: the covariates are numbers
`i * k, ..., i * k + k - 1` of the normal stream, the exposure is 1 when uniform number `i` is below
`sig (z . gamma)`, and the response is `z . beta + tau * x + e i`. -/
def linearUnit {W α : Type} [Field α] [LinearOrder α] (r : Draws W α) (k : Nat) (beta gamma : List α) (tau : α) (w : W) (n : Nat) (e : Nat → α) (i : Nat) : Obs α :=
  let z := fun j => nthDraw r.gauss w (i * k + j)
  let x : Int := if nthDraw r.unif (afterDraws r.gauss w (n * k)) i < r.sig (∑ j : Fin k, z j * gamma.getD j 0) then 1 else 0
  ⟨(List.range k).map fun j => .flt (z j), .int x, .flt (∑ j : Fin k, z j * beta.getD j 0 + tau * x + e i)⟩

/-- The inverse-propensity weight of a unit for propensity `e`. -/
def ipwWeight {α : Type} [Field α] (e x : α) : α := x / e - (1 - x) / (1 - e)

section
variable {W α : Type} [Field α]

/-- Mean response of the linear model. -/
def linMean (g : LinGen W α) (x : α) (z : List α) : α := ∑ j : Fin g.nFeatures, z.getD j 0 * g.beta.getD j 0 + g.tau * x

/-- Linear part of the propensity of the linear model. -/
def linScore (g : LinGen W α) (z : List α) : α := ∑ j : Fin g.nFeatures, z.getD j 0 * g.gamma.getD j 0

end

end Verif
