import Verif.Spec.SCM
import Mathlib.Algebra.BigOperators.Group.List.Basic

/-!
# Specification vocabulary for the paper's example

A way of blocking the back-door paths is a list of booleans, one per path: `true` stands for observing
`Z_i`, `false` for observing `V_i`.
-/

namespace Verif
namespace Paper

/-- The name spelling out a choice, e.g. `Z_1V_2`, for paths numbered from `i`. -/
def spell : Nat → List Bool → String
  | _, [] => ""
  | i, b :: c => (if b then "Z_" else "V_") ++ toString i ++ spell (i + 1) c

/-- The cost of a choice. -/
def choiceCost {α : Type} [Field α] (zCost vCost : α) (c : List Bool) : α :=
  (c.map fun b => if b then zCost else vCost).sum

/-- `dims[i]` consecutive numbers, after those of the earlier entries: where variable `i` sits if the variables
with the given dimensions are laid out one after the other, starting at `off`. -/
def segment (off : Nat) (dims : List Nat) (i : Nat) : List Nat := List.range' (off + (dims.take i).sum) (dims.getD i 0)

/-- The coordinates of a choice, for paths numbered from `i`, if `Z_i` occupies `z i` and `V_i` occupies `v i`. -/
def choiceCoords (z v : Nat → List Nat) : Nat → List Bool → List Nat
  | _, [] => []
  | i, b :: c => (if b then z i else v i) ++ choiceCoords z v (i + 1) c

/-- The columns that hold variable `v` when variables of dimensions `dim` are stacked side by side in the
given order. -/
def columnsOf (order : List String) (dim : String → Nat) (v : String) : List Nat :=
  List.range' ((order.takeWhile (· ≠ v)).map dim).sum (dim v)

/-- The edges of the paper's graph with `M` back-door paths `X ← V_i → Z_i → Y` and the front-door path
`X → Z_0 → Y`. -/
inductive Edge (M : Nat) : String → String → Prop
  | vx (i : Nat) (h1 : 1 ≤ i) (h2 : i ≤ M) : Edge M ("V" ++ toString i) "X"
  | vz (i : Nat) (h1 : 1 ≤ i) (h2 : i ≤ M) : Edge M ("V" ++ toString i) ("Z" ++ toString i)
  | zy (i : Nat) (h1 : 1 ≤ i) (h2 : i ≤ M) : Edge M ("Z" ++ toString i) "Y"
  | xz : Edge M "X" "Z0"
  | z0y : Edge M "Z0" "Y"

end Paper
end Verif
