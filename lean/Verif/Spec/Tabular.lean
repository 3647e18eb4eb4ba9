import Mathlib.Algebra.Order.Field.Basic
import Mathlib.Data.List.Count

/-!
# Specification vocabulary for conditional frequency tables
-/

namespace Verif

/-- Relative frequency of `z` among the observations with that `x`. -/
def condFreq {KX KZ : Type} [DecidableEq KX] [DecidableEq KZ] (α : Type) [Field α]
    (data : List (KX × KZ)) (x : KX) (z : KZ) : α :=
  (data.count (x, z) : α) / ((data.map Prod.fst).count x : α)

/-- `zs` enumerates the distinct elements of `l`. -/
def Enumerates {K : Type} (zs l : List K) : Prop := zs.Nodup ∧ ∀ z, z ∈ zs ↔ z ∈ l

end Verif
