import Verif.Spec.Bandits

/-!
# Specification vocabulary: narrow intervals in the record of a run
-/

namespace Verif
variable {I α : Type}

/-- In round `t` (from 0) the recorded interval of arm `a` is finite and contains both the recorded estimate and the
true value `θ a`. -/
def BanditData.Covers [LinearOrder α] (bd : BanditData I α) (θ : I → α) (t : Nat) (a : I) : Prop :=
  ∃ l u v : α, (bd.lcb a)[t]? = some (.fin l) ∧ (bd.ucb a)[t]? = some (.fin u) ∧ (bd.var a)[t]? = some (.fin v) ∧
    l ≤ θ a ∧ θ a ≤ u ∧ l ≤ v ∧ v ≤ u

/-- In round `t` the recorded interval of arm `a` is finite and not longer than `w`. -/
def BanditData.Narrow [LinearOrder α] [Add α] (bd : BanditData I α) (w : α) (t : Nat) (a : I) : Prop :=
  ∃ l u : α, (bd.lcb a)[t]? = some (.fin l) ∧ (bd.ucb a)[t]? = some (.fin u) ∧ u ≤ l + w

/-- `b` is the best arm: every other arm is worse by at least `gap`. -/
def BestBy [LinearOrder α] [Add α] (arms : List I) (θ : I → α) (gap : α) (b : I) : Prop :=
  b ∈ arms ∧ ∀ a ∈ arms, a ≠ b → θ b + gap ≤ θ a

/-- No two arms share a lower bound, an upper bound or an estimate in round `t`. -/
def BanditData.NoTies (bd : BanditData I α) (arms : List I) (t : Nat) : Prop :=
  ∀ a ∈ arms, ∀ b ∈ arms, a ≠ b →
    (bd.lcb a)[t]? ≠ (bd.lcb b)[t]? ∧ (bd.ucb a)[t]? ≠ (bd.ucb b)[t]? ∧ (bd.var a)[t]? ≠ (bd.var b)[t]?

/-- The number of samples arm `a` has received up to and including round `t`. -/
def BanditData.received (bd : BanditData I α) (a : I) (t : Nat) : Nat := ((bd.samples a).take (t + 1)).sum

end Verif
