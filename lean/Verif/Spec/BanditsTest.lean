import Verif.Model.BanditsTest

/-!
# Specification vocabulary: runs with arms of constant estimates
-/

namespace Verif
variable {I W β α : Type} [Field α] [LinearOrder α]

/-- Arm `b` is separated from the others: its upper bound is below their lower bounds by more than `tol`; `v` are the estimates, `w` the widths. -/
def Separated (arms : List I) (tol : α) (v w : I → α) (b : I) : Prop := b ∈ arms ∧ ∀ c ∈ arms, c ≠ b → v b + w b < v c - w c - tol

/-- The data source returns `u` units, whatever the state of the world. -/
def Gives (env : BanditEnv W β) (u : ℕ) : Prop := ∀ w, ∃ d w', env.generate u w = (.ok d, w') ∧ d.nUnits = u

/-- The histories of a run with arms of constant estimates `v` and costs 1, in which arm `a` got `k a t` units in round `t` (counted from 0), of `T` rounds. -/
structure ConstantHistory (arms : List I) (v : I → α) (w : I → ℕ → α) (k : I → ℕ → ℕ) (T : ℕ) (D : BanditData I α) : Prop where
  var : ∀ a ∈ arms, D.var a = List.replicate T (.fin (v a))
  samples : ∀ a ∈ arms, D.samples a = (List.range T).map (k a)
  lcb : ∀ a ∈ arms, D.lcb a = (List.range T).map fun t => .fin (v a - w a (∑ i ∈ Finset.range (t + 1), k a i))
  ucb : ∀ a ∈ arms, D.ucb a = (List.range T).map fun t => .fin (v a + w a (∑ i ∈ Finset.range (t + 1), k a i))
  cum : D.cum = (List.range T).map fun t => (arms.map fun a => ∑ i ∈ Finset.range (t + 1), k a i).sum

/-- After `t` rounds of successive elimination with `u` units per round, arm `a` is not eliminated: in none of them was its lower bound at least the upper bound `m + w` of the best arm. -/
def Alive (v : I → α) (w : ℕ → α) (u : ℕ) (m : α) (t : ℕ) (a : I) : Prop := ∀ s, 0 < s → s ≤ t → v a - w (u * s) < m + w (u * s)

/-- Of the arms other than `b`, arm `c` has the lowest lower bound and nothing ties with the bounds by which LUCB picks `b` and `c`; `v` are the estimates, `w` the widths. -/
structure Challenger (arms : List I) (v w : I → α) (b c : I) : Prop where
  mem : c ∈ arms
  ne : c ≠ b
  lcb : ∀ a ∈ arms, a ≠ b → a ≠ c → v c - w c < v a - w a
  tieL : v b - w b ≠ v c - w c
  tieU : ∀ a ∈ arms, a ≠ b → v a + w a ≠ v b + w b

end Verif
