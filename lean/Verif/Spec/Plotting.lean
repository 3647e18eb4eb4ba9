import Verif.Spec.Bandits
import Verif.Model.Plotting

/-!
# Specification vocabulary for plots and summaries
-/

namespace Verif
namespace Plotting
variable {I S W β α : Type}

/-- The number of rounds left out of a plot of `n` rounds: none for `None`, `k` for `k ≥ 0`, all but the last `-k`
otherwise. -/
def omitted (k : Option Int) (n : Nat) : Nat :=
  match k with
  | none => 0
  | some k => if 0 ≤ k then k.toNat else n - (-k).toNat

/-- The number of units asked for by the `update` calls up to and including round `t`, `u` per call. -/
def unitsUsed (u : Nat) (rs : List (RoundRec I S β α)) (t : Nat) : Nat :=
  ((rs.take (t + 1)).map fun r => r.pulls.length * u).sum

/-- What is drawn for arm `a`, when the first `k` of the rounds `rs` are left out: three lines and the area between
the last two, with one point per remaining round.  The point of a round has the number of units used so far as its
abscissa, and cost times the estimate / lower bound / upper bound of the arm at the end of that round as ordinate. -/
def Shows [Field α] [LinearOrder α] (ops : ArmOps S W β α) (u : Nat) (rs : List (RoundRec I S β α)) (k : Nat) (name : String)
    (a : I) (drawn : List (Artist α)) : Prop :=
  ∃ x mid lower upper, drawn = [.line (some name) x mid, .line none x lower, .line none x upper, .band x lower upper] ∧
    x.length = rs.length - k ∧ mid.length = rs.length - k ∧ lower.length = rs.length - k ∧ upper.length = rs.length - k ∧
    ∀ j r, rs[k + j]? = some r →
      x[j]? = some (unitsUsed u rs (k + j)) ∧
      (∃ v, ops.varEst (r.heap a) = some v ∧ mid[j]? = some ((ops.cost (r.heap a)).mul v)) ∧
      (∃ v, (ops.ci (r.heap a)).1 = some v ∧ lower[j]? = some ((ops.cost (r.heap a)).mul v)) ∧
      (∃ v, (ops.ci (r.heap a)).2 = some v ∧ upper[j]? = some ((ops.cost (r.heap a)).mul v))

/-- `bd` is what a run of one of the three algorithms returned. -/
def Returned [Field α] [LinearOrder α] [DecidableEq I] (env : BanditEnv W β) (ops : ArmOps S W β α) (cfg : BanditCfg I α) (all : Option (ExpData β)) (fuel : Nat)
    (s : (I → S) × W) (bd : BanditData I α) (s' : (I → S) × W) : Prop :=
  Bandit.uniformRun env ops cfg all fuel s = (.ok (some bd), s') ∨ Bandit.lucbRun env ops cfg all fuel s = (.ok (some bd), s') ∨
    Bandit.seRun env ops cfg all fuel s = (.ok (some bd), s')

end Plotting
end Verif
