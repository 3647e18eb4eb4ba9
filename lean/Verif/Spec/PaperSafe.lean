import Verif.Model.PaperBandits
import Verif.Spec.Rerun
import Verif.Spec.Safe
import Verif.Spec.SafeArm
import Verif.Spec.Section5

/-!
# Specification vocabulary: experiments with the examples of the paper
-/

namespace Verif
namespace PaperBandits
open Section5

/-- The arguments an experiment of the paper is called with: at least one path, one positive dimension for each variable in exactly two
lists of `M + 1` entries (the entry for the missing `V0` being `0`), positive costs, a sample limit and batches of two or more units. -/
structure GoodArgs (zDim vDim : List Nat) (zCost vCost z0Cost : ℝ) (M : Nat) (l : ℝ) (units : Nat) : Prop where
  paths : 1 ≤ M
  zLen : zDim.length = M + 1
  vLen : vDim.length = M + 1
  v0 : vDim.getD 0 0 = 0
  zPos : ∀ d ∈ zDim, 1 ≤ d
  vPos : ∀ d ∈ vDim.tail, 1 ≤ d
  zCost : 0 < zCost
  vCost : 0 < vCost
  z0Cost : 0 < z0Cost
  limit : 0 ≤ l
  units : 2 ≤ units

/-- sklearn's estimators raise only on empty or (logistic regression) one-class data. -/
structure GoodSklearn {M P : Type} (sk : Sklearn M P) : Prop where
  ridge : sk.ridge.Total
  logistic : sk.logistic.FitsBothClasses

/-- sklearn's `clone` returns an unfitted estimator, whatever it is applied to. -/
structure CleanClones {M P : Type} (sk : Sklearn M P) : Prop where
  ridge : sk.ridge.CloneLaws
  logistic : sk.logistic.CloneLaws
  ridge0 : sk.ridge.clone sk.ridge0 = sk.ridge0
  logistic0 : sk.logistic.clone sk.logistic0 = sk.logistic0

/-- The calls an experiment makes: runs of the three bandits, drawing their data from the SCM, and resets, with any choices of
`np.random.choice`. -/
inductive ExperimentCall {W M P : Type} (ex : Example W M P) : BanditCall Nat W (Cell ℝ) ℝ → Prop
  | uniform (choice choice2) (fuel : Nat) : ExperimentCall ex (.uniform (envOf ex.scm choice choice2) ex.uniform none fuel)
  | lucb (choice choice2) (fuel : Nat) : ExperimentCall ex (.lucb (envOf ex.scm choice choice2) ex.lucb none fuel)
  | se (choice choice2) (fuel : Nat) : ExperimentCall ex (.se (envOf ex.scm choice choice2) ex.se none fuel)
  | resetUniform : ExperimentCall ex (.reset ex.uniform)
  | resetLucb : ExperimentCall ex (.reset ex.lucb)
  | resetSe : ExperimentCall ex (.reset ex.se)

/-- What the construction of an example with `k` paths should deliver. -/
def Prepared {W M P : Type} (k : Nat) (alg : CIAlgorithm) (ex : Example W M P) : Prop :=
  ex.arms.length = 1 + 2 ^ k ∧ ∃ g : ℝ, 0 ≤ g ∧ ∀ o ∈ ex.arms, o.cfg.alg = alg ∧ o.cfg.subG = .fin g ∧ ∃ e, o.st = Arm.init e

/-- The sub-Gaussian scale of the arms is large enough for the width of a finite-sample interval to be a real number. -/
def WideScale {W M P : Type} (ex : Example W M P) : Prop :=
  ∀ o ∈ ex.arms, ∃ g : ℝ, o.cfg.subG = .fin g ∧ 0 < g ∧ 1 / 4 ≤ max g (8 * g ^ 2)

/-- The run ends with a result. -/
def Returns {A σ : Type} (x : Except PyErr (Option A) × σ) : Prop := ∃ a s, x = (.ok (some a), s)

/-- The run ends with a result or with a `ValueError` in a state in which all arms have the same cost-adjusted estimate. -/
def ReturnsUnlessTied {A I S W β α : Type} [Field α] [LinearOrder α] (ops : ArmOps S W β α) (arms : List I) (x : Except PyErr (Option A) × (I → S) × W) : Prop :=
  Returns x ∨ ∃ s, x = (.error .valueError, s) ∧ AllTie ops arms s.1

end PaperBandits
end Verif
