import Verif.Spec.ArmsReal
import Verif.Spec.Arms
import Mathlib.Probability.IdentDistrib
import Mathlib.Probability.Independence.Basic
import Mathlib.Probability.Moments.Variance

/-!
# Specification vocabulary: coverage of confidence intervals
-/

namespace Verif
open MeasureTheory ProbabilityTheory

/-- The first `n` observations of a sequence. -/
def sample {Ω T : Type} (X : ℕ → Ω → T) (n : ℕ) (ω : Ω) : List T := (List.range n).map fun i => X i ω

/-- Independent and identically distributed observations. -/
structure Iid {Ω T : Type} [MeasurableSpace Ω] [MeasurableSpace T] (P : Measure Ω) (X : ℕ → Ω → T) : Prop where
  indep : iIndepFun X P
  ident : ∀ i, IdentDistrib (X i) (X 0) P P

/-- The number `x` lies between the two bounds (never if one of them is NaN). -/
def Fl.Covers (lo hi : Fl ℝ) (x : ℝ) : Prop := lo.le (.fin x) = true ∧ (Fl.fin x).le hi = true

/-- The nuisance parameter of the arm is ready, and its scores of the units in the second fold are `xs`, one per unit. -/
def Arm.EvaluatedOn {E β : Type} (ops : EtaOps E β ℝ) (s : ArmState E β ℝ) (xs : List ℝ) : Prop :=
  ∃ (l : List (ExpData β)) (f1 : ExpData β), s.split = some l ∧ l[1]? = some f1 ∧ f1.nUnits = xs.length ∧
    ops.hasEnough s.eta = .ok true ∧ (ops.score s.eta f1).1 = .ok (xs.map Fl.fin)

/-- A finite-sample arm with numbers as hyperparameters. -/
structure Arm.Numbers {β : Type} (cfg : SSConfig β ℝ) (g τ m : ℝ) : Prop where
  alg : cfg.alg = .finiteSample
  g : cfg.subG = .fin g
  τ : cfg.tauBound = .fin τ
  m : cfg.burnIn = .fin m

/-- The variance of the squared deviation from the mean: the asymptotic variance of the sample variance. -/
noncomputable def varOfSq {Ω : Type} [MeasurableSpace Ω] (P : Measure Ω) (X : Ω → ℝ) : ℝ := Var[fun ω => (X ω - P[X]) ^ 2; P]

/-- The mean of the `p`-th powers of the differences between the observations `xs` and `ys` is at most `ε ^ p`. -/
def Close (p : ℕ) (ε : ℝ) (xs ys : List ℝ) : Prop :=
  xs.length = ys.length ∧ 0 ≤ ε ∧ ((xs.zip ys).map fun q => |q.1 - q.2| ^ p).sum ≤ xs.length * ε ^ p

end Verif
