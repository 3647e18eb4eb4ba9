import Mathlib.Analysis.SpecialFunctions.Exp
import Mathlib.Logic.Function.Iterate

/-!
# Specification vocabulary for the paper's CPDs
-/

namespace Verif
namespace Paper
variable {W : Type}

/-- The textbook softmax: weights proportional to `exp`. -/
noncomputable def gibbs (x : List ℝ) : List ℝ := x.map fun t => Real.exp t / (x.map Real.exp).sum

/-- A probability vector. -/
def IsPmf (p : List ℝ) : Prop := (∀ t ∈ p, 0 ≤ t) ∧ p.sum = 1

/-- The mean of `<v, beta>` when `v` takes the `i`-th value of the support with probability `p[i]`. -/
noncomputable def meanScore (support : List (List ℝ)) (beta p : List ℝ) : ℝ :=
  (List.zipWith (fun q v => q * (List.zipWith (· * ·) v beta).sum) p support).sum

/-- The world after `k` draws of ten numbers. -/
def worldAfter (normal : Nat → W → List ℝ × W) (k : Nat) (w : W) : W := (fun u => (normal 10 u).2)^[k] w

/-- The `k`-th draw of ten numbers. -/
def drawAt (normal : Nat → W → List ℝ × W) (w : W) (k : Nat) : List ℝ := (normal 10 (worldAfter normal k w)).1

/-- The two distributions of candidate number `k`. -/
noncomputable def pairAt (normal : Nat → W → List ℝ × W) (w : W) (k : Nat) : List ℝ × List ℝ :=
  (gibbs ((drawAt normal w (2 * k)).map fun t => 2 / 5 * t), gibbs ((drawAt normal w (2 * k + 1)).map fun t => 2 / 5 * t))

/-- The effect of a pair of distributions: the difference of the two mean scores. -/
noncomputable def gap (support : List (List ℝ)) (beta : List ℝ) (p : List ℝ × List ℝ) : ℝ :=
  meanScore support beta p.2 - meanScore support beta p.1

/-- The effect of candidate number `k`. -/
noncomputable def tauAt (normal : Nat → W → List ℝ × W) (support : List (List ℝ)) (beta : List ℝ) (w : W) (k : Nat) : ℝ :=
  gap support beta (pairAt normal w k)

end Paper
end Verif
