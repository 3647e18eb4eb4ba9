import Mathlib.Analysis.Complex.Exponential
import Mathlib.Analysis.Real.Sqrt
import Mathlib.Data.Finset.Card

/-!
# Specification vocabulary: exposure in the data of the tests of arms
-/

namespace Verif
namespace ArmsTest

/-- Unit `i` of the first batch of 1500 units is exposed: `u i` decides about its covariate, which is 1 with probability `p`, and `u (1500 + i)` about its
exposure, of probability `1/2`, or `1/2 + alpha` if the covariate is 1. -/
def Exposed (p alpha : ℝ) (u : ℕ → ℝ) (i : ℕ) : Prop := u (1500 + i) < 1 / 2 ∧ ¬ u i < p ∨ u (1500 + i) < 1 / 2 + alpha ∧ u i < p

/-- At least five of the units of `I` are exposed and at least five are not. -/
def FiveOfEach (p alpha : ℝ) (u : ℕ → ℝ) (I : Finset ℕ) : Prop :=
  (∃ A ⊆ I, A.card = 5 ∧ ∀ i ∈ A, Exposed p alpha u i) ∧ ∃ A ⊆ I, A.card = 5 ∧ ∀ i ∈ A, ¬ Exposed p alpha u i

/-- Unit `i` of the first batch of 1500 units of the front-door example is exposed: `u i` decides about its confounder, which is 1 with probability `p`, and
`u (1500 + i)` about its exposure, of probability `1/2`, or `1 / (1 + exp (-alpha))` if the confounder is 1. -/
def FrontExposed (p alpha : ℝ) (u : ℕ → ℝ) (i : ℕ) : Prop := u (1500 + i) < 1 / 2 ∧ ¬ u i < p ∨ u (1500 + i) < 1 / (1 + Real.exp (-alpha)) ∧ u i < p

/-- At least five of the units of `I` are exposed and at least five are not. -/
def FrontFiveOfEach (p alpha : ℝ) (u : ℕ → ℝ) (I : Finset ℕ) : Prop :=
  (∃ A ⊆ I, A.card = 5 ∧ ∀ i ∈ A, FrontExposed p alpha u i) ∧ ∃ A ⊆ I, A.card = 5 ∧ ∀ i ∈ A, ¬ FrontExposed p alpha u i

end ArmsTest
end Verif
