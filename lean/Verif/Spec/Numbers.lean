import Verif.Model.ExampleScm2
import Verif.Model.TestUtils
import Verif.Spec.EndToEnd
import Mathlib.Probability.Distributions.Gaussian.Real
import Mathlib.Probability.Independence.Basic

/-!
# Specification vocabulary: a world of random numbers
-/

namespace Verif
open MeasureTheory ProbabilityTheory
variable {V : Type}

/-- A world whose next uniform numbers are `unifs i, unifs (i + 1), ...` and whose next standard normal numbers are `normals j, normals (j + 1), ...`;
`seed` is the state of the generator that shuffles. -/
structure Numbers (V : Type) where
  unifs : ℕ → ℝ
  normals : ℕ → ℝ
  i : ℕ
  j : ℕ
  seed : V

/-- The generator of the random numbers. -/
def Numbers.gen : Example.Rng (Numbers V) where
  unif := fun w => (w.unifs w.i, { w with i := w.i + 1 })
  gauss := fun w => (w.normals w.j, { w with j := w.j + 1 })

/-- The generator that shuffles uses numbers of its own. -/
def Numbers.rng (rng : Rng V ℝ) : Rng (Numbers V) ℝ where
  perm := fun n t => ((rng.perm n t.seed).1, { t with seed := (rng.perm n t.seed).2 })
  mask := fun n p t => ((rng.mask n p t.seed).1, { t with seed := (rng.mask n p t.seed).2 })

/-- The numbers `xs`, then `u 0, u 1, ...`. -/
def followedBy (xs : List ℝ) (u : ℕ → ℝ) (n : ℕ) : ℝ := xs.getD n (u (n - xs.length))

/-- A world in which nothing has been drawn yet: the first uniform numbers are `xs`. -/
def Numbers.start (xs : List ℝ) (u g : ℕ → ℝ) (seed : V) : Numbers V := ⟨followedBy xs u, g, 0, 0, seed⟩

/-- `U 0, U 1, ...` are uniform numbers of the unit interval and `G 0, G 1, ...` standard normal numbers, all of them independent. -/
structure RandomNumbers {Ω : Type} [MeasurableSpace Ω] (P : Measure Ω) (U G : ℕ → Ω → ℝ) : Prop where
  measurable_unif : ∀ i, Measurable (U i)
  measurable_normal : ∀ i, Measurable (G i)
  unif : ∀ i, P.map (U i) = volume.restrict (Set.Ico 0 1)
  normal : ∀ i, P.map (G i) = gaussianReal 0 1
  indep : iIndepFun (fun i : ℕ ⊕ ℕ => Sum.elim U G i) P

/-- The last number in the list stored under `key` is within `ε` of `x`. -/
def LastNear (d : Dict String (List (TestUtils.Entry ℝ))) (key : String) (ε x : ℝ) : Prop :=
  ∃ l y, d.get? key = some l ∧ l.getLast? = some (.num (some (.fin y))) ∧ |y - x| < ε

/-- Once `max_samples` is large enough, `run_single_arm` returns, and the last estimates it returns are as close as desired to `θ` (effect) and `v` (variance
and both ends of its interval). -/
def Recovers {S W : Type} (ops : ArmOps S W (Cell ℝ) ℝ) (ate : S → Option (Fl ℝ)) (generate : ℕ → Py W (ExpData (Cell ℝ))) (increment : ℕ) (δ : Fl ℝ) (start : S × W)
    (θ v : ℝ) : Prop :=
  ∀ ε > 0, ∃ N : ℤ, ∀ maxSamples ≥ N, ∃ fuel d st, TestUtils.runSingleArm ops ate generate maxSamples increment δ fuel start = (.ok (some d), st) ∧
    LastNear d "ATE_estmitates" ε θ ∧ LastNear d "var_estimates" ε v ∧ LastNear d "LCBs" ε v ∧ LastNear d "UCBs" ε v

namespace Example

/-- Units with `k` binary covariates and a binary exposure. -/
def BinaryUnits (k : ℕ) (us : List (Obs ℝ)) : Prop :=
  ∀ u ∈ us, (u.z.length = k ∧ ∀ c ∈ u.z, c = .int 0 ∨ c = .int 1) ∧ (u.x = .int 0 ∨ u.x = .int 1) ∧ ∃ y, u.y = .flt y

/-- The asymptotic variance of the regression estimate in the back-door example. -/
noncomputable def regressionVariance (p beta alpha : ℝ) : ℝ :=
  ((1 - p) / 2 * (10 ^ 2 + 1) + p * (1 / 2 + alpha) * (1 / 2 - alpha) *
      ((1 / 2 - alpha) * ((10 + beta) ^ 2 + 1) + (1 / 2 + alpha) * (beta ^ 2 + 1))) /
    ((1 - p) / 2 + p * (1 / 2 + alpha) * (1 / 2 - alpha)) ^ 2 - 10 ^ 2

/-- The asymptotic variance of the AIPW estimate in the back-door example. -/
noncomputable def aipwVariance (p alpha : ℝ) : ℝ := 4 * (1 - p) + p / ((1 / 2 + alpha) * (1 / 2 - alpha))

end Example
end Verif
