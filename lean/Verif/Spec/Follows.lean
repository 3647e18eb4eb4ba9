import Verif.Spec.Coverage
import Mathlib.Topology.Instances.Real.Lemmas

/-!
# Specification vocabulary: sample-splitting arms that follow a sequence of observations
-/

namespace Verif
open Filter Topology
variable {E β : Type}

/-- After its `k`-th update (`k ≥ 1`) the arm has evaluated at least `k` units, and their scores differ from the observations `ys (N k)`
by at most `ε k` in the fourth mean, which tends to zero.  The nuisance width of a finite-sample arm with numbers as hyperparameters tends to zero. -/
def Arm.Follows (cfg : SSConfig β ℝ) (ops : EtaOps E β ℝ) (δ : ℝ) (states : ArmState E β ℝ → Prop) (ys : ℕ → List ℝ) : Prop :=
  (∃ (ε : ℕ → ℝ) (N : ℕ → ℕ), Tendsto ε atTop (𝓝 0) ∧ (∀ k, k ≤ N k) ∧
    ∀ s, states s → 1 ≤ s.numPulled → ∃ xs, Arm.EvaluatedOn ops s xs ∧ Close 4 (ε s.numPulled) xs (ys (N s.numPulled))) ∧
  (cfg.alg = .finiteSample → (∃ g τ m, Arm.Numbers cfg g τ m) ∧ ∃ ew : ℕ → ℝ, Tendsto ew atTop (𝓝 0) ∧
    ∀ s, states s → 1 ≤ s.numPulled → ops.csWidth s.eta (.fin (δ / 2)) cfg.etaSubG cfg.rho = .ok (some (.fin (ew s.numPulled))))

end Verif
