import Verif.Spec.Coverage
import Verif.Spec.Parameters
import Verif.Model.RealLib
import Mathlib.Topology.Instances.Real.Lemmas

/-!
# Specification vocabulary: arms updated with consecutive blocks of a stream of units
-/

namespace Verif
open Filter Topology

/-- The numbers observed of a unit with `k` covariates: covariates, exposure, response. -/
noncomputable def Obs.point (k : ℕ) (u : Obs ℝ) : (Fin k → ℝ) × ℝ × ℝ := (fun j => u.zv.getD j 0, u.xv, u.yv)

/-- Number of units in the first `n` blocks of sizes `size 0, size 1, ...`. -/
def blockStart (size : ℕ → ℕ) (n : ℕ) : ℕ := ∑ i ∈ Finset.range n, size i

/-- A fresh sample-splitting arm is updated with consecutive blocks of the units `u 0, u 1, ...` (as returned by its data transformer), and no
update fails: `s n` is the state of the arm after `n` updates, `w n` the state of the random generator when update `n` begins (others may use the generator
between the updates), `ci n` is the interval returned by update `n`. -/
structure Arm.Streams {E W : Type} (k : ℕ) (cfg : SSConfig (Cell ℝ) ℝ) (ops : EtaOps E (Cell ℝ) ℝ) (rng : Rng W ℝ) (u : ℕ → Obs ℝ) (size : ℕ → ℕ)
    (δ : Fl ℝ) (s : ℕ → ArmState E (Cell ℝ) ℝ) (w : ℕ → W) (ci : ℕ → Fl ℝ × Fl ℝ) : Prop where
  fresh : (s 0).split = none ∧ (s 0).numPulled = 0
  stable : cfg.stable = true
  covariates : ∀ i, (u i).z.length = k
  step : ∀ n, ∃ d w', cfg.transform d = .ok (Obs.dataset k ((List.range (size n)).map fun i => u (blockStart size n + i))) ∧
    Arm.ssUpdate cfg ops realLib rng d δ (s n, w n) = (.ok (ci n), s (n + 1), w')

/-- The estimates of the mean and of the variance become numbers and converge to `m` and `v`. -/
def Arm.EstimatesConverge {E : Type} (s : ℕ → ArmState E (Cell ℝ) ℝ) (m v : ℝ) : Prop :=
  ∃ a q : ℕ → ℝ, (∀ᶠ n in atTop, (s n).ate = some (.fin (a n)) ∧ (s n).varEst = some (.fin (q n))) ∧
    Tendsto a atTop (𝓝 m) ∧ Tendsto q atTop (𝓝 v)

/-- Both ends of the intervals become numbers and converge to `v`. -/
def Arm.IntervalsConverge (ci : ℕ → Fl ℝ × Fl ℝ) (v : ℝ) : Prop :=
  ∃ l r : ℕ → ℝ, (∀ᶠ n in atTop, ci n = (.fin (l n), .fin (r n))) ∧ Tendsto l atTop (𝓝 v) ∧ Tendsto r atTop (𝓝 v)

end Verif
