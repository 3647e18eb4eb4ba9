import Verif.Spec.EndToEnd
import Mathlib.Logic.Function.Basic

/-!
# Specification vocabulary: arms that see only some of the units
-/

namespace Verif
open MeasureTheory
variable {V : Type}

/-- The arm is consistent on every choice of infinitely many of the units, in any order (`σ i` is the number of the `i`-th unit it sees). -/
def Arm.ConsistentOnParts {Ω E : Type} [MeasurableSpace Ω] (P : Measure Ω) (k : ℕ) (cfg : SSConfig (Cell ℝ) ℝ) (ops : EtaOps E (Cell ℝ) ℝ) (rng : Rng V ℝ)
    (U : ℕ → Ω → Obs ℝ) (m : ℕ) (δ : ℝ) (s0 : ArmState E (Cell ℝ) ℝ) (θ v : ℝ) : Prop :=
  ∀ σ : ℕ → ℕ, Function.Injective σ → Arm.Consistent P k cfg ops rng (fun i => U (σ i)) m δ s0 θ v

/-- Whatever units the arm sees: as long as no update fails, neither the ends of its intervals nor the variance estimate become NaN. -/
def Arm.NeverNan {E : Type} (k : ℕ) (cfg : SSConfig (Cell ℝ) ℝ) (ops : EtaOps E (Cell ℝ) ℝ) (rng : Rng V ℝ) (m : ℕ) (δ : ℝ) : Prop :=
  ∀ u s w ci, Arm.Streams k cfg ops rng u (fun _ => m) (.fin δ) s w ci → ∀ n,
    (ci n).1 ≠ .nan ∧ (ci n).2 ≠ .nan ∧ (s (n + 1)).varEst ≠ some .nan

end Verif
