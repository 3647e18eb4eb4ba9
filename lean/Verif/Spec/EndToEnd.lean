import Verif.Spec.Stream
import Mathlib.MeasureTheory.Measure.Typeclasses.Probability

/-!
# Specification vocabulary: a world of recorded units
-/

namespace Verif
open MeasureTheory
variable {V : Type}

/-- A world in which the units a data generator is going to return are written on a tape: `units 0, units 1, ...`; `pos` units have been returned, and
`seed` is the state of the generator that shuffles. -/
structure Tape (V : Type) where
  units : ℕ → Obs ℝ
  pos : ℕ
  seed : V

/-- The data generator returns the next `n` units, with `k` covariates. -/
def Tape.generate (k n : ℕ) : Py (Tape V) (ExpData (Cell ℝ)) := fun t =>
  (.ok (Obs.dataset k ((List.range n).map fun i => t.units (t.pos + i))), { t with pos := t.pos + n })

/-- The generator that shuffles does not touch the tape. -/
def Tape.rng (rng : Rng V ℝ) : Rng (Tape V) ℝ where
  perm := fun n t => ((rng.perm n t.seed).1, { t with seed := (rng.perm n t.seed).2 })
  mask := fun n p t => ((rng.mask n p t.seed).1, { t with seed := (rng.mask n p t.seed).2 })

/-- The data transformer shows the arm, instead of a unit with `k0` covariates, the unit `view u` with `k` covariates. -/
structure Shows (transform : ExpData (Cell ℝ) → Except PyErr (ExpData (Cell ℝ))) (k0 k : ℕ) (view : Obs ℝ → Obs ℝ) : Prop where
  dataset : ∀ us, (∀ u ∈ us, u.z.length = k0) → transform (Obs.dataset k0 us) = .ok (Obs.dataset k (us.map view))
  covariates : ∀ u, u.z.length = k0 → (view u).z.length = k

/-- Whatever states the random generator is in when the updates begin: almost surely no update of the arm with a block of `m` of the units `U 0, U 1, ...`
fails, the estimates converge to `θ` and `v`, and the intervals shrink to `v`. -/
def Arm.Consistent {Ω E : Type} [MeasurableSpace Ω] (P : Measure Ω) (k : ℕ) (cfg : SSConfig (Cell ℝ) ℝ) (ops : EtaOps E (Cell ℝ) ℝ) (rng : Rng V ℝ)
    (U : ℕ → Ω → Obs ℝ) (m : ℕ) (δ : ℝ) (s0 : ArmState E (Cell ℝ) ℝ) (θ v : ℝ) : Prop :=
  ∀ w : ℕ → V, ∀ᵐ ω ∂P, ∃ s ci, s 0 = s0 ∧ Arm.Streams k cfg ops rng (fun i => U i ω) (fun _ => m) (.fin δ) s w ci ∧
    Arm.EstimatesConverge s θ v ∧ Arm.IntervalsConverge ci v

end Verif
