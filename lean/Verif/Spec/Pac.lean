import Verif.Spec.Bandits
import Mathlib.MeasureTheory.Measure.Dirac

/-!
# Specification vocabulary: the error probability of a run
-/

namespace Verif
variable {I S W β α : Type}
open MeasureTheory

/-- Some recorded interval of arm `a` does not contain `θ a` (strictly on the lower side); a NaN bound counts. -/
def BanditData.Misses [LinearOrder α] (bd : BanditData I α) (θ : I → α) (a : I) : Prop :=
  (∃ l ∈ bd.lcb a, l.lt (.fin (θ a)) = false) ∨ ∃ u ∈ bd.ucb a, (Fl.fin (θ a)).le u = false

/-- The run returns exactly one arm, and its true value is less than that of all others. -/
def BanditData.Right [LinearOrder α] (bd : BanditData I α) (arms : List I) (θ : I → α) : Prop :=
  ∃ b ∈ arms, bd.best = [b] ∧ ∀ a ∈ arms, a ≠ b → θ b < θ a

/-- The intervals of arm `a` are honest in `run`: whenever all its updates are made with the level `ℓ`, the probability
that one of them misses `θ a` is at most `ℓ`.  The world `w` is drawn from `μ`; `run` logs the updates of each arm. -/
def Honest [LinearOrder α] [Field α] [MeasurableSpace W] (ι : α →+* ℝ) (μ : Measure W)
    (run : Py ((I → S × List (ExpData β × Fl α)) × W) (Option (BanditData I α))) (heap : I → S) (θ : I → α) (a : I) : Prop :=
  ∀ ℓ : α, (∀ w, ∀ e ∈ ((run (fun a => (heap a, []), w)).2.1 a).2, e.2 = .fin ℓ) →
    μ {w | ∃ bd s', run (fun a => (heap a, []), w) = (.ok (some bd), s') ∧ bd.Misses θ a} ≤ ENNReal.ofReal (ι ℓ)

/-- An interval of arm `a` recorded while it had received `k` batches of `u` units does not contain `θ a`. -/
def BanditData.MissesAfter [LinearOrder α] (bd : BanditData I α) (θ : I → α) (u : Nat) (a : I) (k : Nat) : Prop :=
  ∃ t : Nat, ((bd.samples a).take (t + 1)).sum = k * u ∧
    ((∃ l, (bd.lcb a)[t]? = some l ∧ l.lt (.fin (θ a)) = false) ∨ ∃ r, (bd.ucb a)[t]? = some r ∧ (Fl.fin (θ a)).le r = false)

/-- The intervals of arm `a` are honest at the level `ℓ / k²` at its `k`-th update, as the intervals of the algorithm `CLT`
would be if the scores were Gaussian. -/
def HonestEach [LinearOrder α] [Field α] [MeasurableSpace W] (ι : α →+* ℝ) (μ : Measure W) (u : Nat)
    (run : Py ((I → S × List (ExpData β × Fl α)) × W) (Option (BanditData I α))) (heap : I → S) (θ : I → α) (a : I) : Prop :=
  ∀ ℓ : α, (∀ w, ∀ e ∈ ((run (fun a => (heap a, []), w)).2.1 a).2, e.2 = .fin ℓ) → ∀ k : Nat, 1 ≤ k →
    μ {w | ∃ bd s', run (fun a => (heap a, []), w) = (.ok (some bd), s') ∧ bd.MissesAfter θ u a k} ≤ ENNReal.ofReal (ι ℓ / (k : ℝ) ^ 2)

end Verif
