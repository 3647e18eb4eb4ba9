import Verif.Model.Experiments
import Verif.Spec.Rerun
import Verif.Spec.PaperSafe

/-!
# Specification vocabulary for the experiments of the notebook
-/

namespace Verif
namespace PaperBandits
open Bandit

variable {W M P : Type}

/-- The states of the arms that an experiment can get to from `heap0`: after runs and resets of any bandits on them, on any data and with the
random generator seeded anew at any time, and after the comparison of variances, which fits single arms. -/
inductive Reached (sk : Sklearn M P) (ops : ArmOps (Obj M P) W (Cell ℝ) ℝ) (rng : Rng W ℝ) (heap0 : Nat → Obj M P) : (Nat → Obj M P) → Prop
  | new : Reached sk ops rng heap0 heap0
  | calls {h : Nat → Obj M P} (cs : List (BanditCall Nat W (Cell ℝ) ℝ)) (w : W) : Reached sk ops rng heap0 h →
      Reached sk ops rng heap0 (BanditCall.exec ops cs (h, w)).1
  | gap {h : Nat → Obj M P} (temp : ExpData (Cell ℝ)) (a : Nat) (w : W) : Reached sk ops rng heap0 h →
      Reached sk ops rng heap0 (armGap (etaOps sk) rng temp a (h, w)).2.1

/-- The counts of one repetition are plausible: both algorithms used at least one batch for each of the `n` arms and did not
exceed the limit by more than one round, and the count derived for the uniform algorithm is a whole number of rounds and not less than that of
successive elimination. -/
structure Plausible (n units : Nat) (l : ℝ) (c : Counts) : Prop where
  lucbLow : n * units ≤ c.lucb
  lucbHigh : (c.lucb : ℝ) ≤ l + ((n * units : Nat) : ℝ)
  seLow : n * units ≤ c.se
  seHigh : (c.se : ℝ) ≤ l + ((n * units : Nat) : ℝ)
  uniform : c.se ≤ c.uniform
  rounds : n * units ∣ c.uniform

end PaperBandits
end Verif
