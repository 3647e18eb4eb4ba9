import Verif.Spec.Parameters
import Verif.Spec.Arms

/-!
# Specification vocabulary: data and estimators a `SampleSplittingArm` can rely on
-/

namespace Verif
variable {α : Type} [Field α] [LinearOrder α]

/-- `LogisticRegression.fit` does not raise when both classes are present. -/
def Predictor.FitsBothClasses {P α : Type} [Field α] [LinearOrder α] (C : Predictor P α) : Prop :=
  ∀ p rows ys, rows.length = ys.length → (∀ y ∈ ys, y = 0 ∨ y = 1) → (0 : α) ∈ ys → (1 : α) ∈ ys → (C.fit p rows ys).1 = .ok ()

/-- A dataset of `n` or more units with a covariate array of `k` columns, a response, and exposures that are all `x0` (control) or
`x1` (treatment). -/
def GoodData (k : Nat) (x0 x1 : Cell α) (n : Nat) (d : ExpData (Cell α)) : Prop :=
  ∃ us : List (Obs α), d = Obs.dataset k us ∧ n ≤ us.length ∧ ∀ u ∈ us, u.z.length = k ∧ (u.x = x0 ∨ u.x = x1)

/-- The parameters of an arm for which its interval is well defined: CLT intervals, or finite-sample intervals with finite constants in
the range the constructor of an experiment has to choose them from. -/
inductive SafeConfig {β : Type} (cfg : SSConfig β α) : Prop
  | clt : cfg.alg = .clt → SafeConfig cfg
  | finite (g h τ m r : α) : cfg.alg = .finiteSample → cfg.subG = .fin g → cfg.etaSubG = .fin h → cfg.tauBound = .fin τ → cfg.burnIn = .fin m →
      cfg.rho = .fin r → 0 < g → 1 / 4 ≤ max g (8 * g ^ 2) → 0 < h → 0 < τ → 1 < m → 0 < r → SafeConfig cfg

/-- A batch and a confidence level that an arm with transformer `transform` accepts. -/
def GoodBatch (transform : ExpData (Cell α) → Except PyErr (ExpData (Cell α))) (k : Nat) (x0 x1 : Cell α) (b : ExpData (Cell α) × Fl α) : Prop :=
  (∃ t, transform b.1 = .ok t ∧ GoodData k x0 x1 2 t) ∧ ValidDelta b.2

end Verif
