import Verif.Model.SCM
import Mathlib.Analysis.SpecialFunctions.Exp

/-!
# Model of `causal_effect_bandits/example_scm.py`

Exact arithmetic over the reals.  The global generator is a state `W` with two primitives: `unif`, a number of the unit
interval, and `gauss`, a standard normal number.  `np.random.binomial(1, q)` is modelled by inversion: it is 1 when the
next uniform number is below `q`.  Decimal constants are exact.
-/

namespace Verif
namespace Example

/-- The primitives of the global generator. -/
structure Rng (W : Type) where
  unif : W → ℝ × W
  gauss : W → ℝ × W

variable {W : Type}

/-- `n` successive numbers. -/
def drawN (f : W → ℝ × W) : Nat → W → List ℝ × W
  | 0, w => ([], w)
  | n + 1, w =>
    match f w with
    | (x, w') =>
      match drawN f n w' with
      | (xs, w'') => (x :: xs, w'')

/-- `np.random.binomial(1, qs)`: `ValueError` if a probability is outside `[0, 1]`. -/
noncomputable def binomial (r : Rng W) (qs : List ℝ) (w : W) : Except PyErr (Arr ℝ) × W :=
  if qs.any fun q => decide (q < 0 ∨ 1 < q) then (.error .valueError, w)
  else
    match drawN r.unif qs.length w with
    | (us, w') => (.ok (.d1 (List.zipWith (fun u q => if u < q then 1 else 0) us qs)), w')

/-- A parent used as a vector (2-D parents do not occur and are not modelled). -/
def vec (pa : List (Arr ℝ)) (i : Nat) : Except PyErr (List ℝ) :=
  match pa[i]? with
  | none => .error .indexError
  | some (.d1 xs) => .ok xs
  | some (.d2 _ _) => .error .unmodelled

/-- `np.random.normal(size=len(parents[0])) + a * parents[i] + b * parents[j]` (52-54, 129-131); vectors of
different lengths raise (broadcasting a vector of length 1 is not modelled). -/
noncomputable def linearCpd (r : Rng W) (a : ℝ) (i : Nat) (b : ℝ) (j : Nat) : CPD ℝ W := fun _ pa w =>
  match vec pa 0 with
  | .error e => (.error e, w)
  | .ok z =>
    match drawN r.gauss z.length w with
    | (es, w') =>
      match vec pa i, vec pa j with
      | .ok xs, .ok ys =>
        if xs.length = es.length ∧ ys.length = es.length then
          (.ok (.d1 (List.zipWith (· + ·) (List.zipWith (fun e x => e + a * x) es xs) (ys.map fun y => b * y))), w')
        else (.error .valueError, w')
      | .error e, _ => (.error e, w')
      | _, .error e => (.error e, w')

/-- example_scm.py 74-84: the statistics returned with the SCM. -/
structure BackDoorStats where
  tau : ℝ
  muZ : ℝ
  varZ : ℝ
  muX : ℝ
  varX : ℝ
  muY : ℝ
  varY : ℝ

/-- example_scm.py 43-49: the statistics of `back_door_scm`. -/
noncomputable def backDoorStats (p beta alpha : ℝ) : BackDoorStats :=
  let tau := 10
  let muZ := p
  let varZ := p * (1 - p)
  let muX := 1 / 2 + alpha * p
  let varX := muX * (1 - muX)
  let muY := tau * muX + beta * muZ
  let varY := 1 + tau ^ 2 * varX + beta ^ 2 * varZ
  { tau, muZ, varZ, muX, varX, muY, varY }

/-- example_scm.py 52-60: the CPDs of `back_door_scm`. -/
noncomputable def backDoorCpds (r : Rng W) (p beta alpha : ℝ) : Dict String (CPD ℝ W) :=
  [("Z", fun n _ w => binomial r (List.replicate n p) w),
   ("X", fun _ pa w => match vec pa 0 with
      | .error e => (.error e, w)
      | .ok z => binomial r (z.map fun t => 1 / 2 + alpha * t) w),
   ("Y", linearCpd r 10 1 beta 0)]

/-- example_scm.py 29-39, 62-70: the SCM of `back_door_scm`. -/
noncomputable def backDoorScm (r : Rng W) (p beta alpha : ℝ) : Except PyErr (SCM String ℝ W) :=
  SCM.new ["Z", "X", "Y"] [("Z", []), ("X", ["Z"]), ("Y", ["Z", "X"])] (backDoorCpds r p beta alpha) ["Z"] "X" "Y"

/-- example_scm.py 107-108 `g`. -/
noncomputable def g (x : ℝ) : ℝ := 1 / (1 + Real.exp (-x))

/-- example_scm.py 155-169: the statistics returned with the SCM. -/
structure FrontDoorStats where
  tau : ℝ
  muZ : ℝ
  varZ : ℝ
  muX : ℝ
  varX : ℝ
  muY : ℝ
  varY : ℝ
  muU : ℝ
  varU : ℝ

/-- example_scm.py 110-126: the statistics of `frontdoor_scm`. -/
noncomputable def frontDoorStats (p beta gamma alpha1 alpha2 : ℝ) : FrontDoorStats :=
  let muU := p
  let varU := p * (1 - p)
  let muX := p * g alpha1 + (1 - p) / 2
  let varX := muX * (1 - muX)
  let muZ := muX * g beta + (1 - muX) / 2
  let varZ := muZ * (1 - muZ)
  let muY := gamma * muZ + alpha2 * muU
  let tau := gamma * (g beta - 1 / 2)
  let pz1u1 := (g beta * g alpha1 + 1 / 2 * (1 - g alpha1)) * p
  let pz1u0 := (g beta / 2 + 1 / 4) * (1 - p)
  let pz0u1 := ((1 - g beta) * g alpha1 + (1 - g alpha1) / 2) * p
  let muY2 := 1 + (gamma ^ 2 + alpha2 ^ 2) * pz1u1 + gamma ^ 2 * pz1u0 + alpha2 ^ 2 * pz0u1
  let varY := muY2 - muY ^ 2
  { tau, muZ, varZ, muX, varX, muY, varY, muU, varU }

/-- `np.random.binomial(1, g(c * parents[0]), size=n)` (134, 137): `ValueError` if the size differs. -/
noncomputable def logisticCpd (r : Rng W) (c : ℝ) : CPD ℝ W := fun n pa w =>
  match vec pa 0 with
  | .error e => (.error e, w)
  | .ok z => if z.length = n then binomial r (z.map fun t => g (c * t)) w else (.error .valueError, w)

/-- example_scm.py 129-144: the CPDs of `frontdoor_scm`. -/
noncomputable def frontDoorCpds (r : Rng W) (p beta gamma alpha1 alpha2 : ℝ) : Dict String (CPD ℝ W) :=
  [("U", fun n _ w => binomial r (List.replicate n p) w),
   ("X", logisticCpd r alpha1),
   ("Z", logisticCpd r beta),
   ("Y", linearCpd r gamma 0 alpha2 1)]

/-- example_scm.py 89-100, 146-154: the SCM of `frontdoor_scm`. -/
noncomputable def frontDoorScm (r : Rng W) (p beta gamma alpha1 alpha2 : ℝ) : Except PyErr (SCM String ℝ W) :=
  SCM.new ["U", "X", "Z", "Y"] [("U", []), ("X", ["U"]), ("Z", ["X"]), ("Y", ["Z", "U"])]
    (frontDoorCpds r p beta gamma alpha1 alpha2) ["U", "Z"] "X" "Y"

/-- `np.random.uniform(low, high)`. -/
noncomputable def uniform (r : Rng W) (low high : ℝ) (w : W) : ℝ × W :=
  match r.unif w with
  | (u, w') => (low + (high - low) * u, w')

/-- example_scm.py 74-84: what `back_door_scm` returns, the SCM and a dict. -/
structure BackDoorReturn (W : Type) where
  scm : SCM String ℝ W
  stats : BackDoorStats
  beta : ℝ
  alpha : ℝ

/-- example_scm.py 27-84 `back_door_scm`. -/
noncomputable def backDoor (r : Rng W) (w : W) : Except PyErr (BackDoorReturn W) × W :=
  match uniform r (1 / 5) (4 / 5) w with                                                -- 40
  | (p, w1) =>
    match uniform r (-(3 / 10)) (3 / 10) w1 with                                        -- 41
    | (b, w2) =>
      match uniform r (-(3 / 10)) (3 / 10) w2 with                                      -- 42
      | (alpha, w3) => ((backDoorScm r p (10 * b) alpha).map fun S => ⟨S, backDoorStats p (10 * b) alpha, 10 * b, alpha⟩, w3)

/-- example_scm.py 155-169: what `frontdoor_scm` returns. -/
structure FrontDoorReturn (W : Type) where
  scm : SCM String ℝ W
  stats : FrontDoorStats
  alpha1 : ℝ
  alpha2 : ℝ
  beta : ℝ
  gamma : ℝ

/-- example_scm.py 87-169 `frontdoor_scm`. -/
noncomputable def frontDoor (r : Rng W) (w : W) : Except PyErr (FrontDoorReturn W) × W :=
  match uniform r (1 / 5) (4 / 5) w with                                                -- 101
  | (p, w1) =>
    match uniform r (-1) 1 w1 with                                                      -- 102
    | (beta, w2) =>
      match uniform r 5 10 w2 with                                                      -- 103
      | (gamma, w3) =>
        match uniform r (-(3 / 10)) (3 / 10) w3 with                                    -- 104
        | (alpha1, w4) =>
          match uniform r (-(3 / 10)) (3 / 10) w4 with                                  -- 105
          | (alpha2, w5) =>
            ((frontDoorScm r p beta gamma alpha1 alpha2).map fun S =>
              ⟨S, frontDoorStats p beta gamma alpha1 alpha2, alpha1, alpha2, beta, gamma⟩, w5)

end Example
end Verif
