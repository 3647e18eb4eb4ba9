import Verif.Model.Data
import Verif.Model.Tabular

/-!
# Model of `causal_effect_bandits/scm.py`

`V` is the type of variable names, `β` of array cells, `W` of the state of the outside world (the global
NumPy random generator).  A CPD is any callable `(n_samples, parent_samples) -> array` that may raise and
may consume randomness.
-/

namespace Verif

/-- A conditional probability distribution (scm.py 45-47). -/
abbrev CPD (β W : Type) := Nat → List (Arr β) → W → Except PyErr (Arr β) × W

/-- scm.py 30-48: the attributes of an `SCM`. -/
structure SCM (V β W : Type) where
  varNames : List V
  parents : Dict V (List V)
  cpds : Dict V (CPD β W)
  covVariables : List V
  treatment : V
  response : V

/-- The arrays `generate` passes to `ExpData` (scm.py 101-105). -/
structure Sample (β : Type) where
  cov : Arr β
  exp : Arr β
  rsp : Arr β

namespace SCM
variable {V β W : Type} [DecidableEq V]

/-- scm.py 52-83 `SCM.__init__`. -/
def new (varNames : List V) (parents : Dict V (List V)) (cpds : Dict V (CPD β W)) (cov : List V)
    (treatment response : V) : Except PyErr (SCM V β W) :=
  if varNames.any fun v => (parents.get? v).isNone then .error .valueError            -- 67-68
  else if varNames.any fun v => (cpds.get? v).isNone then .error .valueError          -- 69-70
  else if treatment ∉ varNames then .error .valueError                                -- 72-73
  else if response ∉ varNames then .error .valueError                                 -- 74-75
  else if cov.any fun v => decide (v ∉ varNames) then .error .valueError              -- 76-77
  else .ok { varNames, parents, cpds, covVariables := cov, treatment, response }

/-- The rows of an array, 1-D arrays counting as one column (`np.column_stack` reshapes them). -/
def asRows : Arr β → List (List β)
  | .d1 xs => xs.map fun x => [x]
  | .d2 _ rows => rows

/-- Append the columns of `b` to the right of `a`. -/
def hcat (a b : List (List β)) : List (List β) := List.zipWith (· ++ ·) a b

/-- scm.py 99 `np.column_stack(arrays)`: `ValueError` on the empty list or on different numbers of rows. -/
def columnStack : List (Arr β) → Except PyErr (Arr β)
  | [] => .error .valueError
  | a :: as =>
    if as.any fun b => decide (b.len ≠ a.len) then .error .valueError
    else .ok (.d2 ((a :: as).map Arr.nFeatures).sum ((as.map asRows).foldl hcat (asRows a)))

/-- Read `samples[v]` for every `v` in a list (KeyError if missing). -/
def lookupAll {A : Type} (samples : Dict V A) : List V → Except PyErr (List A)
  | [] => .ok []
  | v :: vs =>
    match samples.get? v with
    | none => .error .keyError
    | some a => (lookupAll samples vs).map (a :: ·)

/-- scm.py 87-93: the sampling loop of `generate`. -/
def sampleLoop (scm : SCM V β W) (n : Nat) : List V → Dict V (Arr β) → W → Except PyErr (Dict V (Arr β)) × W
  | [], samples, w => (.ok samples, w)
  | v :: vs, samples, w =>
    match scm.parents.get? v with
    | none => (.error .keyError, w)
    | some ps =>
      if ps.any fun p => (samples.get? p).isNone then (.error .valueError, w)          -- 89-90
      else match lookupAll samples ps with                                            -- 91
        | .error e => (.error e, w)
        | .ok pa =>
          match scm.cpds.get? v with
          | none => (.error .keyError, w)
          | some cpd =>
            match cpd n pa w with                                                     -- 93
            | (.error e, w') => (.error e, w')
            | (.ok a, w') => sampleLoop scm n vs (samples.set v a) w'

/-- scm.py 85-105 `SCM.generate`. -/
def generate (scm : SCM V β W) (n : Nat) (w : W) : Except PyErr (Sample β) × W :=
  match scm.sampleLoop n scm.varNames [] w with
  | (.error e, w') => (.error e, w')
  | (.ok samples, w') =>
    let r : Except PyErr (Sample β) := do
      let covs ← lookupAll samples scm.covVariables                                   -- 98
      let x ← columnStack covs                                                        -- 99
      let e ← lookupAll samples [scm.treatment]
      let y ← lookupAll samples [scm.response]
      match e, y with
      | [e], [y] => return { cov := x, exp := e, rsp := y }
      | _, _ => throw .keyError
    (r, w')

/-- scm.py 117, 121: `lambda n, parents: self.deterministic_cpd(n, value)`.  `deterministic_cpd` is a
module-level function, not an attribute of `SCM` or its bases, so the call raises `AttributeError`. -/
def selfDeterministicCpd : CPD β W := fun _ _ w => (.error .attributeError, w)

/-- scm.py 129-130 `deterministic_cpd` with its value fixed, as a CPD. -/
def deterministicCpd (value : β) : CPD β W := fun n _ w => (.ok (.d1 (List.replicate n value)), w)

/-- scm.py 107-126 `SCM.compute_treatment_effect`; `mean` is `np.mean` and `sub` the difference.  Returns
the outcome, the object after the call and the world. -/
def computeTreatmentEffect {R : Type} (mean : Arr β → R) (sub : R → R → R) (scm : SCM V β W) (n : Nat) (w : W) :
    Except PyErr R × SCM V β W × W :=
  let old := scm.cpds.get? scm.treatment                                              -- 116
  let scm1 := { scm with cpds := scm.cpds.set scm.treatment selfDeterministicCpd }    -- 118
  match scm1.generate n w with                                                        -- 119
  | (.error e, w') => (.error e, scm1, w')
  | (.ok s1, w') =>
    let scm2 := { scm1 with cpds := scm1.cpds.set scm.treatment selfDeterministicCpd } -- 122
    match scm2.generate n w' with                                                     -- 123
    | (.error e, w'') => (.error e, scm2, w'')
    | (.ok s2, w'') =>
      let scm3 := match old with                                                      -- 125
        | some c => { scm2 with cpds := scm2.cpds.set scm.treatment c }
        | none => scm2
      (.ok (sub (mean s1.rsp) (mean s2.rsp)), scm3, w'')

end SCM

/-- scm.py 158 `p[i]`: one unit's entry of one parent. -/
def unitEntry {β : Type} (i : Nat) (p : List β) : Except PyErr β :=
  match p[i]? with
  | some v => .ok v
  | none => .error .indexError

/-- scm.py 155-161: the loop of `categorical_conditioning` over the conditioning values.  `toInt` is
`int(d)`; a distribution is called for one unit and its first sample kept. -/
def catLoop {β W : Type} (toInt : β → Int) (dists : List (List β → W → Except PyErr β × W))
    (rest : List (List β)) : Nat → List β → W → Except PyErr (List β) × W
  | _, [], w => (.ok [], w)
  | i, d :: ds, w =>
    match rest.mapM (unitEntry i) with                                                   -- 158
    | .error e => (.error e, w)
    | .ok ps =>
      match ExpData.pyIndex dists.length (toInt d) with                               -- 159
      | .error e => (.error e, w)
      | .ok k =>
        match dists[k]? with
        | none => (.error .indexError, w)
        | some dist =>
          match dist ps w with
          | (.error e, w') => (.error e, w')
          | (.ok s, w') =>
            match catLoop toInt dists rest (i + 1) ds w' with
            | (.error e, w'') => (.error e, w'')
            | (.ok ss, w'') => (.ok (s :: ss), w'')

/-- scm.py 133-161 `categorical_conditioning` (parents are lists of per-unit entries).  Returns the
outcome, the caller's `parents` list after the call (the conditioning parent is deleted from it, line 153)
and the world. -/
def categoricalConditioning {β W : Type} (toInt : β → Int) (parents : List (List β)) (idx : Int)
    (dists : List (List β → W → Except PyErr β × W)) (w : W) :
    Except PyErr (List β) × List (List β) × W :=
  if (parents.length : Int) ≤ idx then (.error .valueError, parents, w)                -- 148-150
  else match ExpData.pyIndex parents.length idx with                                  -- 152
    | .error e => (.error e, parents, w)
    | .ok k =>
      match parents[k]? with
      | none => (.error .indexError, parents, w)
      | some cond =>
        let rest := parents.eraseIdx k                                                -- 153
        match catLoop toInt dists rest 0 cond w with
        | (r, w') => (r, rest, w')

end Verif
