import Verif.Model.Py
import Verif.Model.Data
import Mathlib.Algebra.Order.Floor.Ring
import Mathlib.Data.List.Sort

/-!
# Model of `causal_effect_bandits/arms.py`

`E` is the state of the nuisance parameter object, `β` the cells of datasets, `α` the finite floats and
`W` the state of the outside world (the global NumPy random generator).

Simplifications: datasets are passed by value (the code lets the nuisance parameter keep a reference to
fold 0, which `append` later mutates in place; the reference is only read in the same `update` call that
set it); the nuisance parameter does not draw from the global random generator.
-/

namespace Verif

/-- parameters.py 64-141: what an arm calls on its nuisance parameter.  `csWidth` may return `None`
(`Protocol` default, parameters.py 105-120). -/
structure EtaOps (E β α : Type) where
  fit : E → ExpData β → Except PyErr Unit × E
  hasEnough : E → Except PyErr Bool
  score : E → ExpData β → Except PyErr (List (Fl α)) × E
  csWidth : E → Fl α → Fl α → Fl α → Except PyErr (Option (Fl α))
  reset : E → E

/-- The mathematical library functions used by the arms: `np.sqrt`, `np.log`, `scipy.stats.norm.ppf`,
`scipy.stats.chi2.ppf(q, df)`. -/
structure Libm (α : Type) where
  sqrt : Fl α → Fl α
  log : Fl α → Fl α
  normPpf : Fl α → Fl α
  chi2Ppf : Fl α → Int → Fl α

/-- The random draws made by `k_fold` (data.py 88) and `subsample` (data.py 117). -/
structure Rng (W α : Type) where
  perm : (n : Nat) → W → Equiv.Perm (Fin n) × W
  mask : (n : Nat) → Fl α → W → (Fin n → Bool) × W

/-- arms.py 64-77: the mutable attributes of an arm.  `delta` is the attribute assigned in `update`
(`none` = not yet set). -/
structure ArmState (E β α : Type) where
  ci : Option (Fl α) × Option (Fl α)
  eta : E
  ate : Option (Fl α)
  varEst : Option (Fl α)
  numPulled : Nat
  split : Option (List (ExpData β))
  delta : Option (Fl α)

/-- arms.py 133-136, 278-279: the interval algorithms; `other` is any other value. -/
inductive CIAlgorithm
  | chi2 | clt | finiteSample | other
  deriving DecidableEq

/-- arms.py 164-185: the fixed attributes of a `SampleSplittingArm`. -/
structure SSConfig (β α : Type) where
  transform : ExpData β → Except PyErr (ExpData β)
  alg : CIAlgorithm
  stable : Bool
  subG : Fl α
  etaSubG : Fl α
  tauBound : Fl α
  burnIn : Fl α
  rho : Fl α

/-- arms.py 301-312: the fixed attributes of a `BootstrapArm`. -/
structure BootConfig (β : Type) where
  transform : ExpData β → Except PyErr (ExpData β)
  nBootstraps : Int
  stable : Bool

namespace Arm
variable {E β α W : Type}

/-- arms.py 64-77 `VarianceEstimatorArm.__init__`. -/
def init (eta : E) : ArmState E β α where
  ci := (some .ninf, some .pinf)
  eta := eta
  ate := none
  varEst := none
  numPulled := 0
  split := none
  delta := none

/-- arms.py 94-101 `VarianceEstimatorArm.reset` (also 289-291: `SampleSplittingArm.reset` adds nothing). -/
def reset (ops : EtaOps E β α) (s : ArmState E β α) : ArmState E β α :=
  { s with ci := (none, none), eta := ops.reset s.eta, ate := none, varEst := none, numPulled := 0, split := none }

/-- arms.py 103-105 `VarianceEstimatorArm.get_num_units`, inherited by `BootstrapArm`. -/
def baseNumUnits (_ : ArmState E β α) : Nat := 0

/-- arms.py 283-287 `SampleSplittingArm.get_num_units`. -/
def ssNumUnits (s : ArmState E β α) : Nat :=
  match s.split with
  | none => 0
  | some fs => (fs.map (·.nUnits)).sum

variable [Field α] [LinearOrder α]

/-- arms.py 79-92 `VarianceEstimatorArm.update`: `num_pulled` is a read-only property, so the augmented
assignment on line 91 raises `AttributeError`. -/
def baseUpdate (_ : ExpData β) (_ : Fl α) : Py (ArmState E β α × W) (Fl α × Fl α) := do
  Py.modify fun (s, w) => ({ s with ci := (some (.fin 0), some .pinf) }, w)            -- 90
  Py.raise .attributeError                                                            -- 91

/-- `0 < delta < 1`. -/
def deltaOk (delta : Fl α) : Bool := (Fl.fin 0).lt delta && delta.lt (Fl.fin 1)

/-- `self._data_transformer(new_data).k_fold(2)`. -/
def transformAndFold (transform : ExpData β → Except PyErr (ExpData β)) (rng : Rng W α) (d : ExpData β) :
    Py (ArmState E β α × W) (List (ExpData β)) := fun (s, w) =>
  match transform d with
  | .error e => (.error e, s, w)
  | .ok t => (t.kFold 2 (rng.perm t.nUnits w).1, s, (rng.perm t.nUnits w).2)

/-- arms.py 213-214: append the new folds to the stored ones, in place. -/
def appendFolds (new : List (ExpData β)) : Py (ArmState E β α × W) Unit := fun (s, w) =>
  match s.split, new with
  | some [a, b], [c, d] =>
    match a.append c with
    | (.error e, a') => (.error e, { s with split := some [a', b] }, w)
    | (.ok (), a') => ((b.append d).1, { s with split := some [a', (b.append d).2] }, w)
  | _, _ => (.error .unmodelled, s, w)

/-- arms.py 208-216 / 335-344. -/
def addData (transform : ExpData β → Except PyErr (ExpData β)) (stable : Bool) (rng : Rng W α) (d : ExpData β) :
    Py (ArmState E β α × W) Unit := do
  let new ← transformAndFold transform rng d                                          -- 209, 212, 216
  let (s, _) ← Py.get
  if s.split.isSome && stable then appendFolds new                                    -- 213-214
  else Py.modify fun (s, w) => ({ s with split := some new }, w)                      -- 209, 216

/-- `self._eta.fit(d)`. -/
def etaFit (ops : EtaOps E β α) (d : ExpData β) : Py (ArmState E β α × W) Unit := fun (s, w) =>
  ((ops.fit s.eta d).1, { s with eta := (ops.fit s.eta d).2 }, w)

/-- `self._eta.calculate_score(d)`. -/
def etaScore (ops : EtaOps E β α) (d : ExpData β) : Py (ArmState E β α × W) (List (Fl α)) := fun (s, w) =>
  ((ops.score s.eta d).1, { s with eta := (ops.score s.eta d).2 }, w)

/-- `self._split_data[i]`. -/
def fold (i : Nat) : Py (ArmState E β α × W) (ExpData β) := fun (s, w) =>
  match s.split with
  | none => (.error .typeError, s, w)
  | some fs =>
    match fs[i]? with
    | none => (.error .indexError, s, w)
    | some d => (.ok d, s, w)

/-- `self._ci = (lo, hi); return self._ci`. -/
def setCi (lo hi : Fl α) : Py (ArmState E β α × W) (Fl α × Fl α) := do
  Py.modify fun (s, w) => ({ s with ci := (some lo, some hi) }, w)
  return (lo, hi)

/-- `(scores - ate) ** 2`. -/
def sqDev (scores : List (Fl α)) (ate : Fl α) : List (Fl α) := scores.map fun x => (x.sub ate).sq

/-- arms.py 240-245, the CHI2 interval. -/
def chi2Ci (lib : Libm α) (varEst delta : Fl α) (n : Nat) : Fl α × Fl α :=
  let num := varEst.mul (.fin ((n : α) - 1))
  (num.div (lib.chi2Ppf ((Fl.fin 1).sub (delta.div (.fin 2))) (n - 1)),
   num.div (lib.chi2Ppf (delta.div (.fin 2)) (n - 1)))

/-- arms.py 248-256, the CLT interval; `scores` are the scores on fold 1. -/
def cltCi (lib : Libm α) (varEst ate delta : Fl α) (numPulled : Nat) (scores : List (Fl α)) (n : Nat) : Fl α × Fl α :=
  let cltDelta := delta.div (.fin ((numPulled : α) * numPulled))                       -- 248
  let varOfVar := Fl.var (sqDev scores ate)                                           -- 251
  let se := lib.sqrt (varOfVar.div (.fin (n : α)))
  (Fl.maxStep (varEst.add ((lib.normPpf (cltDelta.div (.fin 2))).mul se)) (.fin 0),   -- 252-254
   varEst.add ((lib.normPpf ((Fl.fin 1).sub (cltDelta.div (.fin 2)))).mul se))        -- 255-256

/-- arms.py 272-276, the half-width of the finite-sample interval. -/
def fsWidth (lib : Libm α) (g tau m delta : Fl α) (n : Nat) (etaWidth : Fl α) : Fl α :=
  let lam := Fl.maxStep g ((Fl.fin 8).mul g.sq)                                        -- 272
  let w1 := (Fl.fin (5 / 8)).mul ((lib.sqrt ((Fl.fin 2).mul g)).add tau)               -- 273
  let inner := ((((Fl.fin 2).mul (lib.log ((lam.mul (.fin (n : α))).div m))).div (.fin (n : α))).add
    (.fin (1 / 2))).add (lib.log ((Fl.fin 4).div delta))
  let w2 := w1.mul ((lib.sqrt inner).div (lib.sqrt (.fin (n : α))))                    -- 274-275
  w2.add etaWidth.sq                                                                  -- 276

/-- arms.py 218-281: fitting, estimation and interval of `SampleSplittingArm.update`. -/
def ssEstimate (cfg : SSConfig β α) (ops : EtaOps E β α) (lib : Libm α) (delta : Fl α) :
    Py (ArmState E β α × W) (Fl α × Fl α) := do
  let f0 ← fold 0
  etaFit ops f0                                                                       -- 219
  let (s, _) ← Py.get
  let enough ← Py.lift (ops.hasEnough s.eta)
  if !enough then                                                                     -- 223-227
    Py.modify fun (s, w) => ({ s with ate := some .nan, varEst := some .pinf }, w)
    setCi (.fin 0) .pinf
  else
    let f1 ← fold 1
    let scores ← etaScore ops f1                                                      -- 230
    let ate := Fl.mean scores
    Py.modify fun (s, w) => ({ s with ate := some ate }, w)                           -- 231
    let scores2 ← etaScore ops f1                                                     -- 235
    let v := Fl.mean (sqDev scores2 ate)
    Py.modify fun (s, w) => ({ s with varEst := some v }, w)                          -- 234
    if v.isNan then Py.raise .valueError                                              -- 236-237
    else match cfg.alg with
      | .chi2 =>
        setCi (chi2Ci lib v delta f1.nUnits).1 (chi2Ci lib v delta f1.nUnits).2
      | .clt =>
        let scores3 ← etaScore ops f1                                                 -- 250
        let (s, _) ← Py.get
        setCi (cltCi lib v ate delta s.numPulled scores3 f1.nUnits).1
          (cltCi lib v ate delta s.numPulled scores3 f1.nUnits).2
      | .finiteSample =>
        if cfg.tauBound.le (.fin 0) || cfg.burnIn.le (.fin 1) || cfg.subG.le (.fin 0) then
          Py.raise .valueError                                                        -- 260-261
        else do
          let (s, _) ← Py.get
          let etaWidth ← Py.lift (ops.csWidth s.eta (delta.div (.fin 2)) cfg.etaSubG cfg.rho)  -- 262-266
          if (Fl.fin (f1.nUnits : α)).lt cfg.burnIn then setCi (.fin 0) .pinf         -- 268-270
          else match etaWidth with
            | none => Py.raise .typeError                                             -- 276: None ** 2
            | some ew =>
              let width := fsWidth lib cfg.subG cfg.tauBound cfg.burnIn delta f1.nUnits ew
              setCi (Fl.maxStep (v.sub width) (.fin 0)) (v.add width)                 -- 277
      | .other => Py.raise .valueError                                                -- 279

/-- arms.py 204, 206. -/
def countPull (delta : Fl α) : Py (ArmState E β α × W) Unit :=
  Py.modify fun (s, w) => ({ s with numPulled := s.numPulled + 1, delta := some delta }, w)

/-- arms.py 187-281 `SampleSplittingArm.update`. -/
def ssUpdate (cfg : SSConfig β α) (ops : EtaOps E β α) (lib : Libm α) (rng : Rng W α) (newData : ExpData β)
    (delta : Fl α) : Py (ArmState E β α × W) (Fl α × Fl α) :=
  if !deltaOk delta then Py.raise .valueError                                         -- 201-202
  else do
    countPull delta                                                                   -- 204, 206
    addData cfg.transform cfg.stable rng newData                                      -- 208-216
    ssEstimate cfg ops lib delta                                                      -- 218-281

/-- The order used by `np.ndarray.sort`: NaN last. -/
def sortLe (a b : Fl α) : Prop := (b.isNan || a.le b) = true

instance : DecidableRel (sortLe (α := α)) := fun _ _ => inferInstanceAs (Decidable (_ = true))

/-- arms.py 366 `b_samples.sort()`. -/
def npSort (l : List (Fl α)) : List (Fl α) := l.insertionSort sortLe

/-- Python list / array indexing. -/
def getAt (l : List (Fl α)) (i : Int) : Except PyErr (Fl α) :=
  match ExpData.pyIndex l.length i with
  | .error e => .error e
  | .ok k => match l[k]? with
    | none => .error .indexError
    | some x => .ok x

/-- `d.subsample(p)`, drawing the mask from the global generator. -/
def drawSubsample (rng : Rng W α) (d : ExpData β) (p : Fl α) : Py (ArmState E β α × W) (ExpData β × ExpData β) := fun (s, w) =>
  (d.subsample p (rng.mask d.nUnits p w).1, s, (rng.mask d.nUnits p w).2)

/-- arms.py 356-362: the bootstrap loop, `k` iterations left, `B = n_bootstraps`. -/
def bootLoop (ops : EtaOps E β α) (rng : Rng W α) (B : Int) : Nat → Py (ArmState E β α × W) (List (Fl α))
  | 0 => pure []
  | k + 1 => do
    let f0 ← fold 0
    let p : Fl α := (Fl.fin 1).div (.fin (B : α))
    let (inD, outD) ← drawSubsample rng f0 p                                          -- 358
    etaFit ops inD                                                                    -- 361
    let scores ← etaScore ops outD
    let rest ← bootLoop ops rng B k
    return Fl.var scores :: rest                                                      -- 362

variable [IsStrictOrderedRing α] [FloorRing α]

/-- arms.py 346-376: fitting, bootstrap and estimates of `BootstrapArm.update`. -/
def bootEstimate (cfg : BootConfig β) (ops : EtaOps E β α) (rng : Rng W α) (δ : α) :
    Py (ArmState E β α × W) (Fl α × Fl α) := do
  let f0 ← fold 0
  etaFit ops f0                                                                       -- 347
  let B : Int := if cfg.nBootstraps = 0 then ⌈4 / δ⌉ else cfg.nBootstraps              -- 349-352
  let samples ← bootLoop ops rng B B.toNat                                            -- 355-362
  let sorted := npSort samples                                                        -- 365-366
  let lo ← Py.lift (getAt sorted ⌊δ / 2 * (B : α)⌋)                                    -- 367
  let hi ← Py.lift (getAt sorted (⌈(1 - δ / 2) * (B : α)⌉ - 1))                        -- 368
  Py.modify fun (s, w) => ({ s with ci := (some lo, some hi) }, w)                    -- 369
  let f1 ← fold 1
  let sc1 ← etaScore ops f1
  Py.modify fun (s, w) => ({ s with ate := some (Fl.mean sc1) }, w)                   -- 372
  let sc2 ← etaScore ops f1
  Py.modify fun (s, w) => ({ s with varEst := some (Fl.var sc2) }, w)                 -- 374
  return (lo, hi)                                                                     -- 376

/-- arms.py 314-376 `BootstrapArm.update`. -/
def bootUpdate (cfg : BootConfig β) (ops : EtaOps E β α) (rng : Rng W α) (newData : ExpData β)
    (delta : Fl α) : Py (ArmState E β α × W) (Fl α × Fl α) :=
  if !deltaOk delta then Py.raise .valueError                                         -- 328-329
  else match delta with
  | .fin δ => do
    countPull delta                                                                   -- 331, 333
    addData cfg.transform cfg.stable rng newData                                      -- 335-344
    bootEstimate cfg ops rng δ                                                        -- 346-376
  | _ => Py.raise .unmodelled   -- unreachable: `0 < delta < 1` holds for finite values only

end Arm
end Verif
