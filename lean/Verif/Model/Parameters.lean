import Verif.Model.Arms
import Verif.Model.Tabular

/-!
# Model of `causal_effect_bandits/parameters.py`

Cells of datasets are integers or floats (`Cell`), because `TabularCPD` keys are the bytes of the cells
and the bytes of `1` and `1.0` differ.  Cell values are finite.  The sklearn estimators are abstract
(`Predictor`): any state, any `fit`, any row-wise `predict`; sklearn's input checks (empty input, 1-D
input, unequal lengths raise `ValueError`) are modelled.  Predictions are finite numbers.

The matrix code (`calculate_cs_width`, `LinearRegressionParameter`) is in `ParametersReal.lean`.
-/

namespace Verif

/-- A number stored in a NumPy array: `int64` or `float64`. -/
inductive Cell (α : Type)
  | int (n : Int)
  | flt (a : α)
  deriving DecidableEq, Repr

namespace Cell
variable {α : Type} [Field α] [LinearOrder α]

/-- The numeric value. -/
def val : Cell α → α
  | int n => n
  | flt a => a

/-- `.tobytes()` of a scalar: the bytes of an integer and of a float differ, except for zero
(simplification: an integer whose bytes spell a denormal float is not identified with it). -/
def key : Cell α → Cell α
  | int n => int n
  | flt a => if a = 0 then int 0 else flt a

end Cell

/-- parameters.py 278-293 `Predictor` / `ProbPredictor`: an sklearn estimator with state `M`.  `predict` is
row-wise; for a classifier it is column 1 of `predict_proba`.  `clone` is `sklearn.clone`. -/
structure Predictor (M α : Type) where
  fit : M → List (List α) → List α → Except PyErr Unit × M
  predict : M → List α → α
  clone : M → M

namespace Predictor
variable {M α : Type}

/-- `estimator.fit(rows, ys)` with sklearn's checks. -/
def fitRows (R : Predictor M α) (rows : List (List α)) (ys : List α) : Py M Unit := fun m =>
  if rows.isEmpty || rows.length ≠ ys.length then (.error .valueError, m)
  else R.fit m rows ys

/-- `estimator.predict(rows)` of a fitted estimator (an empty input raises `ValueError`). -/
def predictRows (R : Predictor M α) (m : M) (rows : List (List α)) : Except PyErr (List α) :=
  if rows.isEmpty then .error .valueError else .ok (rows.map (R.predict m))

end Predictor

namespace Arr
variable {β : Type}

/-- The rows of a 2-D array; the entries of a 1-D one as rows of length one (what `np.c_` makes of it). -/
def asRows : Arr β → List (List β)
  | d1 xs => xs.map ([·])
  | d2 _ rows => rows

end Arr

namespace Param
variable {α : Type} [Field α] [LinearOrder α]

/-- Field access `d.exp` / `d.rsp` where `None` makes the following operation fail with `TypeError`. -/
def need {γ : Type} : Option γ → Except PyErr γ
  | none => .error .typeError
  | some x => .ok x

/-- `d.cov` as a 2-D array of numbers (sklearn rejects 1-D input with `ValueError`). -/
def cov2d (d : ExpData (Cell α)) : Except PyErr (List (List α)) :=
  match d.cov with
  | none => .error .typeError
  | some (.d1 _) => .error .valueError
  | some (.d2 _ rows) => .ok (rows.map (·.map Cell.val))

/-- `np.c_[xs, d.cov]`; unequal lengths raise `ValueError`. -/
def cStack (xs : List α) (d : ExpData (Cell α)) : Except PyErr (List (List α)) :=
  match d.cov with
  | none => .error .typeError
  | some a =>
    if xs.length ≠ a.len then .error .valueError
    else .ok (List.zipWith (· :: ·) xs (a.asRows.map (·.map Cell.val)))

/-- The values of an exposure or response array. -/
def vals (l : List (Cell α)) : List α := l.map Cell.val

/-- `np.clip(x, lo, hi)` = `minimum(maximum(x, lo), hi)`. -/
def clip (x lo hi : α) : α := min (max x lo) hi

/-- `sum(d.exp) < min_units or sum(d.exp) > n_units - min_units` (352, 615). -/
def tooFew (minUnits : Int) (n : Nat) (exp : List (Cell α)) : Bool :=
  decide ((vals exp).sum < (minUnits : α)) || decide ((vals exp).sum > (n : α) - (minUnits : α))

/-- Run a computation on one component of the state. -/
def zoom {σ τ A : Type} (get : σ → τ) (set : σ → τ → σ) (m : Py τ A) : Py σ A := fun s =>
  ((m (get s)).1, set s (m (get s)).2)

end Param

open Param

/-! ## AIPW -/

/-- parameters.py 309-328: the attributes of an `AIPW` parameter. -/
structure AIPW (M P α : Type) where
  hasBeenFit : Bool
  recent : Option (ExpData (Cell α))
  covDim : Nat
  response : M
  propensity : P
  minUnits : Int
  minOverlap : α

/-- parameters.py 420-424: the four nuisance values of one unit
`(mu(0,z), mu(1,z), mu(x,z), e(z))`. -/
structure AipwEta (α : Type) where
  mu0 : Fl α
  mu1 : Fl α
  muX : Fl α
  e : Fl α
  deriving DecidableEq, Repr

namespace AIPW
variable {M P α : Type} [Field α] [LinearOrder α]

/-- parameters.py 309-328 `AIPW.__init__`. -/
def new (covDim : Nat) (response : M) (propensity : P) (minUnits : Int) (minOverlap : α) : AIPW M P α where
  hasBeenFit := false
  recent := none
  covDim := covDim
  response := response
  propensity := propensity
  minUnits := minUnits
  minOverlap := minOverlap

/-- parameters.py 330-334 `AIPW.reset`. -/
def reset (R : Predictor M α) (C : Predictor P α) (s : AIPW M P α) : AIPW M P α :=
  { s with response := R.clone s.response, propensity := C.clone s.propensity, hasBeenFit := false, recent := none }

/-- parameters.py 336-361 `AIPW.fit`. -/
def fit (R : Predictor M α) (C : Predictor P α) (d : ExpData (Cell α)) : Py (AIPW M P α) Unit := do
  let s ← Py.get
  if d.nFeatures ≠ s.covDim then Py.raise .valueError                                  -- 346-348
  else do
    Py.modify fun s => { s with recent := some d }                                     -- 350
    let exp ← Py.lift (need d.exp)
    if tooFew s.minUnits d.nUnits exp then pure ()                                     -- 352-356
    else do
      let rows ← Py.lift (cStack (vals exp) d)
      let rsp ← Py.lift (need d.rsp)
      zoom (·.response) (fun s m => { s with response := m }) (R.fitRows rows (vals rsp))      -- 358
      let zs ← Py.lift (cov2d d)
      zoom (·.propensity) (fun s m => { s with propensity := m }) (C.fitRows zs (vals exp))    -- 359
      Py.modify fun s => { s with hasBeenFit := true }                                 -- 361

/-- parameters.py 397-426 `AIPW.transform`. -/
def transform (R : Predictor M α) (C : Predictor P α) (s : AIPW M P α) (d : ExpData (Cell α)) :
    Except PyErr (List (AipwEta α)) :=
  if !s.hasBeenFit then .ok (List.replicate d.nUnits ⟨.nan, .nan, .nan, .nan⟩)         -- 406-410
  else if d.nFeatures ≠ s.covDim then .error .valueError                               -- 412-414
  else do
    let zs ← cov2d d
    let probs ← C.predictRows s.propensity zs                                          -- 417
    let probs := probs.map fun p => clip p s.minOverlap (1 - s.minOverlap)             -- 418-419
    let rows0 ← cStack (List.replicate d.nUnits 0) d
    let mu0 ← R.predictRows s.response rows0                                           -- 421
    let rows1 ← cStack (List.replicate d.nUnits 1) d
    let mu1 ← R.predictRows s.response rows1                                           -- 422
    let exp ← need d.exp
    let rowsX ← cStack (vals exp) d
    let muX ← R.predictRows s.response rowsX                                           -- 423
    return (mu0.zip (mu1.zip (muX.zip probs))).map fun (a, b, c, p) => ⟨.fin a, .fin b, .fin c, .fin p⟩

/-- parameters.py 442: `1e-15`. -/
def tiny : α := 1 / 10 ^ 15

/-- parameters.py 444-447: the score of one unit with exposure `x` and response `y`. -/
def phiUnit (t : AipwEta α) (x y : α) : Fl α :=
  (t.mu1.sub t.mu0).add
    (((Fl.fin y).sub t.muX).mul (((Fl.fin x).div t.e).sub ((Fl.fin (1 - x)).div ((Fl.fin 1).sub t.e))))

/-- parameters.py 428-447 `AIPW._phi`.  The column check (439-441) cannot fail on what `transform` returns.
Arrays of unequal length are not modelled. -/
def phi (eta : List (AipwEta α)) (d : ExpData (Cell α)) : Except PyErr (List (Fl α)) :=
  if eta.any (fun t => t.e.lt (.fin tiny)) || eta.any (fun t => (Fl.fin (1 - tiny)).lt t.e) then
    .error .valueError                                                                 -- 442-443
  else do
    let rsp ← need d.rsp
    let exp ← need d.exp
    if rsp.length ≠ eta.length ∨ exp.length ≠ eta.length then .error .unmodelled
    else return (eta.zip ((vals exp).zip (vals rsp))).map fun (t, x, y) => phiUnit t x y

/-- parameters.py 449-459 `AIPW.calculate_score`. -/
def score (R : Predictor M α) (C : Predictor P α) (s : AIPW M P α) (d : ExpData (Cell α)) :
    Except PyErr (List (Fl α)) := do
  let eta ← transform R C s d
  phi eta d

end AIPW

/-! ## LinearParameterBinaryTreatment -/

/-- parameters.py 154-164: the attributes of a `LinearParameterBinaryTreatment`. -/
structure BinLin (M α : Type) where
  covDim : Nat
  treat : M
  cont : M
  hasBeenFit : Bool
  recent : Option (ExpData (Cell α))

namespace BinLin
variable {M α : Type} [Field α] [LinearOrder α]

/-- parameters.py 154-164 `__init__`; `ridge0` is the new `Ridge(alpha=1.0)`. -/
def new (ridge0 : M) (covDim : Nat) : BinLin M α where
  covDim := covDim
  treat := ridge0
  cont := ridge0
  hasBeenFit := false
  recent := none

/-- parameters.py 166-167 `reset`. -/
def reset (ridge0 : M) (s : BinLin M α) : BinLin M α := new ridge0 s.covDim

/-- parameters.py 188-194: the units (row and response) of one group. -/
def group (treated : Bool) (d : List (List α × α × α)) : List (List α × α) :=
  (d.filter fun u => decide (u.2.1 = 1) == treated).map fun u => (u.1, u.2.2)

/-- parameters.py 188-194: the rows with their exposure and response. -/
def unitRows (d : ExpData (Cell α)) : Except PyErr (List (List α × α × α)) := do
  let zs ← cov2d d
  let exp ← need d.exp
  let rsp ← need d.rsp
  if exp.length ≠ zs.length ∨ rsp.length ≠ zs.length then .error .unmodelled
  else return zs.zip ((vals exp).zip (vals rsp))

/-- parameters.py 169-208 `fit`.  The guard on line 198 compares lists with `0` and is always false. -/
def fit (R : Predictor M α) (d : ExpData (Cell α)) : Py (BinLin M α) Unit := do
  let s ← Py.get
  if d.nFeatures ≠ s.covDim then Py.raise .valueError                                  -- 178-180
  else do
    let us ← Py.lift (unitRows d)                                                      -- 188-194
    Py.modify fun s => { s with recent := some d }                                     -- 196
    let tr := group true us
    let ct := group false us
    zoom (·.treat) (fun s m => { s with treat := m }) (R.fitRows (tr.map Prod.fst) (tr.map Prod.snd))  -- 205
    zoom (·.cont) (fun s m => { s with cont := m }) (R.fitRows (ct.map Prod.fst) (ct.map Prod.snd))    -- 206
    Py.modify fun s => { s with hasBeenFit := true }                                   -- 208

/-- parameters.py 210-233 `transform`: per unit `(mu(0,z), mu(1,z))`. -/
def transform (R : Predictor M α) (s : BinLin M α) (d : ExpData (Cell α)) : Except PyErr (List (Fl α × Fl α)) :=
  if !s.hasBeenFit then .ok (List.replicate d.nUnits (.nan, .nan))                     -- 219-223
  else if d.nFeatures ≠ s.covDim then .error .valueError                               -- 225-227
  else do
    let zs ← cov2d d
    let c ← R.predictRows s.cont zs
    let t ← R.predictRows s.treat zs
    return (c.zip t).map fun (a, b) => (.fin a, .fin b)

/-- parameters.py 235-262 `_phi` and `calculate_score`. -/
def score (R : Predictor M α) (s : BinLin M α) (d : ExpData (Cell α)) : Except PyErr (List (Fl α)) := do
  let eta ← transform R s d
  return eta.map fun (a, b) => b.sub a                                                 -- 250

/-- parameters.py 102-103: `has_enough_samples` is not overridden; the `Protocol` body returns `None`,
which is falsy. -/
def hasEnough (_ : BinLin M α) : Bool := false

end BinLin

/-! ## FrontDoorLinearFiniteZ -/

/-- parameters.py 564-588: the attributes of a `FrontDoorLinearFiniteZ`. -/
structure FrontDoor (M α : Type) where
  covDim : Nat
  minOverlap : α
  minUnits : Int
  ratio : α
  hasBeenFit : Bool
  recent : Option (ExpData (Cell α))
  yResponse : M
  cpd : Tab (Cell α) (List (Cell α)) α
  expProb : α

/-- parameters.py 681-690: the eight nuisance values of one unit. -/
structure FdEta (α : Type) where
  mu : Fl α
  p1 : Fl α
  p0 : Fl α
  px : Fl α
  w : Fl α
  f1 : Fl α
  f2 : Fl α
  f3 : Fl α
  deriving DecidableEq, Repr

namespace FrontDoor
variable {M α : Type} [Field α] [LinearOrder α]

/-- parameters.py 564-588 `__init__`; `ridge0` is the new `Ridge(alpha=1.0, fit_intercept=True)`. -/
def new (ridge0 : M) (covDim : Nat) (minUnits : Int) (minOverlap ratio : α) : FrontDoor M α where
  covDim := covDim
  minOverlap := minOverlap
  minUnits := minUnits
  ratio := ratio
  hasBeenFit := false
  recent := none
  yResponse := ridge0
  cpd := Tab.new ratio
  expProb := 1 / 2

/-- parameters.py 590-598 `reset`. -/
def reset (ridge0 : M) (s : FrontDoor M α) : FrontDoor M α :=
  { new ridge0 s.covDim s.minUnits s.minOverlap s.ratio with hasBeenFit := false, recent := none }

/-- `zi.tobytes()` of a row. -/
def rowKey (z : List (Cell α)) : List (Cell α) := z.map Cell.key

/-- The rows of `d.cov`; 1-D covariates are not modelled for this class. -/
def covRows (d : ExpData (Cell α)) : Except PyErr (List (List (Cell α))) :=
  match d.cov with
  | some (.d2 _ rows) => .ok rows
  | _ => .error .unmodelled

/-- parameters.py 600-625 `fit`. -/
def fit (R : Predictor M α) (d : ExpData (Cell α)) : Py (FrontDoor M α) Unit := do
  let s ← Py.get
  if d.nFeatures ≠ s.covDim then Py.raise .valueError                                  -- 609-611
  else do
    Py.modify fun s => { s with recent := some d }                                     -- 613
    let exp ← Py.lift (need d.exp)
    if tooFew s.minUnits d.nUnits exp then pure ()                                     -- 615-619
    else do
      let rows ← Py.lift (cStack (vals exp) d)
      let rsp ← Py.lift (need d.rsp)
      zoom (·.yResponse) (fun s m => { s with yResponse := m }) (R.fitRows rows (vals rsp))    -- 620
      let q := (vals exp).sum / (exp.length : α)
      Py.modify fun s => { s with expProb := clip q s.minOverlap (1 - s.minOverlap) }  -- 621-622
      let zs ← Py.lift (covRows d)
      zoom (·.cpd) (fun s t => { s with cpd := t })
        (fun t => t.fit (exp.map Cell.key) (zs.map rowKey))                            -- 623
      Py.modify fun s => { s with hasBeenFit := true }                                 -- 625

/-- `self.cov_given_exp.predict(xs, zs)` on keys; reading inserts missing keys. -/
def look (xs : List (Cell α)) (zs : List (List (Cell α))) : Py (FrontDoor M α) (List α) :=
  zoom (·.cpd) (fun s t => { s with cpd := t }) fun t => (.ok (t.predictArr xs zs).1, (t.predictArr xs zs).2)

/-- parameters.py 744-756: the loop over the support.  `xs` are the exposures, `p1`, `p0` the clipped
probabilities of the units' own covariates, the accumulators are `f_1` and `f_3`.
`predict(np.array([1]), z)` zips `[1]` with the *entries* of the row `z`, so it looks up the first entry. -/
def supportLoop (R : Predictor M α) (m : M) (q : α) (xs p1 p0 : List α) :
    List (List (Cell α)) → List α × List α → Py (FrontDoor M α) (List α × List α)
  | [], acc => pure acc
  | z :: zs, (f1, f3) => do
    let zv := z.map Cell.val
    let mus := xs.map fun x => R.predict m (x :: zv)                                   -- 745-748
    match z with
    | [] => Py.raise .unmodelled                                                       -- no covariates
    | z0 :: _ => do
      let a ← look [Cell.int 1] [[z0]]                                                 -- 750
      let b ← look [Cell.int 0] [[z0]]                                                 -- 751
      let g := a.headD 0 - b.headD 0
      let f1 := List.zipWith (fun f mu => f + mu * g) f1 mus
      let f3 := List.zipWith (fun f (p : α × α) =>
        f + (R.predict m (1 :: zv) * q * p.1 + R.predict m (0 :: zv) * (1 - q) * p.2)) f3 (p1.zip p0)  -- 753-756
      supportLoop R m q xs p1 p0 zs (f1, f3)

/-- parameters.py 677-771 `transform`. -/
def transform (R : Predictor M α) (d : ExpData (Cell α)) : Py (FrontDoor M α) (List (FdEta α)) := do
  let s ← Py.get
  if d.nFeatures ≠ s.covDim then Py.raise .valueError                                  -- 712-715
  else if !s.hasBeenFit then
    return List.replicate d.nUnits ⟨.nan, .nan, .nan, .nan, .nan, .nan, .nan, .nan⟩    -- 717-721
  else do
    let exp ← Py.lift (need d.exp)
    let rows ← Py.lift (cStack (vals exp) d)
    let mu ← Py.lift (R.predictRows s.yResponse rows)                                  -- 724
    let zs ← Py.lift (covRows d)
    let keys := zs.map rowKey
    let p1 ← look (List.replicate d.nUnits (.int 1)) keys                              -- 725
    let p0 ← look (List.replicate d.nUnits (.int 0)) keys                              -- 726
    let px ← look (exp.map Cell.key) keys                                              -- 727
    let p1 := p1.map fun p => clip p s.minOverlap (1 - s.minOverlap)                   -- 729
    let p0 := p0.map fun p => clip p s.minOverlap (1 - s.minOverlap)                   -- 730
    let px := px.map fun p => clip p s.minOverlap (1 - s.minOverlap)                   -- 731
    let rows1 ← Py.lift (cStack (List.replicate d.nUnits 1) d)
    let mu1 ← Py.lift (R.predictRows s.yResponse rows1)                                -- 735-736
    let rows0 ← Py.lift (cStack (List.replicate d.nUnits 0) d)
    let mu0 ← Py.lift (R.predictRows s.yResponse rows0)                                -- 737-738
    let f2 := List.zipWith (fun a b => s.expProb * a + (1 - s.expProb) * b) mu1 mu0    -- 740
    let (f1, f3) ← supportLoop R s.yResponse s.expProb (vals exp) p1 p0 s.cpd.zValues
      (List.replicate d.nUnits 0, List.replicate d.nUnits 0)                           -- 742-756
    let w := (vals exp).map fun x =>
      ((Fl.fin x).div (.fin s.expProb)).sub ((Fl.fin (1 - x)).div (.fin (1 - s.expProb)))      -- 758
    return (mu.zip (p1.zip (p0.zip (px.zip (w.zip (f1.zip (f2.zip f3))))))).map
      fun (mu, p1, p0, px, w, f1, f2, f3) =>
        ⟨.fin mu, .fin p1, .fin p0, .fin px, w, .fin f1, .fin f2, .fin f3⟩             -- 760-769

/-- parameters.py 815-817: the score of one unit. -/
def phiUnit (t : FdEta α) (y : α) : Fl α :=
  ((((Fl.fin y).sub t.mu).mul ((t.p1.div t.px).sub (t.p0.div t.px))).add t.f1).add (t.w.mul (t.f2.sub t.f3))

/-- parameters.py 773-819 `_phi`.  The column check (811-813) cannot fail on what `transform` returns. -/
def phi (eta : List (FdEta α)) (d : ExpData (Cell α)) : Except PyErr (List (Fl α)) := do
  let rsp ← need d.rsp
  if rsp.length ≠ eta.length then .error .unmodelled
  else return (eta.zip (vals rsp)).map fun (t, y) => phiUnit t y

/-- parameters.py 821-831 `calculate_score`. -/
def score (R : Predictor M α) (d : ExpData (Cell α)) : Py (FrontDoor M α) (List (Fl α)) := do
  let eta ← transform R d
  Py.lift (phi eta d)

end FrontDoor
end Verif
