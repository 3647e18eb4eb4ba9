import Verif.Model.Fl

/-!
# Model of `causal_effect_bandits/data.py`, class `TabularCPD` (lines 299-419)

Python dicts are insertion-ordered association lists.  `KX`, `KZ` are the types of the `.tobytes()` keys
of `x` and `z` observations; the `x_values` / `z_values` dicts map a key to the array it came from, which
is identified with the key, so only their key lists are kept.  Numbers are elements of an ordered field
(the counts, frequencies and `min_ratio_to_uniform` are finite floats).
-/

namespace Verif

/-- An insertion-ordered dict. -/
abbrev Dict (K V : Type) := List (K × V)

namespace Dict
variable {K V : Type} [DecidableEq K]

/-- `d.get(k)`. -/
def get? : Dict K V → K → Option V
  | [], _ => none
  | (k, v) :: d, k' => if k = k' then some v else get? d k'

/-- `d[k] = v`: overwrite in place, or append a new key. -/
def set : Dict K V → K → V → Dict K V
  | [], k, v => [(k, v)]
  | (k', v') :: d, k, v => if k' = k then (k', v) :: d else (k', v') :: set d k v

/-- The effect of merely reading `d[k]` on a `defaultdict`: a missing key is inserted. -/
def touch (d : Dict K V) (k : K) (dflt : V) : Dict K V :=
  match d.get? k with
  | some _ => d
  | none => d.set k dflt

/-- `d[k]` on a `defaultdict` with default value `dflt` (the value read). -/
def getD (d : Dict K V) (k : K) (dflt : V) : V := (d.get? k).getD dflt

end Dict

/-- Insert a key in a key list (dict assignment keeps the first position). -/
def addKey {K : Type} [DecidableEq K] (l : List K) (k : K) : List K := if k ∈ l then l else l ++ [k]

/-- data.py 322-329: the attributes of a `TabularCPD`.  `minProb` is `none` before the first fit. -/
structure Tab (KX KZ α : Type) where
  nUnits : Nat
  table : Dict KX (Dict KZ α)
  xMarginal : Dict KX α
  xValues : List KX
  zValues : List KZ
  ratio : α
  minProb : Option α
  deriving DecidableEq, Repr

namespace Tab
variable {KX KZ α : Type} [DecidableEq KX] [DecidableEq KZ] [Field α] [LinearOrder α]

/-- data.py 322-329 `TabularCPD.__init__`. -/
def new (ratio : α) : Tab KX KZ α where
  nUnits := 0
  table := []
  xMarginal := []
  xValues := []
  zValues := []
  ratio := ratio
  minProb := none

/-- data.py 349-353: the body of the counting loop for one pair. -/
def countStep (t : Tab KX KZ α) (xz : KX × KZ) : Tab KX KZ α :=
  let row := t.table.getD xz.1 []
  { t with
    table := t.table.set xz.1 (row.set xz.2 (row.getD xz.2 0 + 1))
    xValues := addKey t.xValues xz.1
    zValues := addKey t.zValues xz.2 }

/-- data.py 368-379: the loop over `z_values` for one row.  The state is the row, `non_violating_z` and
`total_violations`; the first division by zero ends the loop with `ZeroDivisionError`. -/
def rowLoop (mp N : α) : List KZ → Dict KZ α × List KZ × α → Except PyErr Unit × Dict KZ α × List KZ × α
  | [], s => (.ok (), s)
  | z :: zs, (row, nv, V) =>
    if N = 0 then (.error .zeroDivisionError, row.touch z 0, nv, V)                    -- 371
    else
      let p := row.getD z 0 / N
      if p < mp then rowLoop mp N zs (row.set z mp, nv, V + (mp - p))                   -- 372-374
      else if p > 1 - mp then rowLoop mp N zs (row.set z (1 - mp), nv, V + (p - (1 - mp)))  -- 375-377
      else rowLoop mp N zs (row.set z p, nv ++ [z], V)                                  -- 378-379

/-- data.py 380-383: spread the violations over the non-violating entries. -/
def spread (nv : List KZ) (V : α) (row : Dict KZ α) : Dict KZ α :=
  nv.foldl (fun row z => row.set z (row.getD z 0 - V / (nv.length : α))) row

/-- data.py 363-383: the normalisation loop over `x_values`. -/
def normLoop (mp : α) : List KX → Tab KX KZ α → Except PyErr Unit × Tab KX KZ α
  | [], t => (.ok (), t)
  | x :: xs, t =>
    let row := t.table.getD x []                                                        -- 365
    let t0 := { t with table := t.table.touch x [] }
    let N := (row.map Prod.snd).foldl (· + ·) 0                                         -- 366
    if t.nUnits = 0 then (.error .zeroDivisionError, t0)                                -- 367
    else
      let t1 := { t0 with xMarginal := t0.xMarginal.set x (N / (t.nUnits : α)) }
      match rowLoop mp N t.zValues (row, [], 0) with
      | (.error e, row', _, _) => (.error e, { t1 with table := t1.table.set x row' })
      | (.ok (), row', nv, V) =>
        normLoop mp xs { t1 with table := t1.table.set x (spread nv V row') }

/-- data.py 331-383 `TabularCPD.fit`.  `xs`, `zs` are the keys of the observations. -/
def fit (t : Tab KX KZ α) (xs : List KX) (zs : List KZ) : Except PyErr Unit × Tab KX KZ α :=
  if xs.length ≠ zs.length then (.error .valueError, t)                                 -- 343-344
  else
    let t1 := { t with nUnits := xs.length, table := [], xMarginal := [] }              -- 345-348
    let t2 := (xs.zip zs).foldl countStep t1                                            -- 349-353
    if t2.zValues.length = 0 then (.error .zeroDivisionError, t2)                       -- 359: 1 / 0
    else if t2.ratio = 0 then (.error .zeroDivisionError, t2)                           -- 359: … / 0
    else
      let mp0 := 1 / (t2.zValues.length : α) / t2.ratio
      let mp := if mp0 > 1 then 1 / 5 else mp0                                          -- 360-361
      normLoop mp t2.xValues { t2 with minProb := some mp }

/-- data.py 394-410 `TabularCPD.predict`: returns the probabilities and the table with the inserted
default keys. -/
def predict (t : Tab KX KZ α) : List (KX × KZ) → List α × Tab KX KZ α
  | [] => ([], t)
  | (x, z) :: rest =>
    let row := t.table.getD x []
    let t' := { t with table := t.table.set x (row.touch z 0) }
    let (ps, t'') := predict t' rest
    (row.getD z 0 :: ps, t'')

/-- data.py 394-410 with the two arguments `x`, `z`, zipped (the shorter one decides). -/
def predictArr (t : Tab KX KZ α) (xs : List KX) (zs : List KZ) : List α × Tab KX KZ α :=
  t.predict (xs.zip zs)

/-- data.py 385-392 `x_support`, `z_support`, `support_size`. -/
def supportSize (t : Tab KX KZ α) : Nat := t.zValues.length

/-- data.py 412-419 `TabularCPD.__str__`: the entries printed, row by row (the fixed parts of the text are dropped); `x_values[x]` and
`z_values[z]` raise `KeyError` for keys that are in the table only. -/
def str (t : Tab KX KZ α) : Except PyErr (List (KX × List (KZ × α))) :=
  t.table.mapM fun r =>
    if r.1 ∉ t.xValues then .error .keyError                                            -- 415
    else do
      let row ← r.2.mapM fun c => if c.1 ∉ t.zValues then .error .keyError else .ok c   -- 416-417
      return (r.1, row)

end Tab
end Verif
