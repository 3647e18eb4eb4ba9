import Verif.Model.Fl
import Mathlib.Logic.Equiv.Defs
import Mathlib.Data.List.OfFn

/-!
# Model of `causal_effect_bandits/data.py`, class `ExpData` and the data transformers

`β` is the type of array cells.  Arrays are 1-D or 2-D; exposures and responses are 1-D.
-/

namespace Verif



/-- A covariate array: 1-D (`shape = (n,)`) or 2-D (`shape = (n, ncols)`). -/
inductive Arr (β : Type)
  | d1 (xs : List β)
  | d2 (ncols : Nat) (rows : List (List β))
  deriving DecidableEq, Repr

namespace Arr
variable {β : Type}

/-- `shape[0]`. -/
def len : Arr β → Nat
  | d1 xs => xs.length
  | d2 _ rows => rows.length

/-- `1` for a one dimensional array, else `shape[1]` (data.py 56-59). -/
def nFeatures : Arr β → Nat
  | d1 _ => 1
  | d2 c _ => c

/-- Apply a shape-polymorphic list operation along the first axis. -/
def onRows (f : {γ : Type} → List γ → List γ) : Arr β → Arr β
  | d1 xs => d1 (f xs)
  | d2 c rows => d2 c (f rows)

/-- `np.r_[a, b]` along the first axis: ranks and column counts must agree. -/
def concat : Arr β → Arr β → Except PyErr (Arr β)
  | d1 xs, d1 ys => .ok (d1 (xs ++ ys))
  | d2 c xs, d2 c' ys => if c = c' then .ok (d2 c (xs ++ ys)) else .error .valueError
  | _, _ => .error .valueError

end Arr

/-- data.py 29-62: the attributes of an `ExpData` object.  `cov = none` is `ExpData(None, ...)`. -/
structure ExpData (β : Type) where
  cov : Option (Arr β)
  exp : Option (List β)
  rsp : Option (List β)
  nUnits : Nat
  nFeatures : Nat
  deriving DecidableEq, Repr

namespace ExpData
variable {β : Type}

/-- data.py 49-62 `ExpData.__init__`. -/
def new (cov : Option (Arr β)) (exp rsp : Option (List β)) : ExpData β where
  cov := cov
  exp := exp
  rsp := rsp
  nUnits := match cov with | none => 0 | some a => a.len
  nFeatures := match cov with | none => 0 | some a => a.nFeatures

/-- data.py 71 `np.r_[self.cov, new_data.cov]`; concatenating `None`s is not modelled. -/
def catCov : Option (Arr β) → Option (Arr β) → Except PyErr (Arr β)
  | some a, some b => a.concat b
  | _, _ => .error .unmodelled

/-- data.py 67-81 `ExpData.append`.  Returns the outcome and the object after the call, which is
mutated field by field, also when a later check raises. -/
def append (self new : ExpData β) : Except PyErr Unit × ExpData β :=
  if new.nFeatures ≠ self.nFeatures then (.error .valueError, self)            -- 69-70
  else match catCov self.cov new.cov with
  | .error e => (.error e, self)
  | .ok cov =>
    let s1 := { self with cov := some cov }                                     -- 71
    match self.exp, new.exp with
    | some _, none => (.error .valueError, s1)                                  -- 73-74
    | sexp, nexp =>
      let exp' := match sexp, nexp with
        | some e, some e' => some (e ++ e')                                     -- 75
        | _, _ => sexp
      let s2 := { s1 with exp := exp' }
      match self.rsp, new.rsp with
      | some _, none => (.error .valueError, s2)                                -- 77-78
      | srsp, nrsp =>
        let rsp' := match srsp, nrsp with
          | some r, some r' => some (r ++ r')                                   -- 79
          | _, _ => srsp
        (.ok (), { s2 with rsp := rsp', nUnits := cov.len })                    -- 81

/-- Keep the entries whose mask bit is set. -/
def filterMask {γ : Type} : List Bool → List γ → List γ
  | true :: m, x :: xs => x :: filterMask m xs
  | false :: m, _ :: xs => filterMask m xs
  | _, _ => []

/-- NumPy boolean indexing of a 1-D array: `IndexError` if the mask has another length. -/
def maskList {γ : Type} (m : List Bool) (xs : List γ) : Except PyErr (List γ) :=
  if m.length = xs.length then .ok (filterMask m xs) else .error .indexError

/-- NumPy boolean indexing along the first axis; `None[mask]` is a `TypeError`. -/
def maskCov (m : List Bool) : Option (Arr β) → Except PyErr (Arr β)
  | none => .error .typeError
  | some a => if m.length = a.len then .ok (a.onRows (filterMask m)) else .error .indexError

/-- Mask an optional field, keeping `None` (data.py 93-100, 119-130). -/
def maskOpt (m : List Bool) : Option (List β) → Except PyErr (Option (List β))
  | none => .ok none
  | some xs => (maskList m xs).map some

/-- The dataset selected by a boolean mask: `ExpData(self.cov[m], self.exp[m], self.rsp[m])`
(data.py 92-101 and 119-133). -/
def select (self : ExpData β) (m : List Bool) : Except PyErr (ExpData β) := do
  let c ← maskCov m self.cov
  let e ← maskOpt m self.exp
  let r ← maskOpt m self.rsp
  return new (some c) e r

/-- data.py 88: `np.random.permutation(np.mod(np.arange(n), k))`.  The random permutation is the
argument `σ`; the label of unit `i` is entry `σ i` of `arange(n) mod k`. -/
def foldLabels (n k : Nat) (σ : Equiv.Perm (Fin n)) : List Nat :=
  List.ofFn fun i : Fin n => (σ i).val % k

/-- data.py 83-103 `ExpData.k_fold`. -/
def kFold (self : ExpData β) (k : Int) (σ : Equiv.Perm (Fin self.nUnits)) :
    Except PyErr (List (ExpData β)) :=
  if k < 1 then .error .valueError
  else
    let labels := foldLabels self.nUnits k.toNat σ
    (List.range k.toNat).mapM fun i => self.select (labels.map (· == i))

/-- data.py 105-134 `ExpData.subsample`; the random mask is an argument. -/
def subsample {α : Type} [Field α] [LinearOrder α] (self : ExpData β) (p : Fl α)
    (mask : Fin self.nUnits → Bool) : Except PyErr (ExpData β × ExpData β) :=
  if !((Fl.fin 0).le p && p.le (Fl.fin 1)) then .error .valueError               -- 114-115
  else do
    let m := List.ofFn mask
    let inD ← self.select m
    let outD ← self.select (m.map (!·))
    return (inD, outD)

/-- `xs[s:e]` for non-negative `s`, `e`. -/
def sliceList {γ : Type} (s e : Nat) (xs : List γ) : List γ := (xs.drop s).take (e - s)

/-- data.py 143-147 `ExpData.__getitem__` with a slice key `s:e`, `0 ≤ s`, `0 ≤ e`. -/
def slice (self : ExpData β) (s e : Nat) : Except PyErr (ExpData β) :=
  match self.cov with
  | none => .error .typeError
  | some a => .ok (new (some (a.onRows (sliceList s e))) (self.exp.map (sliceList s e))
      (self.rsp.map (sliceList s e)))

/-- Resolve a Python index (negative counts from the end) on an axis of size `n`. -/
def pyIndex (n : Nat) (i : Int) : Except PyErr Nat :=
  if 0 ≤ i ∧ i < n then .ok i.toNat
  else if -(n : Int) ≤ i ∧ i < 0 then .ok (i + n).toNat
  else .error .indexError

/-- Fancy-index a list with already resolved positions. -/
def gather {γ : Type} (is : List Nat) (xs : List γ) : List γ := is.filterMap (xs[·]?)

/-- data.py 199-200: the function returned by `get_coordinate_mask_fn(idx)`: `d.cov[..., idx]`
indexes the *last* axis (the column axis of a 2-D array, the unit axis of a 1-D one).
Simplification: the bounds check is made also for a covariate array without rows. -/
def coordMask (idx : List Int) (d : ExpData β) : Except PyErr (ExpData β) :=
  match d.cov with
  | none => .error .typeError
  | some (.d1 xs) => do
      let is ← idx.mapM (pyIndex xs.length)
      return new (some (.d1 (gather is xs))) d.exp d.rsp
  | some (.d2 c rows) => do
      let is ← idx.mapM (pyIndex c)
      return new (some (.d2 is.length (rows.map (gather is)))) d.exp d.rsp

/-- data.py 177-181: the function returned by `get_remove_coordinates_fn(i)`.  `np.delete(..., axis=1)`
on a 1-D array raises `AxisError` (a `ValueError`); the reshape branch (179-180) is dead because
`np.delete` keeps the rank. -/
def removeCoord (i : Int) (d : ExpData β) : Except PyErr (ExpData β) :=
  match d.cov with
  | none => .error .valueError
  | some (.d1 _) => .error .valueError
  | some (.d2 c rows) => do
      let j ← pyIndex c i
      return new (some (.d2 (c - 1) (rows.map (·.eraseIdx j)))) d.exp d.rsp

/-- data.py 158-159: the function returned by `get_identity_fn()`. -/
def identityFn (d : ExpData β) : Except PyErr (ExpData β) := .ok d

end ExpData
end Verif
