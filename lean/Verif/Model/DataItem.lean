import Verif.Model.Data

/-!
# Model of `ExpData.__getitem__` (data.py 143-147) for general keys

`Model/Data` has the slices `s:e` with non-negative bounds that the bandits use.  Here: every slice, lists of integers, boolean masks and
single integers.  Not modelled: tuples, strings, `None` and arrays of other types as keys.
-/

namespace Verif
namespace ExpData
variable {β : Type}

/-- The positions selected by `start:stop:step` on an axis of size `n` (CPython's `PySlice_AdjustIndices`). -/
def sliceIndices (n : Nat) (start stop step : Option Int) : Except PyErr (List Nat) :=
  let st := step.getD 1
  if st = 0 then .error .valueError
  else
    let lower : Int := if st < 0 then -1 else 0
    let upper : Int := if st < 0 then n - 1 else n
    let clip := fun i : Int => if i < 0 then max (i + n) lower else min i upper
    let s := match start with
      | none => if st < 0 then upper else lower
      | some i => clip i
    let e := match stop with
      | none => if st < 0 then lower else upper
      | some i => clip i
    let len := if st < 0 then (if e < s then (s - e - 1) / (-st) + 1 else 0) else (if s < e then (e - s - 1) / st + 1 else 0)
    .ok ((List.range len.toNat).map fun k : Nat => (s + k * st).toNat)

/-- The keys. -/
inductive Key
  | int (i : Int)
  | slice (start stop step : Option Int)
  | list (is : List Int)
  | mask (m : List Bool)

/-- The positions along an axis of size `n` that a key selects (a single position for an integer). -/
def Key.indices (n : Nat) : Key → Except PyErr (List Nat)
  | .int i => (pyIndex n i).map fun j => [j]
  | .slice start stop step => sliceIndices n start stop step
  | .list is => is.mapM (pyIndex n)
  | .mask m => if m.length = n then .ok (filterMask m (List.range n)) else .error .indexError

/-- What `__getitem__` returns: a dataset, or (for an integer key) an object with one row as its `cov` and scalars for `exp` and `rsp`. -/
inductive Item (β : Type)
  | data (d : ExpData β)
  | single (cov : List β) (exp rsp : Option β) (nUnits nFeatures : Nat)
  deriving DecidableEq

/-- `a[key]` for an optional 1-D array and a key that is not an integer. -/
def itemOpt (key : Key) : Option (List β) → Except PyErr (Option (List β))
  | none => .ok none
  | some xs => do
    let is ← key.indices xs.length
    return some (gather is xs)

/-- `a[i]` for an optional 1-D array. -/
def scalarOpt (i : Int) : Option (List β) → Except PyErr (Option β)
  | none => .ok none
  | some xs => do
    let j ← pyIndex xs.length i
    return xs[j]?

/-- data.py 143-147 `ExpData.__getitem__`.  For an integer key `self.cov[key]` is a row of a 2-D array, of which `ExpData.__init__` takes
the length for `n_units` and `1` for `n_features` (data.py 55-57); of a 1-D array it is a scalar, whose shape `()` has no entry `0`. -/
def getItem (self : ExpData β) (key : Key) : Except PyErr (Item β) :=
  match self.cov with
  | none => .error .typeError
  | some a => match key with
    | .int i => do
      let j ← pyIndex a.len i
      let e ← scalarOpt i self.exp
      let r ← scalarOpt i self.rsp
      match a with
      | .d1 _ => .error .indexError
      | .d2 _ rows =>
        let row := rows.getD j []
        return .single row e r row.length 1
    | key => do
      let is ← key.indices a.len
      let e ← itemOpt key self.exp
      let r ← itemOpt key self.rsp
      return .data (new (some (a.onRows (gather is))) e r)

end ExpData
end Verif
