import Verif.Model.Data

/-!
# Specification vocabulary for datasets

Nothing here refers to how the code computes; it only says what a dataset *contains*.
-/

namespace Verif

namespace Arr
variable {β : Type}

/-- The covariates of unit `i` (a single number counts as a row of length one). -/
def row? : Arr β → Nat → Option (List β)
  | d1 xs, i => xs[i]?.map fun x => [x]
  | d2 _ rows, i => rows[i]?

/-- Is the array one dimensional? -/
def isD1 : Arr β → Bool
  | d1 _ => true
  | d2 _ _ => false

/-- Rectangular. -/
def WF : Arr β → Prop
  | d1 _ => True
  | d2 c rows => ∀ r ∈ rows, r.length = c

end Arr

namespace ExpData
variable {β : Type}

/-- A well-formed dataset: a rectangular covariate array, cached sizes correct, and one exposure /
response per unit whenever these are present.  This is what `ExpData(cov, exp, rsp)` builds from
arrays of equal length. -/
structure WF (d : ExpData β) : Prop where
  cov : ∃ a, d.cov = some a ∧ a.WF ∧ d.nUnits = a.len ∧ d.nFeatures = a.nFeatures
  exp : ∀ e, d.exp = some e → e.length = d.nUnits
  rsp : ∀ r, d.rsp = some r → r.length = d.nUnits

/-- Everything recorded about unit `i`: covariate row, exposure, response. -/
def unitAt (d : ExpData β) (i : Nat) : Option (List β) × Option β × Option β :=
  (d.cov.bind (·.row? i), d.exp.bind (·[i]?), d.rsp.bind (·[i]?))

/-- The two datasets record the same kind of information. -/
structure SameKind (d f : ExpData β) : Prop where
  nFeatures : f.nFeatures = d.nFeatures
  rank : f.cov.map Arr.isD1 = d.cov.map Arr.isD1
  exp : f.exp.isSome = d.exp.isSome
  rsp : f.rsp.isSome = d.rsp.isSome

/-- `f` consists of exactly the units of `d` at the positions listed in `is`, in that order. -/
structure IsSelection (d f : ExpData β) (is : List Nat) : Prop where
  wf : f.WF
  kind : SameKind d f
  size : f.nUnits = is.length
  unit : ∀ j (h : j < is.length), is[j] < d.nUnits ∧ f.unitAt j = d.unitAt is[j]

end ExpData
end Verif

namespace Verif
namespace ExpData
variable {β : Type}

/-- Forget the exposure / response of a unit unless `d` records them. -/
def restrictUnit (d : ExpData β) (u : Option (List β) × Option β × Option β) :
    Option (List β) × Option β × Option β :=
  (u.1, if d.exp.isSome then u.2.1 else none, if d.rsp.isSome then u.2.2 else none)

/-- `r` holds the units of `d` followed by the units of `e` (fields that `d` does not record are
dropped). -/
structure IsConcat (d e r : ExpData β) : Prop where
  wf : r.WF
  kind : SameKind d r
  size : r.nUnits = d.nUnits + e.nUnits
  left : ∀ i, i < d.nUnits → r.unitAt i = d.unitAt i
  right : ∀ j, j < e.nUnits → r.unitAt (d.nUnits + j) = d.restrictUnit (e.unitAt j)

/-- `e` can be appended to `d`: same feature count and rank, and `e` records what `d` records. -/
structure Appendable (d e : ExpData β) : Prop where
  nFeatures : e.nFeatures = d.nFeatures
  rank : e.cov.map Arr.isD1 = d.cov.map Arr.isD1
  exp : d.exp.isSome → e.exp.isSome
  rsp : d.rsp.isSome → e.rsp.isSome

/-- The column a Python index denotes on an axis of size `c` (`none` when out of range). -/
def column (c : Nat) (i : Int) : Option Nat :=
  if 0 ≤ i then (if i < c then some i.toNat else none)
  else if 0 ≤ i + c then some (i + c).toNat else none

end ExpData
end Verif
