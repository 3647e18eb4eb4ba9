import Verif.Model.SCM

/-!
# Model of `generate_example_from_cpd` (`causal_effect_bandits/paper_utils.py` 435-618)

The graph of the SCM, the coordinate masks of the arms, and the list of arms (name, nuisance parameter,
coordinates, cost).  Variable and arm names are strings.  `sub_gscale` (551-552), the arm objects and the three bandits
built at the end are in `Model/PaperBandits.lean`.  `num_back_door_paths` is a natural number.  Simplification: an empty index block (a variable of dimension zero) is concatenated
like any other; NumPy would turn the mask into floats.
-/

namespace Verif
namespace Paper

/-- `'V' + str(i)`. -/
def vName (i : Nat) : String := "V" ++ toString i

/-- `'Z' + str(i)`. -/
def zName (i : Nat) : String := "Z" ++ toString i

/-- paper_utils.py 471-479: the local variables describing the graph. -/
structure Graph where
  varNames : List String
  covVariables : List String
  parents : Dict String (List String)
  deriving DecidableEq, Repr

/-- `parents[k].append(x)` for a key that is present. -/
def appendTo (d : Dict String (List String)) (k x : String) : Dict String (List String) :=
  match d.get? k with
  | none => d
  | some l => d.set k (l ++ [x])

/-- paper_utils.py 471-479: the initial values. -/
def graphInit : Graph where
  varNames := []
  covVariables := ["Z0"]
  parents := [("Z0", ["X"]), ("X", []), ("Y", ["Z0"])]

/-- paper_utils.py 481-489: one iteration of the loop. -/
def graphStep (g : Graph) (i : Nat) : Graph where
  varNames := g.varNames ++ [vName i, zName i]                                          -- 482-483
  covVariables := g.covVariables ++ [vName i, zName i]                                  -- 484-485
  parents := appendTo (appendTo ((g.parents.set (vName i) []).set (zName i) [vName i])  -- 486-487
    "Y" (zName i)) "X" (vName i)                                                        -- 488-489

/-- paper_utils.py 471-491: the graph for `M` back-door paths. -/
def graph (M : Nat) : Graph :=
  let g := (List.range' 1 M).foldl graphStep graphInit
  { g with varNames := g.varNames ++ ["X", "Z0", "Y"] }                                 -- 491

/-- paper_utils.py 493-501: the SCM. -/
def scm {β W : Type} (M : Nat) (cpds : Dict String (CPD β W)) : Except PyErr (SCM String β W) :=
  SCM.new (graph M).varNames (graph M).parents cpds (graph M).covVariables "X" "Y"

/-- `l[i]` for a non-negative index. -/
def at' {γ : Type} (l : List γ) (i : Nat) : Except PyErr γ :=
  match l[i]? with
  | some x => .ok x
  | none => .error .indexError

/-- `np.cumsum`, starting from `acc`. -/
def cumsum : Nat → List Nat → List Nat
  | _, [] => []
  | acc, d :: ds => (acc + d) :: cumsum (acc + d) ds

/-- paper_utils.py 511-514: the blocks `range(off + cum[i], off + cum[i + 1])` for `i < M`. -/
def blocks (off : Nat) (cum : List Nat) (M : Nat) : Except PyErr (List (List Nat)) :=
  (List.range M).mapM fun i => do
    let a ← at' cum i
    let b ← at' cum (i + 1)
    return List.range' (off + a) (b - a)

/-- paper_utils.py 506-512 `z_idx`. -/
def zIdx (zDim : List Nat) (M : Nat) : Except PyErr (List (List Nat)) := do
  let d0 ← at' zDim 0                                                                   -- 506
  let bs ← blocks 0 (cumsum 0 zDim) M                                                   -- 512
  return List.range d0 :: bs

/-- paper_utils.py 505-514 `v_idx`. -/
def vIdx (zDim vDim : List Nat) (M : Nat) : Except PyErr (List (List Nat)) := do
  let bs ← blocks zDim.sum (cumsum 0 vDim) M                                            -- 505, 513-514
  return [] :: bs                                                                       -- 507

/-- paper_utils.py 518-532 `generate_selection_masks(n, z_cost, v_cost)`: coordinates, names and costs.
`n = 0` recurses for ever. -/
def selectionMasks {α : Type} [Field α] (zs vs : List (List Nat)) (zCost vCost : α) :
    Nat → Except PyErr (List (List Nat) × List String × List α)
  | 0 => .error .recursionError
  | 1 => do
    let z ← at' zs 1
    let v ← at' vs 1
    return ([z, v], ["Z_1", "V_1"], [zCost, vCost])                                     -- 520
  | n + 2 => do
    let (masks, names, costs) ← selectionMasks zs vs zCost vCost (n + 1)                -- 521
    let z ← at' zs (n + 2)
    let v ← at' vs (n + 2)
    return (masks.map (· ++ z) ++ masks.map (· ++ v),                                   -- 522, 525, 529
      names.map (· ++ "Z_" ++ toString (n + 2)) ++ names.map (· ++ "V_" ++ toString (n + 2)),
      costs.map (zCost + ·) ++ costs.map (vCost + ·))                                   -- 524, 527, 531

/-- Which nuisance parameter class an arm uses. -/
inductive EtaKind
  | frontDoor | aipw
  deriving DecidableEq, Repr

/-- paper_utils.py 555-587: the constructor arguments that differ between the arms. -/
structure ArmSpec (α : Type) where
  name : String
  eta : EtaKind
  nFeatures : Nat
  coords : List Nat
  cost : α
  deriving DecidableEq, Repr

/-- paper_utils.py 503-587: `arm_list`. -/
def armList {α : Type} [Field α] (zDim vDim : List Nat) (zCost vCost z0Cost : α) (M : Nat) (latex : Bool) :
    Except PyErr (List (ArmSpec α)) := do
  let zs ← zIdx zDim M
  let vs ← vIdx zDim vDim M
  let z0 ← at' zs 0
  let d0 ← at' zDim 0
  let (masks, names, costs) ← selectionMasks zs vs zCost vCost M                        -- 534-535
  let names := if latex then names.map fun n => "$" ++ n ++ "$" else names              -- 536-537
  return ⟨"frontdoor", .frontDoor, d0, z0, z0Cost⟩ ::                                   -- 555-571
    (masks.zip (names.zip costs)).map fun (m, n, c) => ⟨n, .aipw, m.length, m, c⟩       -- 574-587

/-- The transformer of an arm: `data.get_coordinate_mask_fn(mask)` (516, 539). -/
def transform {α β : Type} (a : ArmSpec α) (d : ExpData β) : Except PyErr (ExpData β) :=
  d.coordMask (a.coords.map Int.ofNat)

end Paper
end Verif
