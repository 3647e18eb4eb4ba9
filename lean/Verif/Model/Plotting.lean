import Verif.Model.Bandits
import Verif.Model.Nonlinear
import Mathlib.Data.List.Sort

/-!
# Model of `causal_effect_bandits/plotting_utils.py` and of the summaries computed in the notebook

* An axis object is the list of what has been drawn on it; `matplotlib` refuses to draw a line through lists of
  different lengths (`ValueError`).
* The dictionaries of `BanditData` are functions; their keys, the arms of the algorithm that produced the data, are
  given separately.
* Not modelled: colours, transparency, axis labels, spines, the legend box (its entries are the labels of the lines)
  and the rendering of the figure.  None of them reads the data.
-/

namespace Verif
namespace Plotting
variable {I α : Type}

/-- `l[k:]` for a list and `k` an integer or `None`; a negative `k` counts from the end. -/
def sliceFrom {γ : Type} (k : Option Int) (l : List γ) : List γ :=
  match k with
  | none => l
  | some (.ofNat k) => l.drop k
  | some (.negSucc k) => l.drop (l.length - (k + 1))

/-- What is drawn on an axis: a line, with its label if it has one, or the area between two lines. -/
inductive Artist (α : Type)
  | line (label : Option String) (x : List Nat) (y : List (Fl α))
  | band (x : List Nat) (lo hi : List (Fl α))
  deriving DecidableEq

/-- `ax.plot(x, y, label=label)`. -/
def plotLine (label : Option String) (x : List Nat) (y : List (Fl α)) : Py (List (Artist α)) Unit := do
  if x.length ≠ y.length then Py.raise .valueError
  else Py.modify (· ++ [.line label x y])

/-- `ax.fill_between(x, lo, hi)`; the three lists have the same length on line 60, other cases raise. -/
def fillBetween (x : List Nat) (lo hi : List (Fl α)) : Py (List (Artist α)) Unit := do
  if x.length ≠ lo.length ∨ x.length ≠ hi.length then Py.raise .valueError
  else Py.modify (· ++ [.band x lo hi])

/-- plotting_utils.py 50-60: the body of the loop. -/
def plotArm [DecidableEq I] (name : I → String) (keys : List I) (bd : BanditData I α) (k : Option Int) (a : I) :
    Py (List (Artist α)) Unit := do
  let x := sliceFrom k bd.cum                                                           -- 51
  if a ∉ keys then Py.raise .keyError                                                   -- 52
  else
    let mid := sliceFrom k (bd.var a)                                                   -- 52
    let lower := sliceFrom k (bd.lcb a)                                                 -- 53
    let upper := sliceFrom k (bd.ucb a)                                                 -- 54
    plotLine (some (name a)) x mid                                                      -- 56
    plotLine none x lower                                                               -- 57
    plotLine none x upper                                                               -- 58
    fillBetween x lower upper                                                           -- 59

/-- plotting_utils.py 29-66 `plot_bandit_results(ax, arm_list, bdata, initial_points_to_ignore)`; the state is `ax`. -/
def plotBanditResults [DecidableEq I] (name : I → String) (keys : List I) (bd : BanditData I α) (k : Option Int) :
    List I → Py (List (Artist α)) Unit
  | [] => pure ()
  | a :: as => do
    plotArm name keys bd k a
    plotBanditResults name keys bd k as

section Surface
variable [Field α]

/-- `np.linspace(low, high, n)` for `n ≥ 2`. -/
def linspace (low high : α) (n : Nat) : List α :=
  (List.range n).map fun i : Nat => low + (i : α) * ((high - low) / ((n - 1 : Nat) : α))

/-- `np.meshgrid(x, y)`: the two coordinate arrays, row `i` belonging to `y[i]`. -/
def meshgrid (x y : List α) : List (List α) × List (List α) :=
  (y.map fun _ => x, y.map fun b => x.map fun _ => b)

/-- `np.reshape(z, (r, c))` of an array listed in row-major order. -/
def reshape {γ : Type} (r c : Nat) (z : List γ) : Except PyErr (List (List γ)) :=
  if z.length ≠ r * c then .error .valueError
  else .ok ((List.range r).map fun i => (z.drop (i * c)).take c)

/-- The entries of an array in row-major order. -/
def entries {γ : Type} : Arr γ → List γ
  | .d1 xs => xs
  | .d2 _ rows => rows.flatten

/-- A surface: the arrays given to `plot_surface`. -/
structure Surface (α : Type) where
  x : List (List α)
  y : List (List α)
  z : List (List α)

/-- plotting_utils.py 69-87 `plot_3d_function` with `n_points = n` (100 in the code).  The function `f` takes the
two-column array `np.c_[x.flatten(), y.flatten()]`, given as its list of rows, and may raise. -/
def plot3d (n : Nat) (f : List (List α) → Except PyErr (Arr α)) (xLow xHigh yLow yHigh : α) : Except PyErr (Surface α) := do
  let x := linspace xLow xHigh n                                                        -- 73
  let y := linspace yLow yHigh n                                                        -- 74
  let xy := meshgrid x y                                                                -- 75
  let z ← f (List.zipWith (fun a b => [a, b]) xy.1.flatten xy.2.flatten)                -- 77
  let z ← reshape n n (entries z)                                                       -- 78
  pure ⟨xy.1, xy.2, z⟩                                                                  -- 81-83

end Surface

section Notebook

/-- `l[-1]`. -/
def lastOf {γ : Type} (l : List γ) : Except PyErr γ :=
  match l.getLast? with
  | none => .error .indexError
  | some c => .ok c

/-- `max(l)` of a list of numbers of samples: `ValueError` for the empty list. -/
def maxOf : List Nat → Except PyErr Nat
  | [] => .error .valueError
  | c :: l => .ok (l.foldl max c)

/-- paper_experiments.ipynb, cells 17, 20 and 23: the number of samples reported for successive elimination,
`SE_results.cum_samples[-1]`. -/
def reportedSamples (bd : BanditData I α) : Except PyErr Nat := lastOf bd.cum

/-- paper_experiments.ipynb, cells 17, 20 and 23: the number of samples reported for the uniform algorithm,
`max([sum(SE_results.samples_by_arm[a]) for a in arm_list]) * len(arm_list)`; it is not run. -/
def reportedUniform (arms : List I) (bd : BanditData I α) : Except PyErr Nat := do
  let m ← maxOf (arms.map fun a => (bd.samples a).sum)
  pure (m * arms.length)

/-- Read `var_est_by_arm[a][-1]` for every arm. -/
def lastVars (bd : BanditData I α) : List I → Except PyErr (List (Fl α))
  | [] => .ok []
  | a :: as => do
    let v ← lastOf (bd.var a)
    let vs ← lastVars bd as
    pure (v :: vs)

/-- The order of `np.sort`: NaN comes last. -/
def sortLe [LinearOrder α] (x y : Fl α) : Bool :=
  match x, y with
  | _, .nan => true
  | .nan, _ => false
  | x, y => x.le y

/-- `np.sort(l)`; the result does not depend on the algorithm. -/
def sorted [LinearOrder α] (l : List (Fl α)) : List (Fl α) := l.insertionSort fun x y => sortLe x y = true

/-- paper_experiments.ipynb, cell 14: the arms plotted,
`cutoff_var = np.sort([var_est_by_arm[a][-1] for a in arm_list])[m]` and
`[a for a in arm_list if var_est_by_arm[a][-1] < cutoff_var]`. -/
def topArms [LinearOrder α] (m : Nat) (arms : List I) (bd : BanditData I α) : Except PyErr (List I) := do
  let vs ← lastVars bd arms
  match (sorted vs)[m]? with
  | none => .error .indexError
  | some cutoff => pure ((arms.zip vs).filterMap fun p => if p.2.lt cutoff then some p.1 else none)

end Notebook

end Plotting
end Verif
