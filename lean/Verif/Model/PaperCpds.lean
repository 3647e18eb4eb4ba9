import Verif.Model.Py
import Mathlib.Analysis.SpecialFunctions.Exp

/-!
# Model of `softmax` and of the selection of the effect in `get_section_5_1_cpds` and `get_section_5_2_cpds`

`causal_effect_bandits/paper_utils.py` 35-37, 123-144 and 216-237 (the same text twice); `softmax` is repeated in
`nonlinear_utils.py` and `test_utils.py`.  Arithmetic is exact over the reals.  The generator
`rng = np.random.default_rng(seed)` is a state `W` with a function `normal n` for `rng.standard_normal(size=n)`.
-/

namespace Verif
namespace Paper

/-- `np.max` of a 1-D array: `ValueError` on an empty array. -/
noncomputable def npMax : List ℝ → Except PyErr ℝ
  | [] => .error .valueError
  | a :: l => .ok (l.foldl max a)

/-- paper_utils.py 35-37 `softmax` on a 1-D array. -/
noncomputable def softmax (x : List ℝ) : Except PyErr (List ℝ) := do
  let m ← npMax x
  let e := x.map fun t => Real.exp (t - m)                                              -- 36
  return e.map fun t => t / e.sum                                                       -- 37

/-- `a.dot(b)` of two vectors: `ValueError` on different lengths. -/
noncomputable def vdot (a b : List ℝ) : Except PyErr ℝ :=
  if a.length = b.length then .ok (List.zipWith (· * ·) a b).sum else .error .valueError

/-- `p.dot(s)` of a vector and an array of shape `(len(s), d)`. -/
noncomputable def vecMat (p : List ℝ) (d : Nat) (s : List (List ℝ)) : Except PyErr (List ℝ) :=
  if p.length = s.length then
    .ok ((List.range d).map fun j => (List.zipWith (fun a r => a * r.getD j 0) p s).sum)
  else .error .valueError

/-- paper_utils.py 124, 217 `support_size`. -/
def supportSize : Nat := 10

/-- The arrays the selection reads: `z0_support` of shape `(10, d)` and `beta[0]`. -/
structure Z0 where
  d : Nat
  support : List (List ℝ)
  beta0 : List ℝ

/-- The local variables `tau`, `tau_max`, `p_z0x0` and `p_z0x1`. -/
structure Sel where
  tau : ℝ
  tauMax : ℝ
  p0 : List ℝ
  p1 : List ℝ

variable {W : Type}

/-- `rng.standard_normal(size=n)`. -/
def stdNormal (normal : Nat → W → List ℝ × W) (n : Nat) : Py W (List ℝ) := fun w =>
  match normal n w with
  | (x, w') => (.ok x, w')

/-- `softmax(.4 * rng.standard_normal(size=support_size))` (133-134, 141-142). -/
noncomputable def randomPmf (normal : Nat → W → List ℝ × W) : Py W (List ℝ) := do
  let g ← stdNormal normal supportSize
  Py.lift (softmax (g.map fun t => 2 / 5 * t))

/-- `p_z0x1.dot(z0_support).dot(beta[0]) - p_z0x0.dot(z0_support).dot(beta[0])` (137-138, 143-144). -/
noncomputable def effect (z : Z0) (p0 p1 : List ℝ) : Except PyErr ℝ := do
  let m1 ← vecMat p1 z.d z.support
  let e1 ← vdot m1 z.beta0
  let m0 ← vecMat p0 z.d z.support
  let e0 ← vdot m0 z.beta0
  return e1 - e0

/-- Two fresh distributions and their effect (133-138, 141-144). -/
noncomputable def candidate (normal : Nat → W → List ℝ × W) (z : Z0) : Py W (List ℝ × List ℝ × ℝ) := do
  let p0 ← randomPmf normal
  let p1 ← randomPmf normal
  let e ← Py.lift (effect z p0 p1)
  return (p0, p1, e)

/-- paper_utils.py 131-138: `k` iterations of the `for` loop; `tau` is not assigned in it. -/
noncomputable def sampleTaus (normal : Nat → W → List ℝ × W) (z : Z0) : Nat → Sel → Py W Sel
  | 0, s => pure s
  | k + 1, s => do
    let c ← candidate normal z
    sampleTaus normal z k { s with p0 := c.1, p1 := c.2.1, tauMax := max s.tau c.2.2 }

/-- paper_utils.py 139-144: the `while` loop; `none` if it is still running after `fuel` iterations. -/
noncomputable def untilBig (normal : Nat → W → List ℝ × W) (z : Z0) : Nat → Sel → W → Option (Except PyErr Sel × W)
  | 0, s, w => if s.tau < s.tauMax then none else some (.ok s, w)
  | fuel + 1, s, w =>
    if s.tau < s.tauMax then
      match candidate normal z w with
      | (.error e, w') => some (.error e, w')
      | (.ok c, w') => untilBig normal z fuel { s with p0 := c.1, p1 := c.2.1, tau := c.2.2 } w'
    else some (.ok s, w)

/-- paper_utils.py 127-144: the selection; `none` if it is still running after `fuel` iterations of the
`while` loop. -/
noncomputable def select (normal : Nat → W → List ℝ × W) (z : Z0) (fuel : Nat) (w : W) : Option (Except PyErr Sel × W) :=
  match sampleTaus normal z 10 ⟨0, 0, [], []⟩ w with
  | (.error e, w') => some (.error e, w')
  | (.ok s, w') => untilBig normal z fuel s w'

end Paper
end Verif
