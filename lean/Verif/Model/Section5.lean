import Verif.Model.Cpds
import Verif.Model.Paper
import Verif.Model.PaperCpds
import Verif.Model.Nonlinear

/-!
# Model of `get_section_5_1_cpds` and `get_section_5_2_cpds` (`causal_effect_bandits/paper_utils.py` 40-164 and 167-331)

Exact arithmetic over the reals.  `R` is the state of the local generator `rng = np.random.default_rng(seed)` and `W`
the state of the global generator.  `rng.standard_normal(size=n)` is `n` successive numbers `gauss`.
`np.random.choice(10, p=p)` is modelled by inversion, as NumPy does it: the index is the number of partial sums of `p`
that do not exceed the next uniform number; the tolerance in NumPy's check `sum(p) = 1` is not modelled.
-/

namespace Verif
namespace Section5
open Paper

/-- The generators the two functions use. -/
structure Gens (R W : Type) where
  /-- `rng.standard_normal()` -/
  gauss : R → ℝ × R
  /-- `rng.uniform(a, b)` -/
  unif : ℝ → ℝ → R → ℝ × R
  /-- `np.random.uniform(a, b)` -/
  globalUnif : ℝ → ℝ → W → ℝ × W
  /-- `np.random.randint(0, k)` -/
  randint : Nat → W → Nat × W

/-- paper_utils.py 62-87: the lists of parameters, and the local variables `strength` and `i` once assigned.  Entry 0 of
`muV`, `covV` and `alpha` is a placeholder. -/
structure Params where
  muV : List (List ℝ)
  covV : List (List (List ℝ))
  muZ : List (List ℝ)
  covZ : List (List (List ℝ))
  alpha : List (Nat × List (List ℝ))
  gamma : List (List ℝ)
  beta : List (List ℝ)
  last : Option (ℝ × Nat)

variable {R W : Type}

/-- A computation with the local generator. -/
def onLocal {A : Type} (f : R → A × R) : Py (R × W) A := fun s => (.ok (f s.1).1, ((f s.1).2, s.2))

/-- A computation with the global generator. -/
def onGlobal {A : Type} (f : W → A × W) : Py (R × W) A := fun s => (.ok (f s.2).1, (s.1, (f s.2).2))

/-- `rng.standard_normal(size=n)`. -/
def stdNormals (g : Gens R W) (n : Nat) : R → List ℝ × R := LinGen.drawN g.gauss n

/-- `c * rng.standard_normal(size=n)`. -/
noncomputable def scaled (g : Gens R W) (c : ℝ) (n : Nat) : Py (R × W) (List ℝ) := do
  let x ← onLocal (stdNormals g n)
  return x.map (c * ·)

/-- `c * np.identity(n)`. -/
noncomputable def identity (c : ℝ) (n : Nat) : List (List ℝ) :=
  (List.range n).map fun i => (List.range n).map fun j => if i = j then c else 0

/-- paper_utils.py 72-85, 199-212: one iteration of the loop; `strength` is `rng.uniform(.1, 1.9)` in Section 5.1 (73) and
`np.random.uniform(.1, 1.9)` in Section 5.2 (200). -/
noncomputable def paramStep (g : Gens R W) (strength : Py (R × W) ℝ) (zDim vDim : List Nat) (p : Params) (i : Nat) : Py (R × W) Params := do
  let s ← strength                                                                      -- 73
  let dv ← Py.lift (at' vDim i)
  let muV ← scaled g 0 dv                                                               -- 75
  let dz ← Py.lift (at' zDim i)
  let muZ ← scaled g 0 dz                                                               -- 78
  let gamma ← scaled g s dv                                                             -- 81
  let alpha ← onLocal (LinGen.drawRows g.gauss dz dv)                                   -- 83
  let beta ← scaled g (2 - s) dz                                                        -- 85
  return { muV := p.muV ++ [muV], covV := p.covV ++ [identity 1 dv],                    -- 75-76
           muZ := p.muZ ++ [muZ], covZ := p.covZ ++ [identity (1 / 10) dz],             -- 78-79
           gamma := p.gamma ++ [gamma],
           alpha := p.alpha ++ [(dz, alpha.map (·.map (1 / 2 * s * ·)))],
           beta := p.beta ++ [beta],
           last := some (s, i) }

/-- The loop. -/
noncomputable def paramLoop (g : Gens R W) (strength : Py (R × W) ℝ) (zDim vDim : List Nat) : List Nat → Params → Py (R × W) Params
  | [], p => pure p
  | i :: is, p => do
    let p ← paramStep g strength zDim vDim p i
    paramLoop g strength zDim vDim is p

/-- paper_utils.py 62-87, 189-214: all parameters of the CPDs but those of `Z0`. -/
noncomputable def params (g : Gens R W) (strength : Py (R × W) ℝ) (zDim vDim : List Nat) (M : Nat) : Py (R × W) Params := do
  let d0 ← Py.lift (at' zDim 0)
  let mu0 ← scaled g (1 / 5) d0                                                         -- 64
  let beta0 ← scaled g (1 / 5) d0                                                       -- 71
  let p ← paramLoop g strength zDim vDim (List.range' 1 M)
    { muV := [[]], covV := [[]], muZ := [mu0], covZ := [identity (1 / 2) d0], alpha := [(0, [])], gamma := [], beta := [beta0], last := none }
  match p.last with
  | none => Py.raise .nameError                                                         -- 87: UnboundLocalError
  | some (s, i) => do
    let dz ← Py.lift (at' zDim i)
    let b ← scaled g (1 - s) dz                                                         -- 87
    return { p with beta := p.beta ++ [b] }

/-- The values the CPD functions close over. -/
structure Setup where
  p : Params
  z0 : Z0
  sel : Sel

/-- paper_utils.py 123-144: the support and the distributions of `Z0`; `none` if the `while` loop is still running after
`fuel` iterations. -/
noncomputable def setupZ0 (g : Gens R W) (zDim : List Nat) (p : Params) (fuel : Nat) (s : R × W) : Option (Except PyErr Setup × (R × W)) :=
  match at' zDim 0 with
  | .error e => some (.error e, s)
  | .ok d0 =>
    match LinGen.drawRows g.gauss d0 supportSize s.1 with                               -- 125
    | (rows, r1) =>
      let z0 : Z0 := ⟨d0, rows.map fun row => List.zipWith (· + ·) (p.muZ.getD 0 []) row, p.beta.getD 0 []⟩
      match select (stdNormals g) z0 fuel r1 with                                       -- 127-144
      | none => none
      | some (.error e, r2) => some (.error e, (r2, s.2))
      | some (.ok sel, r2) => some (.ok ⟨p, z0, sel⟩, (r2, s.2))

/-- Everything `get_section_5_1_cpds` (with `strength = rng.uniform(.1, 1.9)`) or `get_section_5_2_cpds` (with
`strength = np.random.uniform(.1, 1.9)`) draws before the functions of the nonlinear example. -/
noncomputable def setup (g : Gens R W) (strength : Py (R × W) ℝ) (zDim vDim : List Nat) (M fuel : Nat) (s : R × W) :
    Option (Except PyErr Setup × (R × W)) :=
  match params g strength zDim vDim M s with
  | (.error e, s') => some (.error e, s')
  | (.ok p, s') => setupZ0 g zDim p fuel s'

/-- paper_utils.py 73 `rng.uniform(.1, 1.9)`. -/
noncomputable def strength51 (g : Gens R W) : Py (R × W) ℝ := onLocal (g.unif (1 / 10) (19 / 10))

/-- paper_utils.py 200 `np.random.uniform(.1, 1.9)`. -/
noncomputable def strength52 (g : Gens R W) : Py (R × W) ℝ := onGlobal (g.globalUnif (1 / 10) (19 / 10))

/-- `int(x)`. -/
noncomputable def trunc (x : ℝ) : Int := if 0 ≤ x then ⌊x⌋ else ⌈x⌉

/-- The partial sums of a list, starting from `acc`. -/
noncomputable def partialSums : ℝ → List ℝ → List ℝ
  | _, [] => []
  | acc, x :: xs => (acc + x) :: partialSums (acc + x) xs

/-- `np.random.choice(support_size, size=1, p=p)[0]`. -/
noncomputable def choice (r : Noise W ℝ) (p : List ℝ) : Py W Nat := fun w =>
  if p.length ≠ supportSize ∨ (∃ x ∈ p, x < 0) ∨ p.sum ≠ 1 then (.error .valueError, w)
  else (.ok ((partialSums 0 p).countP fun c => decide (c ≤ (r.unif w).1)), (r.unif w).2)

/-- paper_utils.py 147-155 `z0x0_cpd` and `z0x1_cpd` for one unit. -/
noncomputable def z0Dist (r : Noise W ℝ) (support : List (List ℝ)) (p : List ℝ) : List (List ℝ) → W → Except PyErr (List ℝ) × W := fun _ w =>
  match choice r p w with
  | (.error e, w') => (.error e, w')
  | (.ok k, w') => (at' support k, w')

/-- `np.array(samples)` for a list of 1-D arrays; the empty list gives an array of shape `(0,)`. -/
def stackRows : List (List ℝ) → Except PyErr (Arr ℝ)
  | [] => .ok (.d1 [])
  | x :: xs => if xs.all fun y => y.length = x.length then .ok (.d2 x.length (x :: xs)) else .error .valueError

/-- paper_utils.py 157-160 `z0_cpd`. -/
noncomputable def z0Cpd (r : Noise W ℝ) (S : Setup) : CPD ℝ W := fun _ parents w =>
  match categoricalConditioning (fun d => trunc (d.getD 0 0)) (parents.map SCM.asRows) 0
      [z0Dist r S.z0.support S.sel.p0, z0Dist r S.z0.support S.sel.p1] w with
  | (.error e, _, w') => (.error e, w')
  | (.ok rows, _, w') => (stackRows rows, w')

/-- paper_utils.py 90-92 `x_cpd`. -/
noncomputable def xCpd51 (r : Noise W ℝ) (S : Setup) : CPD ℝ W := fun _ parents w =>
  match Cpds.logisticLinear r parents (S.p.gamma.map .vec) w with
  | (.error e, w') => (.error e, w')
  | (.ok (.arr a), w') => (.ok a, w')
  | (.ok (.num _), w') => (.error .unmodelled, w')

/-- paper_utils.py 94-96 `y_cpd`. -/
noncomputable def yCpd51 (r : Noise W ℝ) (S : Setup) : CPD ℝ W := fun _ parents =>
  Cpds.normalCpd r parents (S.p.beta.map .vec) (.uni 0 (1 / 10))

/-- paper_utils.py 103-109 `make_v_cpd`. -/
noncomputable def vCpd (r : Noise W ℝ) (mean : List ℝ) (cov : List (List ℝ)) : CPD ℝ W := fun n _ w =>
  (.ok (.d2 mean.length (Cpds.mvns r mean cov n w).1), (Cpds.mvns r mean cov n w).2)

/-- paper_utils.py 111-117 `make_z_cpd`. -/
noncomputable def zCpd51 (r : Noise W ℝ) (alpha : Nat × List (List ℝ)) (mean : List ℝ) (cov : List (List ℝ)) : CPD ℝ W := fun _ parents =>
  Cpds.normalCpd r parents [.mat alpha.1 alpha.2] (.multi mean cov)

/-- paper_utils.py 119-121: the entries for one path. -/
noncomputable def addPath51 (r : Noise W ℝ) (S : Setup) (d : Dict String (CPD ℝ W)) (i : Nat) : Dict String (CPD ℝ W) :=
  (d.set (vName i) (vCpd r (S.p.muV.getD i []) (S.p.covV.getD i []))).set (zName i)
    (zCpd51 r (S.p.alpha.getD i (0, [])) (S.p.muZ.getD i []) (S.p.covZ.getD i []))

/-- paper_utils.py 98-164: the dictionary `get_section_5_1_cpds` returns. -/
noncomputable def cpds51 (r : Noise W ℝ) (S : Setup) (M : Nat) : Dict String (CPD ℝ W) :=
  ((List.range' 1 M).foldl (addPath51 r S) [("X", xCpd51 r S), ("Y", yCpd51 r S)]).set "Z0" (z0Cpd r S)

/-! ## Section 5.2 -/

/-- paper_utils.py 259-284, 321-328: the random functions; `fZ` starts with the function of path 1. -/
structure Fns (F : Type) where
  fY : List (List F)
  fX : List (List F)
  fZ : List (List F)

variable {K F : Type}

/-- `generate_random_nd_function(dim, out_dim, kernel, -b, b, n_points=10, alpha=1)`, called without a seed. -/
noncomputable def randomFn (lib : Nonlinear.GPLib K F ℝ) (g : Gens R W) (kernel : K) (b : ℝ) (dim outDim : Nat) : Py (R × W) (List F) :=
  onGlobal (Nonlinear.randomFns lib g.randint dim outDim (some kernel) (-b) b 10 none 1)

/-- One function for each of the given pairs of dimensions. -/
noncomputable def randomFnList (lib : Nonlinear.GPLib K F ℝ) (g : Gens R W) (kernel : K) (b : ℝ) : List (Nat × Nat) → Py (R × W) (List (List F))
  | [] => pure []
  | d :: ds => do
    let f ← randomFn lib g kernel b d.1 d.2
    let fs ← randomFnList lib g kernel b ds
    return f :: fs

/-- The dimensions of `V_i` and `Z_i` for the given paths. -/
def pathDims (zDim vDim : List Nat) : List Nat → Except PyErr (List (Nat × Nat))
  | [] => .ok []
  | i :: is => do
    let dv ← at' vDim i
    let dz ← at' zDim i
    let ds ← pathDims zDim vDim is
    return (dv, dz) :: ds

/-- paper_utils.py 259-284, 321-328. -/
noncomputable def functions52 (lib : Nonlinear.GPLib K F ℝ) (g : Gens R W) (kernel : K) (zDim vDim : List Nat) (M : Nat) : Py (R × W) (Fns F) := do
  let fY ← randomFnList lib g kernel 2 (zDim.map fun d => (d, 1))
  let fX ← randomFnList lib g kernel 2 (vDim.tail.map fun d => (d, 1))
  let ds ← Py.lift (pathDims zDim vDim (List.range' 1 M))
  let fZ ← randomFnList lib g kernel 1 ds
  return ⟨fY, fX, fZ⟩

/-- Everything `get_section_5_2_cpds` draws. -/
noncomputable def setup52 (lib : Nonlinear.GPLib K F ℝ) (g : Gens R W) (kernel : K) (zDim vDim : List Nat) (M fuel : Nat) (s : R × W) :
    Option (Except PyErr (Setup × Fns F) × (R × W)) :=
  match setup g (strength52 g) zDim vDim M fuel s with
  | none => none
  | some (.error e, s') => some (.error e, s')
  | some (.ok S, s') =>
    match functions52 lib g kernel zDim vDim M s' with
    | (.error e, s'') => some (.error e, s'')
    | (.ok F, s'') => some (.ok (S, F), s'')

/-- A random function applied to an array; sklearn's `predict` refuses 1-D and empty arrays. -/
noncomputable def applyFn (lib : Nonlinear.GPLib K F ℝ) (fns : List F) : Arr ℝ → Except PyErr (Arr ℝ)
  | .d1 _ => .error .valueError
  | .d2 _ [] => .error .valueError
  | .d2 _ (row :: rows) => Nonlinear.outF lib fns (row :: rows)

/-- `f(x[i])`. -/
noncomputable def fnAt (lib : Nonlinear.GPLib K F ℝ) (fns : List (List F)) (parents : List (Arr ℝ)) (i : Nat) : Except PyErr (Arr ℝ) := do
  let f ← at' fns i
  let x ← at' parents i
  applyFn lib f x

/-- paper_utils.py 272, 287: `np.sum([f(x[i]) for i, f in enumerate(fs)], axis=0)`.  The empty sum is a number and is not
modelled. -/
noncomputable def sumFns (lib : Nonlinear.GPLib K F ℝ) (fns : List (List F)) (parents : List (Arr ℝ)) : Except PyErr (Arr ℝ) := do
  let ts ← (List.range fns.length).mapM (fnAt lib fns parents)
  match ts with
  | [] => .error .unmodelled
  | t :: ts => ts.foldlM Cpds.addArrs t

/-- paper_utils.py 298 `bernoulli(sigmoid(f_x(parents))).flatten()`. -/
noncomputable def xCpd52 (r : Noise W ℝ) (lib : Nonlinear.GPLib K F ℝ) (fns : Fns F) : CPD ℝ W := fun _ parents w =>
  match sumFns lib fns.fX parents with
  | .error e => (.error e, w)
  | .ok a =>
    match Cpds.binomial r ((Cpds.flatten a).map r.sig) w with
    | (.error e, w') => (.error e, w')
    | (.ok xs, w') => (.ok (.d1 xs), w')

/-- paper_utils.py 299 `add_noise(f_y(parents), mean=mu_y, cov=cov_y)`. -/
noncomputable def yCpd52 (r : Noise W ℝ) (lib : Nonlinear.GPLib K F ℝ) (fns : Fns F) : CPD ℝ W := fun _ parents w =>
  match sumFns lib fns.fY parents with
  | .error e => (.error e, w)
  | .ok a => Cpds.addGaussianNoise r a (.uni 0 (1 / 10)) w

/-- paper_utils.py 311-318 `make_z_cpd`. -/
noncomputable def zCpd52 (r : Noise W ℝ) (lib : Nonlinear.GPLib K F ℝ) (f : List F) (mean : List ℝ) (cov : List (List ℝ)) : CPD ℝ W := fun _ parents =>
  Cpds.structuralEquation r parents (applyFn lib f) (.multi mean cov)

/-- paper_utils.py 329-330: the entries for one path. -/
noncomputable def addPath52 (r : Noise W ℝ) (lib : Nonlinear.GPLib K F ℝ) (S : Setup) (fns : Fns F) (d : Dict String (CPD ℝ W)) (i : Nat) :
    Dict String (CPD ℝ W) :=
  (d.set (vName i) (vCpd r (S.p.muV.getD i []) (S.p.covV.getD i []))).set (zName i)
    (zCpd52 r lib (fns.fZ.getD (i - 1) []) (S.p.muZ.getD i []) (S.p.covZ.getD i []))

/-- paper_utils.py 297-332: the dictionary `get_section_5_2_cpds` returns. -/
noncomputable def cpds52 (r : Noise W ℝ) (lib : Nonlinear.GPLib K F ℝ) (S : Setup) (fns : Fns F) (M : Nat) : Dict String (CPD ℝ W) :=
  (List.range' 1 M).foldl (addPath52 r lib S fns) [("X", xCpd52 r lib fns), ("Y", yCpd52 r lib fns), ("Z0", z0Cpd r S)]

end Section5
end Verif
