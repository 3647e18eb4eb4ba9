import Verif.Spec.Cpds
import Verif.Spec.Paper
import Verif.Spec.PaperCpds
import Verif.Model.Section5

/-!
# Specification vocabulary for the examples of Sections 5.1 and 5.2
-/

namespace Verif
namespace Section5
open Cpds
variable {R W : Type}

/-- The assumptions on the generators of the examples: logistic values are probabilities, uniform numbers lie in the unit
interval, and multivariate normal vectors have the dimension of their mean. -/
structure GoodNoise (r : Noise W ℝ) : Prop where
  sig : ∀ a, 0 ≤ r.sig a ∧ r.sig a ≤ 1
  unif : ∀ w, 0 ≤ (r.unif w).1 ∧ (r.unif w).1 < 1
  mvn : ∀ mean cov v, (r.mvn mean cov v).1.length = mean.length

/-- The scalar product. -/
noncomputable def inner (z b : List ℝ) : ℝ := ∑ i : Fin b.length, z.getD i 0 * b.getD i 0

/-- `u` lies in interval `k` when the unit interval is cut into pieces of lengths `p`. -/
def InCell (p : List ℝ) (u : ℝ) (k : Nat) : Prop := k < p.length ∧ (p.take k).sum ≤ u ∧ u < (p.take (k + 1)).sum

/-- `c` times the unit matrix, given by its entries. -/
def IsScalarMatrix (c : ℝ) (n : Nat) (m : List (List ℝ)) : Prop :=
  m.length = n ∧ (∀ row ∈ m, row.length = n) ∧ ∀ i j, i < n → j < n → (m.getD i []).getD j 0 = if i = j then c else 0

/-- The parameters of path `i`: zero means, scalar covariance matrices, and coefficients that are standard normal
numbers times powers of one strength: the stronger the influence on `X`, the weaker that on `Y`. -/
structure PathParams (P : ℝ → Prop) (dv dz : Nat) (p : Params) (i : Nat) : Prop where
  muV : p.muV[i]? = some (List.replicate dv 0)
  covV : ∃ m, p.covV[i]? = some m ∧ IsScalarMatrix 1 dv m
  muZ : p.muZ[i]? = some (List.replicate dz 0)
  covZ : ∃ m, p.covZ[i]? = some m ∧ IsScalarMatrix (1 / 10) dz m
  coeffs : ∃ (s : ℝ) (g : List ℝ) (a : List (List ℝ)) (b : List ℝ), P s ∧ g.length = dv ∧ a.length = dv ∧ (∀ row ∈ a, row.length = dz) ∧ b.length = dz ∧
    p.gamma[i - 1]? = some (g.map (s * ·)) ∧
    p.alpha[i]? = some (dz, a.map fun row => row.map (s / 2 * ·)) ∧
    p.beta[i]? = some (b.map ((2 - s) * ·))

/-- The parameters of an example with `M` paths. -/
structure GoodParams (P : ℝ → Prop) (zDim vDim : List Nat) (M : Nat) (p : Params) : Prop where
  gamma : p.gamma.length = M
  /-- one entry more than there are variables `Z0, ..., ZM` -/
  beta : p.beta.length = M + 2
  mu0 : ∃ m, p.muZ[0]? = some m ∧ m.length = zDim.getD 0 0
  beta0 : ∃ b, p.beta[0]? = some b ∧ b.length = zDim.getD 0 0
  path : ∀ i, 1 ≤ i → i ≤ M → PathParams P (vDim.getD i 0) (zDim.getD i 0) p i

/-- A `2-D` array of `n` rows of length `d`. -/
def IsMat (n d : Nat) (a : Arr ℝ) : Prop := ∃ rows, a = .d2 d rows ∧ rows.length = n ∧ ∀ row ∈ rows, row.length = d

/-- The number of columns of the covariates `Z0, V1, Z1, ..., VM, ZM`. -/
def totalDim (zDim vDim : List Nat) (M : Nat) : Nat := zDim.getD 0 0 + ((List.range M).map fun i => vDim.getD (i + 1) 0 + zDim.getD (i + 1) 0).sum

/-- The structural equations of Section 5.1 for `n` units: each variable is the stated function of its parents in the graph
and of the random numbers the generator produces from state `wAt` of that variable on. -/
structure Equations51 (r : Noise W ℝ) (S : Setup) (zDim vDim : List Nat) (M n : Nat) (s : String → Arr ℝ) (wAt : String → W) : Prop where
  v : ∀ i, 1 ≤ i → i ≤ M → IsMat n (vDim.getD i 0) (s ("V" ++ toString i)) ∧ ∀ j, j < n →
    rowAt (s ("V" ++ toString i)) j = nthDraw (r.mvn (S.p.muV.getD i []) (S.p.covV.getD i [])) (wAt ("V" ++ toString i)) j
  z : ∀ i, 1 ≤ i → i ≤ M → IsMat n (zDim.getD i 0) (s ("Z" ++ toString i)) ∧ ∀ j l, j < n → l < zDim.getD i 0 →
    (rowAt (s ("Z" ++ toString i)) j).getD l 0 =
      inner (rowAt (s ("V" ++ toString i)) j) ((S.p.alpha.getD i (0, [])).2.map fun row => row.getD l 0) +
      (nthDraw (r.mvn (S.p.muZ.getD i []) (S.p.covZ.getD i [])) (wAt ("Z" ++ toString i)) j).getD l 0
  x : s "X" = .d1 ((List.range n).map fun j => if nthDraw r.unif (wAt "X") j <
    r.sig (∑ i ∈ Finset.range M, inner (rowAt (s ("V" ++ toString (i + 1))) j) (S.p.gamma.getD i [])) then 1 else 0)
  z0 : IsMat n (zDim.getD 0 0) (s "Z0") ∧ ∀ j, j < n → ∃ k,
    InCell (if rowAt (s "X") j = [1] then S.sel.p1 else S.sel.p0) (nthDraw r.unif (wAt "Z0") j) k ∧
      rowAt (s "Z0") j = S.z0.support.getD k []
  y : s "Y" = .d1 ((List.range n).map fun j => inner (rowAt (s "Z0") j) (S.p.beta.getD 0 []) +
    ∑ i ∈ Finset.range M, inner (rowAt (s ("Z" ++ toString (i + 1))) j) (S.p.beta.getD (i + 1) []) +
    r.sqrt (1 / 10) * nthDraw r.gauss (wAt "Y") j)

/-- The variables are drawn one after the other from one stream, no number being used twice: the generator starts in state
`w`, each variable starts where the previous one stopped, and the last one leaves the generator in state `w'`. -/
structure Streams (r : Noise W ℝ) (S : Setup) (M n : Nat) (w w' : W) (wAt : String → W) : Prop where
  start : wAt "V1" = w
  vz : ∀ i, 1 ≤ i → i ≤ M →
    wAt ("Z" ++ toString i) = afterDraws (r.mvn (S.p.muV.getD i []) (S.p.covV.getD i [])) (wAt ("V" ++ toString i)) n
  zv : ∀ i, 1 ≤ i → i < M →
    wAt ("V" ++ toString (i + 1)) = afterDraws (r.mvn (S.p.muZ.getD i []) (S.p.covZ.getD i [])) (wAt ("Z" ++ toString i)) n
  zx : wAt "X" = afterDraws (r.mvn (S.p.muZ.getD M []) (S.p.covZ.getD M [])) (wAt ("Z" ++ toString M)) n
  xz0 : wAt "Z0" = afterDraws r.unif (wAt "X") n
  z0y : wAt "Y" = afterDraws r.unif (wAt "Z0") n
  stop : w' = afterDraws r.gauss (wAt "Y") n

/-- The regressor predicts each row on its own. -/
def RowWise {K F : Type} (lib : Nonlinear.GPLib K F ℝ) (pred : F → List ℝ → ℝ) : Prop := ∀ f x, lib.predict f x = x.map (pred f)

/-- The structural equations of Section 5.2 for `n` units, for the functions `fx i` of `V_{i+1}` in `X`, `fz i` of `V_{i+1}` in
`Z_{i+1}` and `fy i` of `Z_i` in `Y`.  All components of `Z_i` have the same function. -/
structure Equations52 (r : Noise W ℝ) (S : Setup) (fx fz fy : Nat → List ℝ → ℝ) (zDim vDim : List Nat) (M n : Nat) (s : String → Arr ℝ)
    (wAt : String → W) : Prop where
  v : ∀ i, 1 ≤ i → i ≤ M → IsMat n (vDim.getD i 0) (s ("V" ++ toString i)) ∧ ∀ j, j < n →
    rowAt (s ("V" ++ toString i)) j = nthDraw (r.mvn (S.p.muV.getD i []) (S.p.covV.getD i [])) (wAt ("V" ++ toString i)) j
  z : ∀ i, 1 ≤ i → i ≤ M → IsMat n (zDim.getD i 0) (s ("Z" ++ toString i)) ∧ ∀ j l, j < n → l < zDim.getD i 0 →
    (rowAt (s ("Z" ++ toString i)) j).getD l 0 = fz (i - 1) (rowAt (s ("V" ++ toString i)) j) +
      (nthDraw (r.mvn (S.p.muZ.getD i []) (S.p.covZ.getD i [])) (wAt ("Z" ++ toString i)) j).getD l 0
  x : s "X" = .d1 ((List.range n).map fun j => if nthDraw r.unif (wAt "X") j <
    r.sig (∑ i ∈ Finset.range M, fx i (rowAt (s ("V" ++ toString (i + 1))) j)) then 1 else 0)
  z0 : IsMat n (zDim.getD 0 0) (s "Z0") ∧ ∀ j, j < n → ∃ k,
    InCell (if rowAt (s "X") j = [1] then S.sel.p1 else S.sel.p0) (nthDraw r.unif (wAt "Z0") j) k ∧
      rowAt (s "Z0") j = S.z0.support.getD k []
  y : s "Y" = .d1 ((List.range n).map fun j => fy 0 (rowAt (s "Z0") j) +
    ∑ i ∈ Finset.range M, fy (i + 1) (rowAt (s ("Z" ++ toString (i + 1))) j) + r.sqrt (1 / 10) * nthDraw r.gauss (wAt "Y") j)

/-- The score of `Z0` when its value is chosen by the uniform number `u`: `F` at the value of the piece in which `u` lies. -/
noncomputable def cellScore (F : List ℝ → ℝ) (support : List (List ℝ)) (p : List ℝ) (u : ℝ) : ℝ :=
  open Classical in ∑ k ∈ Finset.range p.length, if InCell p u k then F (support.getD k []) else 0

/-- The mean of `F` over the support, with probabilities `p`. -/
noncomputable def meanOf (F : List ℝ → ℝ) (support : List (List ℝ)) (p : List ℝ) : ℝ :=
  ∑ k ∈ Finset.range p.length, p.getD k 0 * F (support.getD k [])

end Section5
end Verif
