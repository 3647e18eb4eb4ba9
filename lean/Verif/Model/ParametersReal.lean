import Verif.Model.Parameters
import Verif.Model.RealLib
import Mathlib.LinearAlgebra.Matrix.NonsingularInverse
import Mathlib.LinearAlgebra.Matrix.Charpoly.Basic

/-!
# Model of the matrix code of `causal_effect_bandits/parameters.py`

`calculate_cs_width` (363-395, 627-675) and `LinearRegressionParameter` (837-927).  Linear algebra is exact:
`np.linalg.det` is the determinant, `np.linalg.inv` the inverse (`LinAlgError`, a `ValueError`, for a
singular matrix), `np.linalg.eig` returns the real roots of the characteristic polynomial.
-/

namespace Verif
open Param

namespace Param

/-- A list of rows as a matrix with `d` columns. -/
def mat {α : Type} [Field α] (rows : List (List α)) (d : Nat) : Matrix (Fin rows.length) (Fin d) α :=
  fun i j => (rows.get i).getD j 0

/-- `x.transpose().dot(x)`. -/
def gram {α : Type} [Field α] (rows : List (List α)) (d : Nat) : Matrix (Fin d) (Fin d) α :=
  (mat rows d).transpose * mat rows d

/-- The numerator on lines 382 and 648. -/
noncomputable def csNumerator {d : Nat} (v : Matrix (Fin d) (Fin d) ℝ) (g rho : ℝ) : Fl ℝ :=
  (Fl.fin g).mul (Fl.realLog (.fin (g • v + rho • (1 : Matrix (Fin d) (Fin d) ℝ)).det))

/-- The denominator on lines 383 and 649. -/
noncomputable def csDenominator (d : Nat) (delta g rho : ℝ) : Fl ℝ :=
  (Fl.fin g).mul (Fl.realLog (.fin (rho ^ d * delta ^ 2)))

/-- Lines 382-391 and 648-657: `mu_radius`, or `none` if the function has returned `np.inf` early. -/
noncomputable def csMuRadius {d : Nat} (v : Matrix (Fin d) (Fin d) ℝ) (delta g rho : ℝ) :
    Except PyErr (Option (Fl ℝ)) :=
  if (csNumerator v g rho).le (csDenominator d delta g rho) then .ok none              -- 384-385
  else
    let radius := Fl.realSqrt ((csNumerator v g rho).sub (csDenominator d delta g rho))       -- 387
    if g = 0 then .error .zeroDivisionError                                            -- 389: rho / sub_g
    else
      let a := v + (rho / g) • (1 : Matrix (Fin d) (Fin d) ℝ)
      if a.det = 0 then .error .valueError
      else
        let w := (v * a⁻¹ * v).charpoly.roots.toList                                   -- 389-390
        match Fl.pyMin (w.map Fl.fin) with
        | .error e => .error e
        | .ok m => .ok (some (radius.div (Fl.realSqrt m)))                             -- 391

/-- Lines 659-665 `uniform_boundary`. -/
noncomputable def uniformBoundary (rho : ℝ) (n : Nat) (delta : ℝ) : Except PyErr (Fl ℝ) :=
  if rho = 0 then .error .zeroDivisionError
  else if (n : ℝ) ≤ delta ^ 2 / 4 / rho then .ok .pinf
  else if n = 0 ∨ delta = 0 then .error .zeroDivisionError
  else .ok (Fl.realSqrt ((Fl.fin (1 / (n : ℝ) * (1 / 4 + rho / n))).mul
    (Fl.realLog (.fin (((n : ℝ) / 4 + rho) / (delta ^ 2 * rho))))))

end Param

namespace AIPW
variable {M P : Type}

/-- parameters.py 363-395 `AIPW.calculate_cs_width`; non-finite arguments and 1-D covariates are not
modelled. -/
noncomputable def csWidth (s : AIPW M P ℝ) : Fl ℝ → Fl ℝ → Fl ℝ → Except PyErr (Fl ℝ)
  | .fin delta, .fin g, .fin rho =>
    match s.recent with
    | none => .error .attributeError                                                   -- 378
    | some r =>
      match r.cov with
      | some (.d2 _ rows) =>
        match csMuRadius (gram (rows.map (·.map Cell.val)) s.covDim) delta g rho with
        | .error e => .error e
        | .ok none => .ok .pinf                                                        -- 385
        | .ok (some mu) =>
          if s.minOverlap = 0 then .error .zeroDivisionError
          else .ok (mu.add (mu.mul (.fin (1 / s.minOverlap - 2))))                     -- 393-395
      | _ => .error .unmodelled
  | _, _, _ => .error .unmodelled

/-- The class as seen by an arm. -/
noncomputable def ops (R : Predictor M ℝ) (C : Predictor P ℝ) : EtaOps (AIPW M P ℝ) (Cell ℝ) ℝ where
  fit := fun s d => fit R C d s
  hasEnough := fun s => .ok s.hasBeenFit                                               -- 476-477
  score := fun s d => (score R C s d, s)
  csWidth := fun s delta g rho => (csWidth s delta g rho).map some
  reset := reset R C

end AIPW

namespace FrontDoor
variable {M : Type}

/-- parameters.py 627-675 `FrontDoorLinearFiniteZ.calculate_cs_width`.  `cov_given_exp_radius` (669) is
computed and only tested for NaN. -/
noncomputable def csWidth (s : FrontDoor M ℝ) : Fl ℝ → Fl ℝ → Fl ℝ → Except PyErr (Fl ℝ)
  | .fin delta, .fin g, .fin rho =>
    match s.recent with
    | none => .error .attributeError                                                   -- 643
    | some r =>
      match need r.exp with
      | .error e => .error e
      | .ok exp =>
        match cStack (vals exp) r with
        | .error e => .error e
        | .ok rows =>
          match csMuRadius (gram rows (s.covDim + 1)) (delta / 3) g rho with           -- 643-657
          | .error e => .error e
          | .ok none => .ok .pinf                                                      -- 651
          | .ok (some mu) =>
            match uniformBoundary rho rows.length (delta / 3 / 3) with                 -- 667
            | .error e => .error e
            | .ok t =>
              if s.minOverlap = 0 then .error .zeroDivisionError
              else .ok ((mu.add (t.mul (.fin (1 / s.minOverlap - 1)))).add
                ((mu.mul (.fin 2)).mul (.fin (1 / s.minOverlap - 1))))                 -- 674-675
  | _, _, _ => .error .unmodelled

/-- The class as seen by an arm; `ridge0` is a new `Ridge`. -/
noncomputable def ops (R : Predictor M ℝ) (ridge0 : M) : EtaOps (FrontDoor M ℝ) (Cell ℝ) ℝ where
  fit := fun s d => fit R d s
  hasEnough := fun s => .ok s.hasBeenFit                                               -- 833-834
  score := fun s d => score R d s
  csWidth := fun s delta g rho => (csWidth s delta g rho).map some
  reset := reset ridge0

end FrontDoor

namespace BinLin
variable {M α : Type} [Field α] [LinearOrder α]

/-- The class as seen by an arm; `has_enough_samples` and `calculate_cs_width` are the `Protocol` stubs. -/
def ops (R : Predictor M α) (ridge0 : M) : EtaOps (BinLin M α) (Cell α) α where
  fit := fun s d => fit R d s
  hasEnough := fun s => .ok s.hasEnough
  score := fun s d => (score R s d, s)
  csWidth := fun _ _ _ _ => .ok none                                                   -- 105-120
  reset := reset ridge0

end BinLin

/-! ## LinearRegressionParameter -/

/-- parameters.py 861-876: the attributes of a `LinearRegressionParameter` with `n_features = k`. -/
structure LinReg (k : Nat) (α : Type) where
  model : Matrix (Fin (k + 1)) (Fin (k + 1)) α
  lReg : α
  hasBeenFit : Bool
  recent : Option (ExpData (Cell α))

namespace LinReg
variable {k : Nat} {α : Type} [Field α] [LinearOrder α]

/-- parameters.py 861-876 `__init__`. -/
def new (lReg : α) : LinReg k α where
  model := 0
  lReg := lReg
  hasBeenFit := false
  recent := none

/-- parameters.py 75-76: `reset` is not overridden; the `Protocol` body does nothing. -/
def reset (s : LinReg k α) : LinReg k α := s

/-- `data_matrix.T.dot(data_matrix) + l_reg * identity` (891-893). -/
def penalised (rows : List (List α)) (lReg : α) : Matrix (Fin (k + 1)) (Fin (k + 1)) α :=
  gram rows (k + 1) + lReg • (1 : Matrix (Fin (k + 1)) (Fin (k + 1)) α)

/-- parameters.py 878-895 `fit`.  A wrong number of features makes the sum on line 891 fail with
`ValueError` (the case where one matrix is 1×1 and is broadcast is not modelled). -/
noncomputable def fit (d : ExpData (Cell α)) : Py (LinReg k α) Unit := do
  if d.nUnits < 1 then pure ()                                                         -- 887-888
  else do
    let exp ← Py.lift (need d.exp)
    let rows ← Py.lift (cStack (vals exp) d)                                           -- 889
    if d.nFeatures ≠ k then
      Py.raise (if d.nFeatures = 0 ∨ k = 0 then .unmodelled else .valueError)
    else do
      let s ← Py.get
      if (penalised (k := k) rows s.lReg).det = 0 then Py.raise .valueError
      else
        Py.modify fun s => { s with
          model := (d.nUnits : α) • (penalised rows s.lReg)⁻¹                          -- 891-893
          hasBeenFit := true                                                           -- 894
          recent := some d }                                                           -- 895

/-- parameters.py 897-924 `transform`, `_phi`, `calculate_score`. -/
def score (s : LinReg k α) (d : ExpData (Cell α)) : Except PyErr (List (Fl α)) := do
  let exp ← need d.exp
  let rows ← cStack (vals exp) d
  let rsp ← need d.rsp
  if rsp.length ≠ rows.length then .error .valueError                                  -- 911
  else if d.nFeatures ≠ k then .error .valueError                                      -- 912
  else return (rows.zip (vals rsp)).map fun (r, y) =>
    .fin (∑ j : Fin (k + 1), s.model 0 j * (r.getD j 0 * y))                           -- 911-912

/-- The class as seen by an arm; `calculate_cs_width` is the `Protocol` stub. -/
noncomputable def ops : EtaOps (LinReg k α) (Cell α) α where
  fit := fun s d => fit d s
  hasEnough := fun s => .ok s.hasBeenFit                                               -- 926-927
  score := fun s d => (score s d, s)
  csWidth := fun _ _ _ _ => .ok none
  reset := reset

end LinReg
end Verif
