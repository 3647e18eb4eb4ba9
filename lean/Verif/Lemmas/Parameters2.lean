import Verif.Lemmas.Parameters

/-!
# What `fit` does on a dataset of units
-/

set_option linter.unusedSectionVars false
set_option linter.unusedSimpArgs false

namespace Verif
open Param

namespace AIPW
variable {M P α : Type} [Field α] [LinearOrder α]

theorem fit_wrong (R : Predictor M α) (C : Predictor P α) (d : ExpData (Cell α)) (s : AIPW M P α) (h : d.nFeatures ≠ s.covDim) :
    fit R C d s = (.error .valueError, s) := by
  simp [fit, Py.bind_apply, Py.get_apply, h, Py.raise_apply]

theorem fit_few (R : Predictor M α) (C : Predictor P α) (us : List (Obs α)) (s : AIPW M P α)
    (h : tooFew s.minUnits (Obs.dataset s.covDim us).nUnits (us.map Obs.x) = true) :
    fit R C (Obs.dataset s.covDim us) s = (.ok (), { s with recent := some (Obs.dataset s.covDim us) }) := by
  simp [fit, Py.bind_apply, Py.get_apply, Obs.dataset_nFeatures, Py.modify_apply, Py.lift_apply, Obs.dataset_exp, h, Py.pure_apply]

theorem fit_enough (R : Predictor M α) (C : Predictor P α) (us : List (Obs α)) (s : AIPW M P α)
    (h : tooFew s.minUnits (Obs.dataset s.covDim us).nUnits (us.map Obs.x) = false) :
    fit R C (Obs.dataset s.covDim us) s =
      match R.fitRows (us.map fun u => u.xv :: u.zv) (us.map Obs.yv) s.response with
      | (.error e, m) => (.error e, { s with recent := some (Obs.dataset s.covDim us), response := m })
      | (.ok (), m) =>
        match C.fitRows (us.map Obs.zv) (us.map Obs.xv) s.propensity with
        | (.error e, p) => (.error e, { s with recent := some (Obs.dataset s.covDim us), response := m, propensity := p })
        | (.ok (), p) =>
          (.ok (), { s with recent := some (Obs.dataset s.covDim us), response := m, propensity := p, hasBeenFit := true }) := by
  simp only [fit, Py.bind_apply, Py.get_apply, Obs.dataset_nFeatures, Py.modify_apply, Py.lift_apply, Obs.dataset_exp, h,
    ne_eq, not_true_eq_false, if_false, Bool.false_eq_true, Obs.vals_x, Obs.dataset_cStack, Obs.dataset_rsp, Obs.dataset_cov2d,
    Obs.vals_y, zoom]
  generalize R.fitRows (us.map fun u => u.xv :: u.zv) (us.map Obs.yv) s.response = r
  obtain ⟨_ | _, m⟩ := r
  · rfl
  · dsimp only
    generalize C.fitRows (us.map Obs.zv) (us.map Obs.xv) s.propensity = r
    obtain ⟨_ | _, p⟩ := r <;> rfl

/-- The configuration of a parameter never changes. -/
theorem fit_config (R : Predictor M α) (C : Predictor P α) (c : Nat) (us : List (Obs α)) (s : AIPW M P α) :
    (fit R C (Obs.dataset c us) s).2.covDim = s.covDim ∧ (fit R C (Obs.dataset c us) s).2.minUnits = s.minUnits ∧
      (fit R C (Obs.dataset c us) s).2.minOverlap = s.minOverlap := by
  by_cases hc : c = s.covDim
  · subst hc
    cases h : tooFew s.minUnits (Obs.dataset s.covDim us).nUnits (us.map Obs.x)
    · rw [fit_enough R C us s h]
      generalize R.fitRows (us.map fun u => u.xv :: u.zv) (us.map Obs.yv) s.response = r
      obtain ⟨_ | _, m⟩ := r
      · simp
      · dsimp only
        generalize C.fitRows (us.map Obs.zv) (us.map Obs.xv) s.propensity = r
        obtain ⟨_ | _, p⟩ := r <;> simp
    · rw [fit_few R C us s h]; simp
  · rw [fit_wrong R C _ s (by rw [Obs.dataset_nFeatures]; exact hc)]; simp

/-- `fit` sets the flag exactly when it gets through. -/
theorem fit_flag (R : Predictor M α) (C : Predictor P α) (c : Nat) (us : List (Obs α)) (s : AIPW M P α) :
    (fit R C (Obs.dataset c us) s).2.hasBeenFit = true ↔
      s.hasBeenFit = true ∨ (c = s.covDim ∧ tooFew s.minUnits (Obs.dataset c us).nUnits (us.map Obs.x) = false ∧
        (fit R C (Obs.dataset c us) s).1 = .ok ()) := by
  by_cases hc : c = s.covDim
  · subst hc
    cases h : tooFew s.minUnits (Obs.dataset s.covDim us).nUnits (us.map Obs.x)
    · rw [fit_enough R C us s h]
      generalize R.fitRows (us.map fun u => u.xv :: u.zv) (us.map Obs.yv) s.response = r
      obtain ⟨_ | _, m⟩ := r
      · simp
      · dsimp only
        generalize C.fitRows (us.map Obs.zv) (us.map Obs.xv) s.propensity = r
        obtain ⟨_ | _, p⟩ := r <;> simp
    · rw [fit_few R C us s h]; simp
  · rw [fit_wrong R C _ s (by rw [Obs.dataset_nFeatures]; exact hc)]; simp [hc]

end AIPW
end Verif
