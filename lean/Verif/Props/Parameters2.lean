import Verif.Lemmas.Parameters2
import Verif.Model.ParametersReal
import Verif.Props.Arms

/-!
# Properties of `LinearParameterBinaryTreatment` (C54, C57)
-/

set_option linter.unusedSectionVars false
set_option linter.unusedSimpArgs false

namespace Verif
open Param

namespace BinLin
variable {M α : Type} [Field α] [LinearOrder α]

theorem unitRows_dataset (c : Nat) (us : List (Obs α)) :
    unitRows (Obs.dataset c us) = .ok (us.map fun u => (u.zv, u.xv, u.yv)) := by
  unfold unitRows
  rw [Obs.dataset_cov2d, Obs.dataset_exp, Obs.dataset_rsp]
  simp only [bind, Except.bind, List.length_map, ne_eq, not_true_eq_false, or_self, if_false, pure, Except.pure]
  rw [Obs.vals_x, Obs.vals_y, List.zip_map', List.zip_map']

/-- The units with exposure 1. -/
def treatedUnits (us : List (Obs α)) : List (Obs α) := us.filter fun u => decide (u.xv = 1)
/-- The other units. -/
def otherUnits (us : List (Obs α)) : List (Obs α) := us.filter fun u => !decide (u.xv = 1)

theorem group_true (us : List (Obs α)) :
    group true (us.map fun u => (u.zv, u.xv, u.yv)) = (treatedUnits us).map fun u => (u.zv, u.yv) := by
  simp [group, treatedUnits, List.filter_map, Function.comp_def]

theorem group_false (us : List (Obs α)) :
    group false (us.map fun u => (u.zv, u.xv, u.yv)) = (otherUnits us).map fun u => (u.zv, u.yv) := by
  simp only [group, otherUnits, List.filter_map, Function.comp_def, List.map_map]
  congr 1
  apply List.filter_congr
  intro u _
  cases decide (u.xv = 1) <;> rfl

theorem fit_dataset (R : Predictor M α) (us : List (Obs α)) (s : BinLin M α) :
    fit R (Obs.dataset s.covDim us) s =
      match R.fitRows ((treatedUnits us).map Obs.zv) ((treatedUnits us).map Obs.yv) s.treat with
      | (.error e, m) => (.error e, { s with recent := some (Obs.dataset s.covDim us), treat := m })
      | (.ok (), m) =>
        match R.fitRows ((otherUnits us).map Obs.zv) ((otherUnits us).map Obs.yv) s.cont with
        | (.error e, c) => (.error e, { s with recent := some (Obs.dataset s.covDim us), treat := m, cont := c })
        | (.ok (), c) => (.ok (), { s with recent := some (Obs.dataset s.covDim us), treat := m, cont := c, hasBeenFit := true }) := by
  simp only [fit, Py.bind_apply, Py.get_apply, Obs.dataset_nFeatures, Py.modify_apply, Py.lift_apply, unitRows_dataset,
    ne_eq, not_true_eq_false, if_false, group_true, group_false, List.map_map, zoom]
  have e1 : (Prod.fst ∘ fun u : Obs α => (u.zv, u.yv)) = Obs.zv := rfl
  have e2 : (Prod.snd ∘ fun u : Obs α => (u.zv, u.yv)) = Obs.yv := rfl
  rw [e1, e2]
  generalize R.fitRows ((treatedUnits us).map Obs.zv) ((treatedUnits us).map Obs.yv) s.treat = r
  obtain ⟨_ | _, m⟩ := r
  · rfl
  · dsimp only
    generalize R.fitRows ((otherUnits us).map Obs.zv) ((otherUnits us).map Obs.yv) s.cont = r
    obtain ⟨_ | _, p⟩ := r <;> rfl

theorem fitRows_nil (R : Predictor M α) (ys : List α) (m : M) : R.fitRows [] ys m = (.error .valueError, m) := by
  simp [Predictor.fitRows]

theorem fitRows_ok (R : Predictor M α) (hR : R.Total) (us : List (Obs α)) (hne : us ≠ []) (m : M) :
    R.fitRows (us.map Obs.zv) (us.map Obs.yv) m = (.ok (), (R.fit m (us.map Obs.zv) (us.map Obs.yv)).2) := by
  have h := hR m (us.map Obs.zv) (us.map Obs.yv) (by simpa using hne) (by simp)
  have i1 : ((us.map Obs.zv).isEmpty || decide ((us.map Obs.zv).length ≠ (us.map Obs.yv).length)) = false := by
    simpa using hne
  unfold Predictor.fitRows
  rw [i1]
  simp only [Bool.false_eq_true, if_false]
  rw [← h]

/-- **C54 is violated**: fitting on any dataset without treated units, or (when the regressors themselves
never raise) on any dataset without control units, raises `ValueError` instead of returning. -/
theorem C54_one_sided_violated (R : Predictor M α) (s : BinLin M α) (us : List (Obs α)) :
    ((∀ u ∈ us, u.xv ≠ 1) → (fit R (Obs.dataset s.covDim us) s).1 = .error .valueError) ∧
    (R.Total → us ≠ [] → (∀ u ∈ us, u.xv = 1) → (fit R (Obs.dataset s.covDim us) s).1 = .error .valueError) := by
  constructor
  · intro h
    rw [fit_dataset]
    have : treatedUnits us = [] := List.filter_eq_nil_iff.mpr fun u hu => by simpa using h u hu
    rw [this, List.map_nil, fitRows_nil]
  · intro hR hne h
    rw [fit_dataset]
    have e : otherUnits us = [] := List.filter_eq_nil_iff.mpr fun u hu => by simpa using h u hu
    have f : treatedUnits us = us := List.filter_eq_self.mpr fun u hu => by simpa using h u hu
    rw [e, f, List.map_nil, fitRows_nil, fitRows_ok R hR us hne]

/-- **C54 (what does hold)**: when a fit does not complete, the parameter is not marked as fit; with treated
and control units and regressors that do not raise it completes: the treated model has been fitted on
the treated units and the control model on the others. -/
theorem C54_fit_partial (R : Predictor M α) (s : BinLin M α) (us : List (Obs α)) :
    ((fit R (Obs.dataset s.covDim us) s).1 ≠ .ok () → (fit R (Obs.dataset s.covDim us) s).2.hasBeenFit = s.hasBeenFit) ∧
    (R.Total → (∃ u ∈ us, u.xv = 1) → (∃ u ∈ us, u.xv ≠ 1) →
      fit R (Obs.dataset s.covDim us) s = (.ok (), { s with
        recent := some (Obs.dataset s.covDim us)
        treat := (R.fit s.treat ((us.filter fun u => decide (u.xv = 1)).map Obs.zv) ((us.filter fun u => decide (u.xv = 1)).map Obs.yv)).2
        cont := (R.fit s.cont ((us.filter fun u => !decide (u.xv = 1)).map Obs.zv) ((us.filter fun u => !decide (u.xv = 1)).map Obs.yv)).2
        hasBeenFit := true })) := by
  constructor
  · rw [fit_dataset]
    generalize R.fitRows ((treatedUnits us).map Obs.zv) ((treatedUnits us).map Obs.yv) s.treat = r
    obtain ⟨_ | _, m⟩ := r
    · simp
    · dsimp only
      generalize R.fitRows ((otherUnits us).map Obs.zv) ((otherUnits us).map Obs.yv) s.cont = r
      obtain ⟨_ | _, p⟩ := r <;> simp
  · rintro hR ⟨u, hu, h1⟩ ⟨v, hv, h2⟩
    have n1 : treatedUnits us ≠ [] := List.ne_nil_of_mem (List.mem_filter.mpr ⟨hu, by simpa using h1⟩)
    have n2 : otherUnits us ≠ [] := List.ne_nil_of_mem (List.mem_filter.mpr ⟨hv, by simpa using h2⟩)
    rw [fit_dataset, fitRows_ok R hR _ n1, fitRows_ok R hR _ n2]
    rfl

end BinLin

namespace Arm
variable {E β α W : Type} [Field α] [LinearOrder α]

/-- An arm whose nuisance parameter never reports enough samples returns `(0, inf)` whenever an update
completes. -/
theorem never_enough (cfg : SSConfig β α) (ops : EtaOps E β α) (lib : Libm α) (rng : Rng W α)
    (hno : ∀ e, ops.hasEnough e = .ok false) (d : ExpData β) (delta : Fl α) (s s' : ArmState E β α × W) (lo hi : Fl α)
    (hr : ssUpdate cfg ops lib rng d delta s = (.ok (lo, hi), s')) :
    lo = .fin 0 ∧ hi = .pinf ∧ s'.1.ci = (some (.fin 0), some .pinf) ∧ s'.1.varEst = some .pinf := by
  unfold ssUpdate at hr
  split at hr
  · simp [Py.raise] at hr
  · replace hr := bind_inv hr
    obtain ⟨_, s1, _, hr⟩ := hr
    replace hr := bind_inv hr
    obtain ⟨_, s2, _, hr⟩ := hr
    unfold ssEstimate at hr
    replace hr := bind_inv hr
    obtain ⟨f0, s3, _, hr⟩ := hr
    replace hr := bind_inv hr
    obtain ⟨_, s4, _, hr⟩ := hr
    replace hr := bind_inv hr
    obtain ⟨⟨e, w⟩, s5, _, hr⟩ := hr
    replace hr := bind_inv hr
    obtain ⟨b, s6, hb, hr⟩ := hr
    rw [Py.lift_apply, hno] at hb
    obtain ⟨hb1, rfl⟩ := Prod.mk.inj hb
    obtain rfl := Except.ok.inj hb1
    simp only [Bool.not_false, if_true, Py.bind_apply, Py.modify_apply, setCi, Py.pure_apply, Except.ok.injEq, Prod.mk.injEq] at hr
    obtain ⟨⟨rfl, rfl⟩, rfl⟩ := hr
    exact ⟨rfl, rfl, rfl, rfl⟩

end Arm

namespace BinLin
variable {M α W : Type} [Field α] [LinearOrder α]

/-- **C54 is violated (readiness)**: `has_enough_samples` is the `Protocol` stub, so a `SampleSplittingArm`
with a `LinearParameterBinaryTreatment` never leaves the uninformative interval: over any sequence of
updates, every update that completes returns `(0, inf)`. -/
theorem C54_arm_never_informative_violated (R : Predictor M α) (ridge0 : M) (cfg : SSConfig (Cell α) α) (lib : Libm α) (rng : Rng W α)
    (hist : List (ExpData (Cell α) × Fl α)) (s : ArmState (BinLin M α) (Cell α) α × W) :
    ∀ r ∈ (runUpdates (Arm.ssUpdate cfg (ops R ridge0) lib rng) hist s).1, ∀ ci, r = .ok ci → ci = (.fin 0, .pinf) := by
  induction hist generalizing s with
  | nil => simp [runUpdates]
  | cons p hist ih =>
    obtain ⟨d, delta⟩ := p
    intro r hr ci hc
    simp only [runUpdates, List.mem_cons] at hr
    rcases hr with rfl | hr
    · obtain ⟨lo, hi⟩ := ci
      obtain ⟨h1, h2, -⟩ := Arm.never_enough cfg (ops R ridge0) lib rng (fun _ => rfl) d delta s
        (Arm.ssUpdate cfg (ops R ridge0) lib rng d delta s).2 lo hi (Prod.ext hc rfl)
      rw [h1, h2]
    · exact ih _ r hr ci hc

/-- **C57 for `LinearParameterBinaryTreatment`**: after any history `reset()` gives exactly the parameter
that was constructed. -/
theorem C57_binary (R : Predictor M α) (ridge0 : M) (dim : Nat) (h : List (EtaEvent α)) :
    reset ridge0 (runEvents (fit R) (reset ridge0) h (new ridge0 dim)) = new ridge0 dim := by
  have key : ∀ (h : List (EtaEvent α)) (s : BinLin M α), (runEvents (fit R) (reset ridge0) h s).covDim = s.covDim := by
    intro h
    induction h with
    | nil => intro s; rfl
    | cons e h ih =>
      intro s
      cases e with
      | reset => exact ih _
      | fit c us =>
        refine (ih _).trans ?_
        by_cases hc : c = s.covDim
        · subst hc
          rw [fit_dataset]
          generalize R.fitRows ((treatedUnits us).map Obs.zv) ((treatedUnits us).map Obs.yv) s.treat = r
          obtain ⟨_ | _, m⟩ := r
          · rfl
          · dsimp only
            generalize R.fitRows ((otherUnits us).map Obs.zv) ((otherUnits us).map Obs.yv) s.cont = r
            obtain ⟨_ | _, p⟩ := r <;> rfl
        · simp [fit, Py.bind_apply, Py.get_apply, hc, Py.raise_apply, Obs.dataset_nFeatures]
  show new ridge0 (runEvents (fit R) (reset ridge0) h (new ridge0 dim)).covDim = _
  rw [key]
  rfl

/-- The units of the running example, with one more treated unit and control unit. -/
def demoUnits : List (Obs ℚ) :=
  [⟨[.int 0], .int 1, .flt 3⟩, ⟨[.int 1], .int 1, .flt 1⟩, ⟨[.int 0], .int 0, .flt 2⟩, ⟨[.int 1], .int 0, .flt 5⟩]

/-- A regressor for examples: the mean of the labels it was fitted on. -/
def meanRidge : Predictor (Option ℚ) ℚ where
  fit := fun _ _ ys => (.ok (), some (ys.sum / ys.length))
  predict := fun m _ => m.getD 0
  clone := fun _ => none

example : meanRidge.Total ∧ (∃ u ∈ demoUnits, u.xv = 1) ∧ (∃ u ∈ demoUnits, u.xv ≠ 1) ∧
    (fit meanRidge (Obs.dataset 1 demoUnits) (new none 1)).2.treat = some 2 ∧
    (fit meanRidge (Obs.dataset 1 demoUnits) (new none 1)).2.cont = some (7 / 2) ∧
    score meanRidge (fit meanRidge (Obs.dataset 1 demoUnits) (new none 1)).2 (Obs.dataset 1 demoUnits) =
      .ok (List.replicate 4 (.fin (-3 / 2))) :=
  ⟨fun _ _ _ _ _ => rfl, by decide +kernel, by decide +kernel, by decide +kernel, by decide +kernel, by decide +kernel⟩

example : (demoUnits.drop 2 ≠ [] ∧ ∀ u ∈ demoUnits.drop 2, u.xv ≠ 1) ∧ (demoUnits.take 2 ≠ [] ∧ ∀ u ∈ demoUnits.take 2, u.xv = 1) := by
  decide +kernel

/-- Two updates that complete: the parameter is fitted, the interval stays `(0, inf)`. -/
example :
    let cfg : SSConfig (Cell ℚ) ℚ := ⟨.ok, .clt, true, .fin 1, .fin 1, .fin 1, .fin 2, .fin 1⟩
    let r := runUpdates (Arm.ssUpdate cfg (ops meanRidge none) Arm.demoLib Arm.demoRng)
      [(Obs.dataset 1 demoUnits, .fin (1 / 10)), (Obs.dataset 1 demoUnits, .fin (1 / 10))] (Arm.init (new none 1), 0)
    r.1 = [.ok (.fin 0, .pinf), .ok (.fin 0, .pinf)] ∧ r.2.1.eta.hasBeenFit = true := by decide +kernel

end BinLin
end Verif
