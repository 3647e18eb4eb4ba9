import Verif.Props.LinReg
import Verif.Props.FrontDoor
import Verif.Props.Parameters2
import Verif.Props.Tabular

/-!
# C68 the score of `LinearParameterBinaryTreatment`, C69 the dimension checks, C70 readiness
-/

set_option linter.unusedSectionVars false
set_option linter.unusedSimpArgs false

namespace Verif
open Param

/-! ## C68 -/

namespace BinLin
variable {M α : Type} [Field α] [LinearOrder α]

theorem score_fitted (R : Predictor M α) (s : BinLin M α) (hfit : s.hasBeenFit = true) (us : List (Obs α)) (hne : us ≠ []) :
    score R s (Obs.dataset s.covDim us) = .ok (us.map fun u => .fin (R.predict s.treat u.zv - R.predict s.cont u.zv)) := by
  have he : (us.map Obs.zv).isEmpty = false := by simpa using hne
  simp only [score, transform, hfit, Bool.not_true, Bool.false_eq_true, if_false, Obs.dataset_nFeatures, ne_eq, not_true_eq_false,
    Obs.dataset_cov2d, bind, Except.bind, Predictor.predictRows, he, pure, Except.pure]
  congr 1
  rw [List.zip_map', List.map_map, List.map_map, List.map_map]
  refine List.map_congr_left fun u _ => ?_
  simp [Fl.sub, Fl.add, Fl.neg, sub_eq_add_neg]

/-- **C68** After a fit on units of both groups with regressors that do not raise, the score of every unit of every
non-empty dataset is the prediction of the regressor fitted on the treated units minus that of the one fitted on the
others. -/
theorem C68_score (R : Predictor M α) (hR : R.Total) (s : BinLin M α) (us : List (Obs α)) (ht : ∃ u ∈ us, u.xv = 1) (hc : ∃ u ∈ us, u.xv ≠ 1)
    (vs : List (Obs α)) (hne : vs ≠ []) :
    let tr := us.filter fun u => decide (u.xv = 1)
    let ct := us.filter fun u => !decide (u.xv = 1)
    let f := (R.fit s.treat (tr.map Obs.zv) (tr.map Obs.yv)).2
    let g := (R.fit s.cont (ct.map Obs.zv) (ct.map Obs.yv)).2
    score R (fit R (Obs.dataset s.covDim us) s).2 (Obs.dataset s.covDim vs) =
      .ok (vs.map fun v => .fin (R.predict f v.zv - R.predict g v.zv)) := by
  intro tr ct f g
  rw [(C54_fit_partial R s us).2 hR ht hc]
  exact score_fitted R _ rfl vs hne

/-- **C68** A parameter that has not been fitted gives NaN for every unit, and a fitted one refuses an empty dataset. -/
theorem C68_unfitted (R : Predictor M α) (s : BinLin M α) :
    (s.hasBeenFit = false → ∀ c (us : List (Obs α)), score R s (Obs.dataset c us) = .ok (us.map fun _ => .nan)) ∧
    (s.hasBeenFit = true → score R s (Obs.dataset s.covDim []) = .error .valueError) := by
  constructor
  · intro h c us
    simp only [score, transform, h, Bool.not_false, if_true, Obs.dataset_nUnits, bind, Except.bind, pure, Except.pure,
      List.map_replicate]
    congr 1
    rw [List.map_const']
    rfl
  · intro h
    simp only [score, transform, h, Bool.not_true, Bool.false_eq_true, if_false, Obs.dataset_nFeatures, ne_eq, not_true_eq_false,
      Obs.dataset_cov2d, bind, Except.bind, Predictor.predictRows, List.map_nil, List.isEmpty_nil, if_true]

example : meanRidge.Total ∧ (∃ u ∈ demoUnits, u.xv = 1) ∧ (∃ u ∈ demoUnits, u.xv ≠ 1) ∧ demoUnits.take 1 ≠ [] ∧
    score meanRidge (fit meanRidge (Obs.dataset 1 demoUnits) (new none 1)).2 (Obs.dataset 1 (demoUnits.take 1)) = .ok [.fin (2 - 7 / 2)] :=
  ⟨fun _ _ _ _ _ => rfl, by decide +kernel, by decide +kernel, by decide +kernel, by decide +kernel⟩

example : (new none 1 : BinLin (Option ℚ) ℚ).hasBeenFit = false ∧
    (fit meanRidge (Obs.dataset 1 demoUnits) (new none 1)).2.hasBeenFit = true := by decide +kernel

end BinLin

/-! ## C69 -/

/-- **C69** Whatever the data, when the number of features differs from the one given to the constructor, `fit` of `AIPW`,
`LinearParameterBinaryTreatment` and `FrontDoorLinearFiniteZ` and `calculate_score` of the last and of fitted
parameters of the first two raise `ValueError` and change nothing. -/
theorem C69_wrong_dimension_partial {M P α : Type} [Field α] [LinearOrder α] (R : Predictor M α) (C : Predictor P α) (d : ExpData (Cell α)) :
    (∀ s : AIPW M P α, d.nFeatures ≠ s.covDim → AIPW.fit R C d s = (.error .valueError, s) ∧
      (s.hasBeenFit = true → AIPW.score R C s d = .error .valueError)) ∧
    (∀ s : BinLin M α, d.nFeatures ≠ s.covDim → BinLin.fit R d s = (.error .valueError, s) ∧
      (s.hasBeenFit = true → BinLin.score R s d = .error .valueError)) ∧
    (∀ s : FrontDoor M α, d.nFeatures ≠ s.covDim → FrontDoor.fit R d s = (.error .valueError, s) ∧
      FrontDoor.score R d s = (.error .valueError, s)) := by
  refine ⟨fun s h => ⟨AIPW.fit_wrong R C d s h, fun hf => ?_⟩, fun s h => ⟨?_, fun hf => ?_⟩, fun s h => ⟨FrontDoor.fit_wrong R d s h, ?_⟩⟩
  · simp only [AIPW.score, AIPW.transform, hf, Bool.not_true, Bool.false_eq_true, if_false, h, ne_eq, not_false_eq_true, if_true,
      bind, Except.bind]
  · simp only [BinLin.fit, Py.bind_apply, Py.get_apply, h, ne_eq, not_false_eq_true, if_true, Py.raise_apply]
  · simp only [BinLin.score, BinLin.transform, hf, Bool.not_true, Bool.false_eq_true, if_false, h, ne_eq, not_false_eq_true, if_true,
      bind, Except.bind]
  · simp only [FrontDoor.score, FrontDoor.transform, Py.bind_apply, Py.get_apply, h, ne_eq, not_false_eq_true, if_true, Py.raise_apply]

/-- **C69 for `LinearRegressionParameter`**: a fit on a non-empty dataset with another (non-zero) number of features
raises `ValueError` and changes nothing; so does `calculate_score` on any dataset with another number of features. -/
theorem C69_linreg_partial {k : Nat} {α : Type} [Field α] [LinearOrder α] (s : LinReg k α) (c : Nat) (hc : c ≠ k) (us : List (Obs α)) :
    (us ≠ [] → c ≠ 0 → k ≠ 0 → LinReg.fit (Obs.dataset c us) s = (.error .valueError, s)) ∧
    LinReg.score s (Obs.dataset c us) = .error .valueError := by
  constructor
  · intro hne h0 hk
    have hn : ¬ us.length < 1 := by have := List.length_pos_iff.mpr hne; omega
    unfold LinReg.fit
    rw [Obs.dataset_nUnits, if_neg hn]
    simp only [Py.bind_apply, Py.lift_apply, Obs.dataset_exp, Obs.vals_x, Obs.dataset_cStack, Obs.dataset_nFeatures, ne_eq, hc,
      not_false_eq_true, if_true, h0, hk, or_self, if_false, Py.raise_apply]
  · simp only [LinReg.score, Obs.dataset_exp, Obs.vals_x, Obs.dataset_cStack, Obs.dataset_rsp, bind, Except.bind, Obs.dataset_nFeatures,
      List.length_map, ne_eq, not_true_eq_false, if_false, hc, not_false_eq_true, if_true]

/-- **C69 is violated** by unfitted parameters and empty data: `AIPW` and `LinearParameterBinaryTreatment` return NaN for
data of any dimension when they are not fitted, and `LinearRegressionParameter.fit` accepts empty data of any
dimension. -/
theorem C69_unchecked_violated {M P α : Type} [Field α] [LinearOrder α] [IsStrictOrderedRing α] (R : Predictor M α) (C : Predictor P α) (us : List (Obs α)) (c : Nat) :
    (∀ s : AIPW M P α, s.hasBeenFit = false → AIPW.score R C s (Obs.dataset c us) = .ok (us.map fun _ => .nan)) ∧
    (∀ s : BinLin M α, s.hasBeenFit = false → BinLin.score R s (Obs.dataset c us) = .ok (us.map fun _ => .nan)) ∧
    (∀ k, ∀ s : LinReg k α, LinReg.fit (Obs.dataset c []) s = (.ok (), s)) := by
  refine ⟨fun s h => ?_, fun s h => (BinLin.C68_unfitted R s).1 h c us, fun k s => ?_⟩
  · rw [AIPW.C49_unfitted R C s h, List.map_const']
  · unfold LinReg.fit
    rw [Obs.dataset_nUnits]
    rfl

example : (Obs.dataset 2 AIPW.demoUnits).nFeatures ≠ (AIPW.new 1 none none 2 (1 / 20) : AIPW (Option ℚ) (Option ℚ) ℚ).covDim ∧
    (AIPW.fit AIPW.meanPredictor AIPW.meanPredictor (Obs.dataset 1 AIPW.demoUnits) (AIPW.new 1 none none 2 (1 / 20))).2.hasBeenFit = true ∧
    AIPW.demoUnits ≠ [] := by decide +kernel

/-! ## C70 -/

/-- A flag that starts down, is lowered by `reset` and raised exactly by completed fits. -/
theorem ready_iff {E α : Type} [Field α] [LinearOrder α] (fit : ExpData (Cell α) → Py E Unit) (reset : E → E) (flag : E → Bool)
    (Done : E → Nat → List (Obs α) → Prop) (e0 : E) (h0 : flag e0 = false) (hr : ∀ e, flag (reset e) = false)
    (hf : ∀ e c us, flag (fit (Obs.dataset c us) e).2 = true ↔ flag e = true ∨ Done e c us) (h : List (EtaEvent α)) :
    flag (runEvents fit reset h e0) = true ↔
      ∃ pre c us post, h = pre ++ .fit c us :: post ∧ .reset ∉ post ∧ Done (runEvents fit reset pre e0) c us := by
  have happ : ∀ (a b : List (EtaEvent α)) (e : E), runEvents fit reset (a ++ b) e = runEvents fit reset b (runEvents fit reset a e) := by
    intro a
    induction a with
    | nil => intro b e; rfl
    | cons x a ih => intro b e; cases x <;> exact ih b _
  induction h using List.reverseRecOn with
  | nil => simp [runEvents, h0]
  | append_singleton h x ih =>
    rw [happ]
    cases x with
    | reset =>
      constructor
      · intro hx; simp [runEvents, hr] at hx
      · rintro ⟨pre, c, us, post, he, hp, -⟩
        exfalso
        rcases List.eq_nil_or_concat post with rfl | ⟨q, y, rfl⟩
        · have := List.append_inj_right' he rfl
          simp at this
        · rw [List.concat_eq_append, ← List.cons_append, ← List.append_assoc] at he
          have := List.append_inj_right' he rfl
          simp only [List.cons.injEq, and_true] at this
          subst this
          exact hp (by simp)
    | fit c us =>
      show flag (fit (Obs.dataset c us) (runEvents fit reset h e0)).2 = true ↔ _
      refine (hf _ _ _).trans ((or_congr ih Iff.rfl).trans ?_)
      constructor
      · rintro (⟨pre, c', us', post, he, hp, hd⟩ | hd)
        · exact ⟨pre, c', us', post ++ [.fit c us], by rw [he]; simp, by simp [hp], hd⟩
        · exact ⟨h, c, us, [], rfl, by simp, hd⟩
      · rintro ⟨pre, c', us', post, he, hp, hd⟩
        rcases List.eq_nil_or_concat post with rfl | ⟨q, y, rfl⟩
        · obtain ⟨e1, e2⟩ := List.append_inj' he rfl
          simp only [List.cons.injEq, EtaEvent.fit.injEq, and_true] at e2
          obtain ⟨rfl, rfl⟩ := e2
          subst e1
          exact Or.inr hd
        · rw [List.concat_eq_append, ← List.cons_append, ← List.append_assoc] at he
          obtain ⟨e1, e2⟩ := List.append_inj' he rfl
          exact Or.inl ⟨pre, c', us', q, e1, fun hq => hp (by simp [hq]), hd⟩

namespace FrontDoor
variable {M α : Type} [Field α] [LinearOrder α]

theorem fit_flag (R : Predictor M α) (c : Nat) (us : List (Obs α)) (s : FrontDoor M α) :
    (fit R (Obs.dataset c us) s).2.hasBeenFit = true ↔ s.hasBeenFit = true ∨
      (c = s.covDim ∧ tooFew s.minUnits (Obs.dataset c us).nUnits (us.map Obs.x) = false ∧ (fit R (Obs.dataset c us) s).1 = .ok ()) := by
  by_cases hc : c = s.covDim
  · subst hc
    cases h : tooFew s.minUnits (Obs.dataset s.covDim us).nUnits (us.map Obs.x)
    · rw [fit_enough R us s h]
      generalize R.fitRows (us.map fun u => u.xv :: u.zv) (us.map Obs.yv) s.yResponse = r
      obtain ⟨_ | _, m⟩ := r
      · simp
      · dsimp only
        generalize s.cpd.fit (us.map fun u => u.x.key) (us.map fun u => rowKey u.z) = r
        obtain ⟨_ | _, t⟩ := r <;> simp
    · rw [fit_few R us s h]; simp
  · rw [fit_wrong R _ s (by rw [Obs.dataset_nFeatures]; exact hc)]; simp [hc]

/-- **C70 for `FrontDoorLinearFiniteZ`**: after any history of fits on datasets with binary exposure and resets,
`has_enough_samples()` holds iff, since the last reset, some fit on a dataset with the right number of features, at
least `min_units` treated and at least `min_units` control units has completed. -/
theorem C70_frontdoor {M : Type} (R : Predictor M ℝ) (ridge0 : M) (dim : Nat) (minUnits : Int) (mo ratio : ℝ) (h : List (EtaEvent ℝ))
    (hbin : ∀ c us, EtaEvent.fit c us ∈ h → ∀ u ∈ us, u.Binary) :
    (ops R ridge0).hasEnough (after R ridge0 h (new ridge0 dim minUnits mo ratio)) = .ok true ↔
      ∃ pre us post, h = pre ++ .fit dim us :: post ∧ .reset ∉ post ∧
        minUnits ≤ Obs.treated us ∧ minUnits ≤ Obs.control us ∧
        (fit R (Obs.dataset dim us) (after R ridge0 pre (new ridge0 dim minUnits mo ratio))).1 = .ok () := by
  have hcfg : ∀ pre : List (EtaEvent ℝ), SameConfig (new ridge0 dim minUnits mo ratio) (after R ridge0 pre (new ridge0 dim minUnits mo ratio)) :=
    fun pre => (inv_after (fun _ => True) (fun _ => True) R ridge0 pre _ (inv_new _ _ _ _ _ _ _) (fun _ _ _ _ => ⟨trivial, trivial⟩)).2
  have key := ready_iff (fit R) (reset ridge0) (·.hasBeenFit)
    (fun s c us => c = s.covDim ∧ tooFew s.minUnits (Obs.dataset c us).nUnits (us.map Obs.x) = false ∧ (fit R (Obs.dataset c us) s).1 = .ok ())
    (new ridge0 dim minUnits mo ratio) rfl (fun _ => rfl) (fun s c us => fit_flag R c us s) h
  have e : (ops R ridge0).hasEnough (after R ridge0 h (new ridge0 dim minUnits mo ratio)) = .ok true ↔
      (after R ridge0 h (new ridge0 dim minUnits mo ratio)).hasBeenFit = true := by
    show (Except.ok _ : Except PyErr Bool) = .ok true ↔ _
    rw [Except.ok.injEq]
  rw [e]
  refine key.trans ?_
  constructor
  · rintro ⟨pre, c, us, post, he, hp, rfl, h1, h2⟩
    have hd : (runEvents (fit R) (reset ridge0) pre (new ridge0 dim minUnits mo ratio)).covDim = dim := (hcfg pre).1
    have hm : (runEvents (fit R) (reset ridge0) pre (new ridge0 dim minUnits mo ratio)).minUnits = minUnits := (hcfg pre).2.2.1
    rw [hd] at he h1 h2
    rw [hm] at h1
    have hb : ∀ u ∈ us, u.Binary := hbin dim us (by rw [he]; simp)
    rw [← Bool.not_eq_true, Obs.tooFew_iff us hb, not_not] at h1
    exact ⟨pre, us, post, he, hp, h1.1, h1.2, h2⟩
  · rintro ⟨pre, us, post, he, hp, h1, h2, h3⟩
    have hd : (runEvents (fit R) (reset ridge0) pre (new ridge0 dim minUnits mo ratio)).covDim = dim := (hcfg pre).1
    have hm : (runEvents (fit R) (reset ridge0) pre (new ridge0 dim minUnits mo ratio)).minUnits = minUnits := (hcfg pre).2.2.1
    have hb : ∀ u ∈ us, u.Binary := hbin dim us (by rw [he]; simp)
    refine ⟨pre, dim, us, post, he, hp, hd.symm, ?_, h3⟩
    rw [hm, ← Bool.not_eq_true, Obs.tooFew_iff us hb, not_not]
    exact ⟨h1, h2⟩

end FrontDoor

namespace LinReg
variable {k : Nat} {α : Type} [Field α] [LinearOrder α] [IsStrictOrderedRing α]

theorem fit_flag (s : LinReg k α) (hl : 0 < s.lReg) (c : Nat) (us : List (Obs α)) :
    ((fit (Obs.dataset c us) s).2.hasBeenFit = true ↔ s.hasBeenFit = true ∨ (c = k ∧ us ≠ [])) ∧
    (fit (Obs.dataset c us) s).2.lReg = s.lReg := by
  by_cases hne : us = []
  · subst hne
    rw [C53_empty_fit]
    simp
  · by_cases hc : c = k
    · subst hc
      rw [fit_dataset s hl us hne]
      simp [hne]
    · have hn : ¬ us.length < 1 := by have := List.length_pos_iff.mpr hne; omega
      unfold fit
      rw [Obs.dataset_nUnits, if_neg hn]
      simp only [Py.bind_apply, Py.lift_apply, Obs.dataset_exp, Obs.vals_x, Obs.dataset_cStack, Obs.dataset_nFeatures, ne_eq, hc,
        not_false_eq_true, if_true, Py.raise_apply, false_and, or_false, and_self]

/-- **C70 for `LinearRegressionParameter`** (partial): `has_enough_samples()` holds exactly when some fit on a non-empty
dataset of the right dimension has been made.  Missing: resets in between are ignored (`C57_linreg_violated`). -/
theorem C70_linreg_partial (lReg : α) (hl : 0 < lReg) (h : List (EtaEvent α)) :
    (ops (k := k)).hasEnough (runEvents fit reset h (new lReg)) = .ok true ↔ ∃ us, EtaEvent.fit k us ∈ h ∧ us ≠ [] := by
  have key : ∀ (h : List (EtaEvent α)) (s : LinReg k α), 0 < s.lReg →
      ((runEvents fit reset h s).hasBeenFit = true ↔ s.hasBeenFit = true ∨ ∃ us, EtaEvent.fit k us ∈ h ∧ us ≠ []) := by
    intro h
    induction h with
    | nil => intro s _; simp [runEvents]
    | cons e h ih =>
      intro s hs
      cases e with
      | reset =>
        refine (ih (reset s) hs).trans ?_
        simp [reset]
      | fit c us =>
        obtain ⟨f1, f2⟩ := fit_flag s hs c us
        refine (ih _ (by rw [f2]; exact hs)).trans ?_
        rw [f1]
        constructor
        · rintro ((h1 | ⟨rfl, h2⟩) | ⟨us', h3, h4⟩)
          · exact Or.inl h1
          · exact Or.inr ⟨us, by simp, h2⟩
          · exact Or.inr ⟨us', by simp [h3], h4⟩
        · rintro (h1 | ⟨us', h3, h4⟩)
          · exact Or.inl (Or.inl h1)
          · simp only [List.mem_cons, EtaEvent.fit.injEq] at h3
            rcases h3 with ⟨rfl, rfl⟩ | h3
            · exact Or.inl (Or.inr ⟨rfl, h4⟩)
            · exact Or.inr ⟨us', h3, h4⟩
  have e : (ops (k := k)).hasEnough (runEvents fit reset h (new lReg)) = .ok true ↔ (runEvents fit reset h (new lReg : LinReg k α)).hasBeenFit = true := by
    show (Except.ok _ : Except PyErr Bool) = .ok true ↔ _
    rw [Except.ok.injEq]
  rw [e, key h (new lReg) hl]
  simp [new]

end LinReg

/-- **C70 for `AIPW`**, through the interface used by the arms (see `C48_ready_iff`). -/
theorem AIPW.C70_aipw {M P : Type} (R : Predictor M ℝ) (C : Predictor P ℝ) (dim : Nat) (m : M) (p : P) (minUnits : Int) (mo : ℝ)
    (h : List (EtaEvent ℝ)) (hbin : ∀ c us, EtaEvent.fit c us ∈ h → ∀ u ∈ us, u.Binary) :
    (AIPW.ops R C).hasEnough (AIPW.after R C h (AIPW.new dim m p minUnits mo)) = .ok true ↔
      ∃ pre us post, h = pre ++ .fit dim us :: post ∧ .reset ∉ post ∧
        minUnits ≤ Obs.treated us ∧ minUnits ≤ Obs.control us ∧
        (AIPW.fit R C (Obs.dataset dim us) (AIPW.after R C pre (AIPW.new dim m p minUnits mo))).1 = .ok () := by
  rw [← AIPW.C48_ready_iff R C dim m p minUnits mo h hbin]
  show (Except.ok _ : Except PyErr Bool) = .ok true ↔ _
  rw [Except.ok.injEq]

/-- **C70 is violated by `LinearParameterBinaryTreatment`**: the fit completes on every dataset with treated and control
units (regressors that do not raise), and `has_enough_samples()` is still falsy. -/
theorem BinLin.C70_binary_violated {M α : Type} [Field α] [LinearOrder α] (R : Predictor M α) (hR : R.Total) (ridge0 : M) (s : BinLin M α)
    (us : List (Obs α)) (ht : ∃ u ∈ us, u.xv = 1) (hc : ∃ u ∈ us, u.xv ≠ 1) :
    (BinLin.fit R (Obs.dataset s.covDim us) s).1 = .ok () ∧ (BinLin.fit R (Obs.dataset s.covDim us) s).2.hasBeenFit = true ∧
    (BinLin.ops R ridge0).hasEnough (BinLin.fit R (Obs.dataset s.covDim us) s).2 = .ok false := by
  rw [(BinLin.C54_fit_partial R s us).2 hR ht hc]
  exact ⟨rfl, rfl, rfl⟩

/-- The units of the running example over the reals. -/
noncomputable def realUnits : List (Obs ℝ) :=
  [⟨[.int 0], .int 1, .int 3⟩, ⟨[.int 1], .int 0, .int 1⟩]

/-- A history whose fit completes, for every regressor that does not raise. -/
example (R : Predictor Unit ℝ) (hR : R.Total) :
    (∀ c us, EtaEvent.fit c us ∈ [EtaEvent.reset, .fit 1 realUnits] → ∀ u ∈ us, u.Binary) ∧
    (1 : Int) ≤ Obs.treated realUnits ∧ (1 : Int) ≤ Obs.control realUnits ∧
    (FrontDoor.ops R ()).hasEnough (FrontDoor.after R () [.reset, .fit 1 realUnits] (FrontDoor.new () 1 1 (1 / 4) 20)) = .ok true := by
  have hb : ∀ u ∈ realUnits, u.Binary := by
    intro u hu
    simp only [realUnits, List.mem_cons, List.not_mem_nil, or_false] at hu
    rcases hu with rfl | rfl <;> simp [Obs.Binary, Obs.xv, Cell.val]
  have h1 : Obs.treated realUnits = 1 := by simp [Obs.treated, realUnits, Obs.xv, Cell.val]
  have h2 : Obs.control realUnits = 1 := by simp [Obs.control, realUnits, Obs.xv, Cell.val]
  have hbin : ∀ c us, EtaEvent.fit c us ∈ [EtaEvent.reset, .fit 1 realUnits] → ∀ u ∈ us, u.Binary := by
    intro c us hm
    simp only [List.mem_cons, reduceCtorEq, EtaEvent.fit.injEq, List.not_mem_nil, or_false, false_or] at hm
    rw [hm.2]
    exact hb
  refine ⟨hbin, by rw [h1]; decide, by rw [h2]; decide, ?_⟩
  rw [FrontDoor.C70_frontdoor R () 1 1 (1 / 4) 20 _ hbin]
  refine ⟨[.reset], realUnits, [], rfl, by simp, by rw [h1]; decide, by rw [h2]; decide, ?_⟩
  have hfew : tooFew (FrontDoor.new () 1 1 (1 / 4) 20 : FrontDoor Unit ℝ).minUnits
      (Obs.dataset (FrontDoor.new () 1 1 (1 / 4) 20 : FrontDoor Unit ℝ).covDim realUnits).nUnits (realUnits.map Obs.x) = false := by
    rw [← Bool.not_eq_true, Obs.tooFew_iff realUnits hb, not_not, h1, h2]
    decide
  have he := FrontDoor.fit_enough R realUnits (FrontDoor.new () 1 1 (1 / 4) 20 : FrontDoor Unit ℝ) hfew
  refine (congrArg Prod.fst he).trans ?_
  have i1 : R.fitRows (realUnits.map fun u => u.xv :: u.zv) (realUnits.map Obs.yv) () = (.ok (), ()) := by
    unfold Predictor.fitRows
    simp only [realUnits, List.map_cons, List.map_nil, List.isEmpty_cons, List.length_cons, List.length_nil]
    simp only [ne_eq, not_true_eq_false, decide_false, Bool.or_self, Bool.false_eq_true, if_false]
    exact Prod.ext (hR _ _ _ (by simp) rfl) rfl
  have i2 : ((FrontDoor.new () 1 1 (1 / 4) 20 : FrontDoor Unit ℝ).cpd.fit (realUnits.map fun u => u.x.key) (realUnits.map fun u => FrontDoor.rowKey u.z)).1 = .ok () := by
    exact (Tab.C14_fit_outcome 20 (by norm_num) _ _).2.2 (by simp) (by simp [realUnits])
  rw [show (FrontDoor.new () 1 1 (1 / 4) 20 : FrontDoor Unit ℝ).yResponse = () from rfl, i1]
  dsimp only
  generalize (FrontDoor.new () 1 1 (1 / 4) 20 : FrontDoor Unit ℝ).cpd.fit _ _ = r at i2
  obtain ⟨_, t⟩ := r
  dsimp only at i2
  subst i2
  rfl

example : (0 : ℚ) < 1 / 10 ∧ (∃ us, EtaEvent.fit 1 us ∈ [EtaEvent.fit 1 AIPW.demoUnits, .reset] ∧ us ≠ []) ∧ (2 : Nat) ≠ 1 ∧
    LinReg.score (LinReg.new (1 / 10) : LinReg 1 ℚ) (Obs.dataset 2 AIPW.demoUnits) = .error .valueError :=
  ⟨by decide +kernel, ⟨AIPW.demoUnits, by decide +kernel, by decide +kernel⟩, by decide, by decide +kernel⟩

end Verif
