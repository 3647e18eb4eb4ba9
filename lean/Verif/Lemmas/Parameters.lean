import Verif.Spec.Parameters
import Verif.Lemmas.Tabular
import Mathlib.Tactic.Linarith
import Mathlib.Tactic.FieldSimp
import Mathlib.Tactic.Ring
import Mathlib.Algebra.Order.BigOperators.Group.Finset
import Mathlib.Algebra.BigOperators.Ring.Finset

/-!
# Lemmas about the nuisance parameters
-/

set_option linter.unusedSectionVars false
set_option linter.unusedSimpArgs false

namespace Verif
open Param

section Data
variable {α : Type} [Field α] [LinearOrder α]

namespace Obs

theorem dataset_nUnits (c : Nat) (us : List (Obs α)) : (dataset c us).nUnits = us.length := by
  simp [dataset, ExpData.new, Arr.len]

theorem dataset_nFeatures (c : Nat) (us : List (Obs α)) : (dataset c us).nFeatures = c := rfl

theorem dataset_cov2d (c : Nat) (us : List (Obs α)) : cov2d (dataset c us) = .ok (us.map zv) := by
  simp [cov2d, dataset, ExpData.new, zv, Function.comp_def]

theorem dataset_exp (c : Nat) (us : List (Obs α)) : need (dataset c us).exp = .ok (us.map Obs.x) := rfl
theorem dataset_rsp (c : Nat) (us : List (Obs α)) : need (dataset c us).rsp = .ok (us.map Obs.y) := rfl

theorem vals_x (us : List (Obs α)) : vals (us.map Obs.x) = us.map xv := by simp [vals, xv, Function.comp_def]
theorem vals_y (us : List (Obs α)) : vals (us.map Obs.y) = us.map yv := by simp [vals, yv, Function.comp_def]

theorem zipWith_map_cons (f : Obs α → α) (us : List (Obs α)) :
    List.zipWith (· :: ·) (us.map f) (us.map zv) = us.map fun u => f u :: u.zv := by
  induction us with
  | nil => rfl
  | cons u us ih => simp [ih]

theorem dataset_cStack (c : Nat) (us : List (Obs α)) (f : Obs α → α) :
    cStack (us.map f) (dataset c us) = .ok (us.map fun u => f u :: u.zv) := by
  simp only [cStack, dataset, ExpData.new, Arr.len, Arr.asRows, List.length_map, ne_eq, not_true_eq_false, if_false]
  rw [← zipWith_map_cons, List.map_map]; rfl

theorem dataset_cStack_const (c : Nat) (us : List (Obs α)) (a : α) :
    cStack (List.replicate us.length a) (dataset c us) = .ok (us.map fun u => a :: u.zv) := by
  rw [← dataset_cStack c us fun _ => a, List.map_const']

/-- Every well-formed dataset with a 2-D covariate array, exposures and responses is of this form. -/
theorem eq_dataset (d : ExpData (Cell α)) (hwf : d.WF) (h2 : ∃ c rows, d.cov = some (.d2 c rows))
    (he : d.exp.isSome) (hr : d.rsp.isSome) :
    ∃ us, d = dataset d.nFeatures us ∧ ∀ u ∈ us, u.z.length = d.nFeatures := by
  obtain ⟨c, rows, hc⟩ := h2
  obtain ⟨e, he'⟩ := Option.isSome_iff_exists.mp he
  obtain ⟨r, hr'⟩ := Option.isSome_iff_exists.mp hr
  clear he hr
  rename' he' => he, hr' => hr
  obtain ⟨a, ha, haw, hn, hf⟩ := hwf.cov
  rw [hc] at ha
  obtain rfl := Option.some.inj ha
  have le := hwf.exp e he
  have lr := hwf.rsp r hr
  simp only [Arr.len] at hn
  simp only [Arr.nFeatures] at hf
  refine ⟨List.ofFn fun i : Fin rows.length => ⟨rows[i], e[i.val]'(by have := i.2; omega), r[i.val]'(by have := i.2; omega)⟩, ?_, ?_⟩
  · cases d
    simp only at hc he hr hn hf le lr
    subst hc he hr hn hf
    simp only [dataset, ExpData.new, Arr.len, Arr.nFeatures, List.length_map, List.length_ofFn]
    congr
    · simp [List.map_ofFn, Function.comp_def]
    · apply List.ext_getElem <;> simp [le]
    · apply List.ext_getElem <;> simp [lr]
  · intro u hu
    obtain ⟨i, rfl⟩ := List.mem_ofFn.mp hu
    rw [hf]
    exact haw _ (List.getElem_mem _)

theorem sum_binary [IsStrictOrderedRing α] (us : List (Obs α)) (h : ∀ u ∈ us, u.Binary) : (us.map xv).sum = (treated us : α) := by
  induction us with
  | nil => simp [treated]
  | cons u us ih =>
    rw [List.map_cons, List.sum_cons, ih fun v hv => h v (List.mem_cons_of_mem _ hv)]
    rcases h u List.mem_cons_self with h0 | h1
    · simp [treated, List.countP_cons, h0]
    · simp [treated, List.countP_cons, h1, add_comm]

theorem treated_add_control [IsStrictOrderedRing α] (us : List (Obs α)) (h : ∀ u ∈ us, u.Binary) : treated us + control us = us.length := by
  induction us with
  | nil => simp [treated, control]
  | cons u us ih =>
    have := ih fun v hv => h v (List.mem_cons_of_mem _ hv)
    simp only [treated, control, List.countP_cons, List.length_cons] at *
    rcases h u List.mem_cons_self with h0 | h1
    · simp [h0]; omega
    · simp [h1]; omega

theorem tooFew_iff [IsStrictOrderedRing α] (us : List (Obs α)) (h : ∀ u ∈ us, u.Binary) (m : Int) (c : Nat) :
    tooFew m (dataset c us).nUnits (us.map Obs.x) = true ↔ ¬ (m ≤ treated us ∧ m ≤ control us) := by
  have h1 := treated_add_control us h
  rw [dataset_nUnits, tooFew, vals_x, sum_binary us h, Bool.or_eq_true, decide_eq_true_iff, decide_eq_true_iff]
  rw [← h1]
  push_cast
  rw [show ((treated us : α) < (m : α)) ↔ ((treated us : Int) : α) < (m : α) by push_cast; rfl, Int.cast_lt]
  rw [show ((treated us : α) > (treated us : α) + (control us : α) - (m : α)) ↔ ((control us : Int) : α) < (m : α) by
    push_cast; constructor <;> intro h <;> linarith, Int.cast_lt]
  omega

end Obs
end Data

/-! ## AIPW -/
namespace AIPW
variable {M P α : Type} [Field α] [LinearOrder α]

/-- The propensity used by the scores. -/
def eHat (C : Predictor P α) (s : AIPW M P α) (z : List α) : α := clip (C.predict s.propensity z) s.minOverlap (1 - s.minOverlap)

theorem transform_dataset (R : Predictor M α) (C : Predictor P α) (s : AIPW M P α) (us : List (Obs α)) (hfit : s.hasBeenFit = true)
    (hne : us ≠ []) :
    transform R C s (Obs.dataset s.covDim us) = .ok (us.map fun u =>
      ⟨.fin (R.predict s.response (0 :: u.zv)), .fin (R.predict s.response (1 :: u.zv)),
        .fin (R.predict s.response (u.xv :: u.zv)), .fin (eHat C s u.zv)⟩) := by
  obtain ⟨u, us, rfl⟩ := List.exists_cons_of_ne_nil hne
  unfold transform
  rw [Obs.dataset_cov2d, Obs.dataset_nUnits, Obs.dataset_cStack_const, Obs.dataset_cStack_const, Obs.dataset_exp]
  simp only [hfit, Bool.not_true, Bool.false_eq_true, if_false, Obs.dataset_nFeatures, ne_eq, not_true_eq_false]
  simp only [bind, Except.bind, Predictor.predictRows, List.map_cons, List.isEmpty_cons, Bool.false_eq_true, if_false, pure, Except.pure]
  rw [show vals (u.x :: us.map Obs.x) = (u :: us).map Obs.xv from Obs.vals_x (u :: us), Obs.dataset_cStack]
  simp only [List.map_cons, List.isEmpty_cons, Bool.false_eq_true, if_false, List.zip_cons_cons]
  congr 2
  simp only [List.map_map, List.zip_map']
  rfl

theorem clip_mem {x lo hi : α} (h : lo ≤ hi) : lo ≤ clip x lo hi ∧ clip x lo hi ≤ hi :=
  ⟨le_min (le_max_right _ _) h, min_le_right _ _⟩

theorem score_dataset [IsStrictOrderedRing α] (R : Predictor M α) (C : Predictor P α) (s : AIPW M P α) (us : List (Obs α)) (hfit : s.hasBeenFit = true)
    (hne : us ≠ []) (ho1 : tiny ≤ s.minOverlap) (ho2 : s.minOverlap ≤ 1 / 2) :
    score R C s (Obs.dataset s.covDim us) =
      .ok (us.map fun u => .fin (aipwScore (fun x z => R.predict s.response (x :: z)) (eHat C s) u)) := by
  have ht : (0 : α) < tiny := by unfold tiny; positivity
  have hb : ∀ z, s.minOverlap ≤ eHat C s z ∧ eHat C s z ≤ 1 - s.minOverlap := fun z => clip_mem (by linarith)
  unfold score
  rw [transform_dataset R C s us hfit hne]
  simp only [bind, Except.bind, phi]
  rw [if_neg, Obs.dataset_rsp, Obs.dataset_exp]
  · simp only [List.length_map, ne_eq, not_true_eq_false, or_self, if_false, pure, Except.pure]
    congr 1
    rw [Obs.vals_x, Obs.vals_y, List.zip_map', List.zip_map', List.map_map]
    apply List.map_congr_left
    intro u _
    have := hb u.zv
    simp only [Function.comp, phiUnit, Fl.sub, Fl.neg, Fl.add, Fl.mul, Fl.div]
    rw [if_neg (by linarith : ¬ eHat C s u.zv = 0), if_neg (by intro h; linarith)]
    simp only [Fl.neg, Fl.add, Fl.mul, aipwScore]
    congr 1
    ring
  · simp only [Bool.or_eq_true, List.any_eq_true, List.mem_map, not_or, not_exists, not_and]
    constructor
    · rintro _ ⟨u, _, rfl⟩
      simp only [Fl.lt, decide_eq_true_iff, not_lt]
      linarith [hb u.zv]
    · rintro _ ⟨u, _, rfl⟩
      simp only [Fl.lt, decide_eq_true_iff, not_lt]
      linarith [hb u.zv]

end AIPW

/-! ## Populations -/
section Pop
variable {ι K α : Type} [DecidableEq K] [Field α] [LinearOrder α] [IsStrictOrderedRing α]

/-- Tower property: inside a weighted mean a variable may be replaced by its conditional mean, when the
rest depends on the key only. -/
theorem tower (I : Finset ι) (w : ι → α) (hw : ∀ i ∈ I, 0 ≤ w i) (key : ι → K) (f : ι → α) (g : K → α) :
    ∑ i ∈ I, w i * f i * g (key i) = ∑ i ∈ I, w i * condMean I w key f (key i) * g (key i) := by
  classical
  rw [← Finset.sum_fiberwise_of_maps_to (t := I.image key) (g := key) fun i hi => Finset.mem_image_of_mem _ hi,
    ← Finset.sum_fiberwise_of_maps_to (s := I) (t := I.image key) (g := key) (f := fun i => w i * condMean I w key f (key i) * g (key i))
      fun i hi => Finset.mem_image_of_mem _ hi]
  apply Finset.sum_congr rfl
  intro k _
  rw [Finset.sum_congr rfl (g := fun i => w i * f i * g k) (by
      intro i hi; rw [(Finset.mem_filter.mp hi).2]),
    Finset.sum_congr rfl (s₁ := I.filter fun i => key i = k) (f := fun i => w i * condMean I w key f (key i) * g (key i))
      (g := fun i => w i * (condMean I w key f k * g k)) (by
      intro i hi; rw [(Finset.mem_filter.mp hi).2]; ring)]
  rw [← Finset.sum_mul, ← Finset.sum_mul, ← mul_assoc]
  congr 1
  by_cases h0 : ∑ i ∈ I.filter (fun i => key i = k), w i = 0
  · have hz : ∀ i ∈ I.filter (fun i => key i = k), w i = 0 :=
      (Finset.sum_eq_zero_iff_of_nonneg fun i hi => hw i (Finset.mem_filter.mp hi).1).mp h0
    rw [h0, zero_mul]
    exact Finset.sum_eq_zero fun i hi => by rw [hz i hi, zero_mul]
  · unfold condMean
    rw [mul_div_cancel₀ _ h0]

end Pop
end Verif
