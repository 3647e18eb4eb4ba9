import Verif.Props.Widths
import Mathlib.LinearAlgebra.Matrix.DotProduct

/-!
# Properties of `LinearRegressionParameter` (C53, C57)
-/

set_option linter.unusedSectionVars false
set_option linter.unusedSimpArgs false

namespace Verif
open Param Matrix

namespace LinReg
variable {k : Nat} {α : Type} [Field α] [LinearOrder α] [IsStrictOrderedRing α]

/-- The design row of a unit. -/
def row (u : Obs α) : List α := u.xv :: u.zv

/-- The prediction of coefficients `b` for a unit. -/
def pred (b : Fin (k + 1) → α) (u : Obs α) : α := ∑ j : Fin (k + 1), b j * (row u).getD j 0

theorem pred_eq (b : Fin (k + 1) → α) (u : Obs α) : pred b u = b 0 * u.xv + ∑ j : Fin k, b j.succ * u.zv.getD j 0 := by
  unfold pred
  rw [Fin.sum_univ_succ]
  rfl

theorem ridgeLoss_eq (us : List (Obs α)) (lam : α) (b : Fin (k + 1) → α) :
    ridgeLoss us lam b = (us.map fun u => (u.yv - pred b u) ^ 2).sum + lam * ∑ j, b j ^ 2 := by
  unfold ridgeLoss
  simp only [pred_eq]

/-- `A b` for the penalised matrix. -/
theorem penalised_mulVec (us : List (Obs α)) (lam : α) (b : Fin (k + 1) → α) (i : Fin (k + 1)) :
    (penalised (us.map row) lam).mulVec b i = (us.map fun u => (row u).getD i 0 * pred b u).sum + lam * b i := by
  unfold penalised
  rw [Matrix.add_mulVec, Pi.add_apply, Matrix.smul_mulVec, Matrix.one_mulVec, Widths.gram_eq]
  congr 1
  simp only [Matrix.mulVec, dotProduct, secondMoments, Matrix.of_apply, List.map_map, Function.comp_def, pred]
  induction us with
  | nil => simp
  | cons u us ih =>
    simp only [List.map_cons, List.sum_cons, add_mul, Finset.sum_add_distrib, ih, Finset.mul_sum]
    congr 1
    apply Finset.sum_congr rfl
    intro j _
    ring

theorem quad (us : List (Obs α)) (lam : α) (b : Fin (k + 1) → α) :
    ∑ i, b i * (penalised (us.map row) lam).mulVec b i = (us.map fun u => (pred b u) ^ 2).sum + lam * ∑ j, b j ^ 2 := by
  simp only [penalised_mulVec, mul_add, Finset.sum_add_distrib, Finset.mul_sum]
  congr 1
  · induction us with
    | nil => simp
    | cons u us ih =>
      simp only [List.map_cons, List.sum_cons, mul_add, Finset.sum_add_distrib, ih]
      congr 1
      rw [sq]
      nth_rewrite 2 [pred]
      rw [Finset.sum_mul]
      apply Finset.sum_congr rfl
      intro j _
      ring
  · apply Finset.sum_congr rfl
    intro j _
    ring

theorem quad_pos (us : List (Obs α)) (lam : α) (hl : 0 < lam) (b : Fin (k + 1) → α) (hb : b ≠ 0) :
    0 < (us.map fun u => (pred b u) ^ 2).sum + lam * ∑ j, b j ^ 2 := by
  have h1 : 0 ≤ (us.map fun u => (pred b u) ^ 2).sum := List.sum_nonneg (by
    intro a ha
    obtain ⟨u, -, rfl⟩ := List.mem_map.mp ha
    exact sq_nonneg _)
  have h2 : 0 < ∑ j, b j ^ 2 := by
    obtain ⟨j, hj⟩ := Function.ne_iff.mp hb
    exact Finset.sum_pos' (fun i _ => sq_nonneg _) ⟨j, Finset.mem_univ _, by have : b j ≠ 0 := hj; positivity⟩
  have := mul_pos hl h2
  linarith

theorem penalised_det (us : List (Obs α)) (lam : α) (hl : 0 < lam) : (penalised (k := k) (us.map row) lam).det ≠ 0 := by
  intro h
  obtain ⟨b, hb, e⟩ := Matrix.exists_mulVec_eq_zero_iff.mpr h
  have := quad us lam b
  rw [e] at this
  have hp := quad_pos us lam hl b hb
  rw [← this] at hp
  simp at hp

theorem list_sum_add (l : List (Obs α)) (f g : Obs α → α) : (l.map fun u => f u + g u).sum = (l.map f).sum + (l.map g).sum := by
  induction l with
  | nil => simp
  | cons u l ih => simp only [List.map_cons, List.sum_cons, ih]; ring

theorem list_sum_mul (l : List (Obs α)) (f : Obs α → α) (c : α) : (l.map fun u => c * f u).sum = c * (l.map f).sum := by
  induction l with
  | nil => simp
  | cons u l ih => simp only [List.map_cons, List.sum_cons, ih]; ring

theorem list_sum_finset (l : List (Obs α)) (f : Fin (k + 1) → Obs α → α) : (l.map fun u => ∑ j, f j u).sum = ∑ j, (l.map (f j)).sum := by
  induction l with
  | nil => simp
  | cons u l ih => simp only [List.map_cons, List.sum_cons, ih, Finset.sum_add_distrib]

/-- The loss is a parabola around the solution of the normal equations. -/
theorem ridgeLoss_sub (us : List (Obs α)) (lam : α) (beta b : Fin (k + 1) → α)
    (hb : ∀ i, (penalised (us.map row) lam).mulVec beta i = (us.map fun u => (row u).getD i 0 * u.yv).sum) :
    ridgeLoss us lam b = ridgeLoss us lam beta + ((us.map fun u => (pred (b - beta) u) ^ 2).sum + lam * ∑ j, (b - beta) j ^ 2) := by
  have hpred : ∀ u, pred (b - beta) u = pred b u - pred beta u := by
    intro u
    simp only [pred, Pi.sub_apply, sub_mul, Finset.sum_sub_distrib]
  -- the cross term vanishes
  have cross : (us.map fun u => pred (b - beta) u * (u.yv - pred beta u)).sum = lam * ∑ j, (b - beta) j * beta j := by
    have e1 : ∀ i : Fin (k + 1), (us.map fun u => (row u).getD i 0 * (u.yv - pred beta u)).sum = lam * beta i := by
      intro i
      have := hb i
      rw [penalised_mulVec] at this
      have e2 : (us.map fun u => (row u).getD i 0 * (u.yv - pred beta u)).sum =
          (us.map fun u => (row u).getD i 0 * u.yv).sum - (us.map fun u => (row u).getD i 0 * pred beta u).sum := by
        rw [eq_sub_iff_add_eq, ← list_sum_add]
        congr 1
        apply List.map_congr_left
        intro u _
        ring
      rw [e2, ← this]
      ring
    have e3 : (us.map fun u => pred (b - beta) u * (u.yv - pred beta u)).sum =
        ∑ j, (b - beta) j * (us.map fun u => (row u).getD j 0 * (u.yv - pred beta u)).sum := by
      rw [show (us.map fun u => pred (b - beta) u * (u.yv - pred beta u)) =
        us.map fun u => ∑ j, (b - beta) j * ((row u).getD j 0 * (u.yv - pred beta u)) from by
          apply List.map_congr_left
          intro u _
          rw [pred, Finset.sum_mul]
          apply Finset.sum_congr rfl
          intro j _
          ring]
      rw [list_sum_finset]
      apply Finset.sum_congr rfl
      intro j _
      rw [list_sum_mul]
    rw [e3, Finset.mul_sum]
    apply Finset.sum_congr rfl
    intro j _
    rw [e1]
    ring
  have hsq : (us.map fun u => (u.yv - pred b u) ^ 2).sum = (us.map fun u => (u.yv - pred beta u) ^ 2).sum +
      (us.map fun u => (pred (b - beta) u) ^ 2).sum - 2 * (us.map fun u => pred (b - beta) u * (u.yv - pred beta u)).sum := by
    rw [eq_sub_iff_add_eq, ← list_sum_mul, ← list_sum_add, ← list_sum_add]
    congr 1
    apply List.map_congr_left
    intro u _
    rw [hpred]
    ring
  have hb2 : ∑ j, b j ^ 2 = ∑ j, beta j ^ 2 + ∑ j, (b - beta) j ^ 2 + 2 * ∑ j, (b - beta) j * beta j := by
    rw [Finset.mul_sum, ← Finset.sum_add_distrib, ← Finset.sum_add_distrib]
    apply Finset.sum_congr rfl
    intro j _
    simp only [Pi.sub_apply]
    ring
  rw [ridgeLoss_eq, ridgeLoss_eq, hsq, cross, hb2]
  ring

theorem fit_dataset (s : LinReg k α) (hl : 0 < s.lReg) (us : List (Obs α)) (hne : us ≠ []) :
    fit (Obs.dataset k us) s = (.ok (), { s with
      model := (us.length : α) • (penalised (us.map row) s.lReg)⁻¹, hasBeenFit := true, recent := some (Obs.dataset k us) }) := by
  have hn : ¬ us.length < 1 := by
    have := List.length_pos_iff.mpr hne; omega
  have hd := penalised_det (k := k) us s.lReg hl
  unfold fit
  rw [Obs.dataset_nUnits, if_neg hn]
  simp only [Py.bind_apply, Py.lift_apply, Obs.dataset_exp, Obs.vals_x, Obs.dataset_cStack]
  rw [if_neg (show ¬ (Obs.dataset k us).nFeatures ≠ k from by rw [Obs.dataset_nFeatures]; simp)]
  simp only [Py.bind_apply, Py.get_apply]
  rw [show (us.map fun u => u.xv :: u.zv) = us.map row from rfl, if_neg hd]
  rfl

theorem score_dataset (s : LinReg k α) (us : List (Obs α)) :
    score s (Obs.dataset k us) = .ok (us.map fun u => .fin (∑ j, s.model 0 j * ((row u).getD j 0 * u.yv))) := by
  unfold score
  rw [Obs.dataset_exp, Obs.dataset_rsp]
  simp only [bind, Except.bind, Obs.vals_x, Obs.dataset_cStack, List.length_map, ne_eq, not_true_eq_false, if_false, Obs.dataset_nFeatures,
    pure, Except.pure]
  rw [Obs.vals_y, List.zip_map', List.map_map]
  rfl

/-- **C53**: for every non-empty dataset and `l_reg > 0` the fit succeeds, the ridge loss of `Y` on `(X, Z)` has a
unique minimiser `beta`, and on the fitted data the scores are finite with mean equal to the exposure
coefficient `beta 0`. -/
theorem C53_mean_score (s : LinReg k α) (hl : 0 < s.lReg) (us : List (Obs α)) (hne : us ≠ []) :
    ∃ (s' : LinReg k α) (beta : Fin (k + 1) → α) (sc : List α),
      fit (Obs.dataset k us) s = (.ok (), s') ∧ s'.hasBeenFit = true ∧
      (∀ b, b ≠ beta → ridgeLoss us s.lReg beta < ridgeLoss us s.lReg b) ∧
      score s' (Obs.dataset k us) = .ok (sc.map Fl.fin) ∧ sc.length = us.length ∧
      sc.sum / (us.length : α) = beta 0 := by
  have hd := penalised_det (k := k) us s.lReg hl
  set A := penalised (k := k) (us.map row) s.lReg with hA
  set rhs : Fin (k + 1) → α := fun i => (us.map fun u => (row u).getD i 0 * u.yv).sum with hrhs
  set beta := A⁻¹.mulVec rhs with hbeta
  have hnormal : ∀ i, A.mulVec beta i = rhs i := by
    intro i
    rw [hbeta, Matrix.mulVec_mulVec, Matrix.mul_nonsing_inv _ (Ne.isUnit hd), Matrix.one_mulVec]
  refine ⟨_, beta, _, fit_dataset s hl us hne, rfl, ?_, by rw [score_dataset]; exact congrArg Except.ok (by
    rw [show (us.map fun u => Fl.fin (∑ j, ((us.length : α) • A⁻¹) 0 j * ((row u).getD j 0 * u.yv))) =
      (us.map fun u => ∑ j, ((us.length : α) • A⁻¹) 0 j * ((row u).getD j 0 * u.yv)).map Fl.fin from by rw [List.map_map]; rfl]), by simp, ?_⟩
  · intro b hb
    rw [ridgeLoss_sub us s.lReg beta b hnormal]
    have := quad_pos us s.lReg hl (b - beta) (sub_ne_zero.mpr hb)
    linarith
  · rw [list_sum_finset]
    have hn : (us.length : α) ≠ 0 := by
      have := List.length_pos_iff.mpr hne
      exact_mod_cast this.ne'
    have : ∀ j : Fin (k + 1), (us.map fun u => ((us.length : α) • A⁻¹) 0 j * ((row u).getD j 0 * u.yv)).sum = (us.length : α) * (A⁻¹ 0 j * rhs j) := by
      intro j
      rw [list_sum_mul, Matrix.smul_apply, smul_eq_mul, mul_assoc]
    rw [Finset.sum_congr rfl fun j _ => this j, ← Finset.mul_sum, mul_div_cancel_left₀ _ hn]
    rfl

/-- A fit on an empty dataset does nothing. -/
theorem C53_empty_fit (s : LinReg k α) (c : Nat) : fit (Obs.dataset c []) s = (.ok (), s) := by
  unfold fit
  rw [Obs.dataset_nUnits]
  rfl

/-- An unfitted parameter scores every unit `0` (not NaN as the other classes do). -/
theorem C53_unfitted (lReg : α) (us : List (Obs α)) : score (new lReg : LinReg k α) (Obs.dataset k us) = .ok (us.map fun _ => .fin 0) := by
  rw [score_dataset]
  simp [new]

/-- **C57 is violated for `LinearRegressionParameter`**: `reset()` is inherited from the protocol and does
nothing; after any fit on a non-empty dataset the parameter still reports enough samples and keeps
its matrix. -/
theorem C57_linreg_violated (s : LinReg k α) (hl : 0 < s.lReg) (us : List (Obs α)) (hne : us ≠ []) :
    (reset (fit (Obs.dataset k us) s).2).hasBeenFit = true ∧
    (reset (fit (Obs.dataset k us) s).2).model.det ≠ 0 ∧ reset (fit (Obs.dataset k us) s).2 ≠ new s.lReg := by
  rw [fit_dataset s hl us hne]
  refine ⟨rfl, ?_, ?_⟩
  · show ((us.length : α) • (penalised (us.map row) s.lReg)⁻¹).det ≠ 0
    rw [Matrix.det_smul]
    refine mul_ne_zero (pow_ne_zero _ ?_) ?_
    · have := List.length_pos_iff.mpr hne
      exact_mod_cast this.ne'
    · exact (Matrix.isUnit_nonsing_inv_det _ (Ne.isUnit (penalised_det us s.lReg hl))).ne_zero
  · intro h
    exact absurd (congrArg LinReg.hasBeenFit h) (by simp [reset, new])

/-- Two units and one covariate. -/
example : (0 : ℚ) < (new (1 / 10) : LinReg 1 ℚ).lReg ∧ ([⟨[.int 1], .int 1, .flt 3⟩, ⟨[.int 2], .int 0, .flt 1⟩] : List (Obs ℚ)) ≠ [] := by
  decide +kernel

end LinReg
end Verif
