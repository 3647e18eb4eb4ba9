import Verif.Lemmas.BackDoorUnit
import Mathlib.Data.Matrix.Mul
import Mathlib.LinearAlgebra.Matrix.Notation

/-!
# Least squares and logistic regression in the population of the back-door example
-/

set_option linter.unusedSectionVars false
set_option linter.unusedSimpArgs false

namespace Verif
namespace Example
open MeasureTheory ProbabilityTheory Section5

variable {Ω : Type} [MeasurableSpace Ω] {P : Measure Ω} [IsProbabilityMeasure P] {T : Ω → ℝ × ℝ × ℝ} {p beta alpha : ℝ}

theorem regressor_back (q : ℝ × ℝ × ℝ) (j : Fin (1 + 1)) : regressor ((backUnit p beta alpha q).point 1) j = if j = 0 then (zx p alpha q).2 else (zx p alpha q).1 := by
  rw [backUnit_point]
  fin_cases j <;> rfl

/-- the parameters of the code: probabilities away from 0 and 1 -/
def Valid (p alpha : ℝ) : Prop := (0 < p ∧ p < 1) ∧ 0 < 1 / 2 + alpha ∧ 1 / 2 + alpha < 1

/-- the determinant of the moments, divided by `p` -/
noncomputable def gap (p alpha : ℝ) : ℝ := (1 - p) / 2 + p * (1 / 2 + alpha) * (1 / 2 - alpha)

theorem Valid.gap_pos (h : Valid p alpha) : 0 < gap p alpha := by
  obtain ⟨⟨h1, h2⟩, h3, h4⟩ := h
  unfold gap
  have : 0 < 1 / 2 - alpha := by linarith
  have : 0 < p * (1 / 2 + alpha) * (1 / 2 - alpha) := by positivity
  linarith

theorem Valid.le (h : Valid p alpha) : (0 ≤ p ∧ p ≤ 1) ∧ 0 ≤ 1 / 2 + alpha ∧ 1 / 2 + alpha ≤ 1 := ⟨⟨h.1.1.le, h.1.2.le⟩, h.2.1.le, h.2.2.le⟩

/-- the inverse of the moments -/
noncomputable def backInv (p alpha : ℝ) : Matrix (Fin (1 + 1)) (Fin (1 + 1)) ℝ :=
  !![1 / gap p alpha, -(1 / 2 + alpha) / gap p alpha; -(1 / 2 + alpha) / gap p alpha, ((1 - p) / 2 + p * (1 / 2 + alpha)) / (p * gap p alpha)]

section
variable (hT : Measurable T) (hl : P.map T = unitLaw) (hv : Valid p alpha)
include hT hl hv

theorem back_moments : designMoments P (fun ω => (backUnit p beta alpha (T ω)).point 1) =
    !![(1 - p) / 2 + p * (1 / 2 + alpha), p * (1 / 2 + alpha); p * (1 / 2 + alpha), p] := by
  ext i j
  simp only [designMoments, Matrix.of_apply, regressor_back]
  have h := table_integral hT hl hv.le.1 hv.le.2
  fin_cases i <;> fin_cases j <;> simp
  · have := h fun _ x => x * x
    rw [this]; ring
  · have := h fun z x => x * z
    rw [this]; ring
  · have := h fun z x => z * x
    rw [this]; ring
  · have := h fun z _ => z * z
    rw [this]; ring

theorem back_inverse : backInv p alpha * designMoments P (fun ω => (backUnit p beta alpha (T ω)).point 1) = 1 := by
  rw [back_moments hT hl hv]
  have hg := hv.gap_pos.ne'
  have hp := hv.1.1.ne'
  unfold backInv
  rw [Matrix.mul_fin_two, Matrix.one_fin_two]
  congr 1
  funext i j
  fin_cases i <;> fin_cases j <;> simp <;> field_simp <;> unfold gap <;> ring

theorem back_leastSquares : LeastSquares P (fun ω => (backUnit p beta alpha (T ω)).point 1) ![10, beta] := by
  intro j
  have h := quad_integral hT hl hv.le.1 hv.le.2 (fun _ _ => 0) (fun z x => if j = 0 then x else z) fun _ _ => 0
  rw [← show p * ((1 / 2 + alpha) * ((0 : ℝ) + 0) + (1 / 2 - alpha) * (0 + 0)) + (1 - p) * (1 / 2 * (0 + 0) + 1 / 2 * (0 + 0)) = 0 by ring, ← h]
  refine integral_congr_ae (Filter.Eventually.of_forall fun ω => ?_)
  simp only [regressor_back, Fin.sum_univ_two]
  rw [backUnit_point]
  simp

theorem back_score (q : ℝ × ℝ × ℝ) : regressionScore (backInv p alpha) ((backUnit p beta alpha q).point 1) =
    ((zx p alpha q).2 - (1 / 2 + alpha) * (zx p alpha q).1) / gap p alpha * (10 * (zx p alpha q).2 + beta * (zx p alpha q).1) +
      ((zx p alpha q).2 - (1 / 2 + alpha) * (zx p alpha q).1) / gap p alpha * q.2.2 := by
  simp only [regressionScore, regressor_back, Fin.sum_univ_two]
  rw [backUnit_point]
  have hg := hv.gap_pos.ne'
  simp [backInv]
  field_simp
  ring

theorem back_memLp_z (j : Fin 1) (r : ENNReal) : MemLp (fun ω => ((backUnit p beta alpha (T ω)).point 1).1 j) r P := by
  simp only [backUnit_point]
  exact table_memLp hT hl (fun z _ => z) r

theorem back_memLp_regressor (j : Fin (1 + 1)) (r : ENNReal) : MemLp (fun ω => regressor ((backUnit p beta alpha (T ω)).point 1) j) r P := by
  simp only [regressor_back]
  exact table_memLp hT hl (fun z x => if j = 0 then x else z) r

theorem back_memLp_y (r : ENNReal) (hr : r ≠ ⊤) : MemLp (fun ω => (backUnit p beta alpha (T ω)).yv) r P :=
  (table_memLp (p := p) (alpha := alpha) hT hl (fun z x => 10 * x + beta * z) r).add (normal_memLp hT hl r hr)

theorem back_memLp_prod (j : Fin (1 + 1)) (r : ENNReal) (hr : r ≠ ⊤) :
    MemLp (fun ω => regressor ((backUnit p beta alpha (T ω)).point 1) j * (backUnit p beta alpha (T ω)).yv) r P := by
  simp only [regressor_back]
  exact table_mul_memLp hT hl (fun z x => if j = 0 then x else z) (back_memLp_y hT hl hv r hr)

/-- mean and variance of a variable `a + b e` where `a` and `b` depend on exposure and covariate -/
theorem affine_moments {f : Ω → ℝ} (A B : ℝ → ℝ → ℝ) (hf : ∀ ω, f ω = A (zx p alpha (T ω)).1 (zx p alpha (T ω)).2 + B (zx p alpha (T ω)).1 (zx p alpha (T ω)).2 * (T ω).2.2) :
    ∫ ω, f ω ∂P = p * ((1 / 2 + alpha) * A 1 1 + (1 / 2 - alpha) * A 1 0) + (1 - p) * (1 / 2 * A 0 1 + 1 / 2 * A 0 0) ∧
    Var[f; P] = p * ((1 / 2 + alpha) * (A 1 1 ^ 2 + B 1 1 ^ 2) + (1 / 2 - alpha) * (A 1 0 ^ 2 + B 1 0 ^ 2)) +
      (1 - p) * (1 / 2 * (A 0 1 ^ 2 + B 0 1 ^ 2) + 1 / 2 * (A 0 0 ^ 2 + B 0 0 ^ 2)) -
      (p * ((1 / 2 + alpha) * A 1 1 + (1 / 2 - alpha) * A 1 0) + (1 - p) * (1 / 2 * A 0 1 + 1 / 2 * A 0 0)) ^ 2 := by
  obtain rfl : f = fun ω => A (zx p alpha (T ω)).1 (zx p alpha (T ω)).2 + B (zx p alpha (T ω)).1 (zx p alpha (T ω)).2 * (T ω).2.2 := funext hf
  have h2 : MemLp (fun ω => A (zx p alpha (T ω)).1 (zx p alpha (T ω)).2 + B (zx p alpha (T ω)).1 (zx p alpha (T ω)).2 * (T ω).2.2) 2 P :=
    (table_memLp hT hl A 2).add (table_mul_memLp hT hl B (normal_memLp hT hl 2 (by simp)))
  have m1 : ∫ ω, (A (zx p alpha (T ω)).1 (zx p alpha (T ω)).2 + B (zx p alpha (T ω)).1 (zx p alpha (T ω)).2 * (T ω).2.2) ∂P =
      p * ((1 / 2 + alpha) * A 1 1 + (1 / 2 - alpha) * A 1 0) + (1 - p) * (1 / 2 * A 0 1 + 1 / 2 * A 0 0) := by
    have := quad_integral hT hl hv.le.1 hv.le.2 A B fun _ _ => 0
    simpa using this
  refine ⟨m1, ?_⟩
  rw [variance_eq_sub h2, m1]
  congr 1
  have := quad_integral hT hl hv.le.1 hv.le.2 (fun z x => A z x ^ 2) (fun z x => 2 * A z x * B z x) fun z x => B z x ^ 2
  rw [← this]
  refine integral_congr_ae (Filter.Eventually.of_forall fun ω => ?_)
  simp only [Pi.pow_apply]
  ring

theorem back_variance : Var[fun ω => regressionScore (backInv p alpha) ((backUnit p beta alpha (T ω)).point 1); P] = regressionVariance p beta alpha := by
  have h := (affine_moments hT hl hv (f := fun ω => regressionScore (backInv p alpha) ((backUnit p beta alpha (T ω)).point 1))
    (fun z x => (x - (1 / 2 + alpha) * z) / gap p alpha * (10 * x + beta * z)) (fun z x => (x - (1 / 2 + alpha) * z) / gap p alpha) fun ω => back_score hT hl hv (T ω)).2
  rw [h]
  have hg := hv.gap_pos.ne'
  have e : p * ((1 / 2 + alpha) * ((1 - (1 / 2 + alpha) * 1) / gap p alpha * (10 * 1 + beta * 1)) + (1 / 2 - alpha) * ((0 - (1 / 2 + alpha) * 1) / gap p alpha * (10 * 0 + beta * 1))) +
      (1 - p) * (1 / 2 * ((1 - (1 / 2 + alpha) * 0) / gap p alpha * (10 * 1 + beta * 0)) + 1 / 2 * ((0 - (1 / 2 + alpha) * 0) / gap p alpha * (10 * 0 + beta * 0))) = 10 := by
    field_simp
    unfold gap
    ring
  rw [e]
  show _ = _ / gap p alpha ^ 2 - 10 ^ 2
  congr 1
  field_simp
  ring

theorem back_nondegenerate : Nondegenerate P fun ω => regressor ((backUnit p beta alpha (T ω)).point 1) := by
  intro v hv0
  have h := table_integral hT hl hv.le.1 hv.le.2 fun z x => (v 0 * x + v 1 * z) ^ 2
  have e : ∫ ω, (v 0 * (zx p alpha (T ω)).2 + v 1 * (zx p alpha (T ω)).1) ^ 2 ∂P = 0 := by
    rw [integral_congr_ae (g := fun _ => 0), integral_zero]
    filter_upwards [hv0] with ω hω
    simp only [regressor_back, Fin.sum_univ_two] at hω
    simp at hω
    rw [hω]; ring
  rw [e] at h
  obtain ⟨⟨h1, h2⟩, h3, h4⟩ := hv
  have t1 := mul_nonneg (mul_nonneg h1.le h3.le) (sq_nonneg (v 0 + v 1))
  have t2 := mul_nonneg (mul_nonneg h1.le (show 0 ≤ 1 / 2 - alpha by linarith)) (sq_nonneg (v 1))
  have t3 := mul_nonneg (mul_nonneg (show 0 ≤ 1 - p by linarith) (show (0 : ℝ) ≤ 1 / 2 by norm_num)) (sq_nonneg (v 0))
  have z1 : p * (1 / 2 - alpha) * v 1 ^ 2 = 0 := by nlinarith
  have z0 : (1 - p) * (1 / 2) * v 0 ^ 2 = 0 := by nlinarith
  have : v 0 = 0 := by
    have : 0 < (1 - p) * (1 / 2) := mul_pos (by linarith) (by norm_num)
    exact pow_eq_zero_iff two_ne_zero |>.1 ((mul_eq_zero.1 z0).resolve_left this.ne')
  have : v 1 = 0 := by
    have : 0 < p * (1 / 2 - alpha) := mul_pos h1 (by linarith)
    exact pow_eq_zero_iff two_ne_zero |>.1 ((mul_eq_zero.1 z1).resolve_left this.ne')
  funext j
  fin_cases j <;> assumption

theorem back_withOne : Nondegenerate P fun ω => withOne ((backUnit p beta alpha (T ω)).point 1) := by
  intro v hv0
  have h := table_integral hT hl hv.le.1 hv.le.2 fun z _ => (v 0 + v 1 * z) ^ 2
  have e : ∫ ω, (v 0 + v 1 * (zx p alpha (T ω)).1) ^ 2 ∂P = 0 := by
    rw [integral_congr_ae (g := fun _ => 0), integral_zero]
    filter_upwards [hv0] with ω hω
    rw [backUnit_point] at hω
    simp [withOne, Fin.sum_univ_two] at hω
    rw [hω]; ring
  rw [e] at h
  obtain ⟨⟨h1, h2⟩, h3, h4⟩ := hv
  have t1 := mul_nonneg h1.le (sq_nonneg (v 0 + v 1))
  have t2 := mul_nonneg (show 0 ≤ 1 - p by linarith) (sq_nonneg (v 0))
  have z1 : p * (v 0 + v 1) ^ 2 = 0 := by nlinarith
  have z0 : (1 - p) * v 0 ^ 2 = 0 := by nlinarith
  have a0 : v 0 = 0 := by
    have : 1 - p ≠ 0 := by linarith
    simpa [this] using z0
  have a1 : v 0 + v 1 = 0 := by simpa [h1.ne'] using z1
  have a2 : v 1 = 0 := by linarith
  funext j
  fin_cases j <;> assumption

end

/-- the coefficients of the propensity -/
noncomputable def backTheta (alpha : ℝ) : Fin (1 + 1) → ℝ := ![0, Real.log ((1 / 2 + alpha) / (1 / 2 - alpha))]

theorem sigmoid_log {t : ℝ} (ht : 0 < t) : Real.sigmoid (Real.log t) = t / (1 + t) := by
  rw [Real.sigmoid_def, Real.exp_neg, Real.exp_log ht]
  field_simp
  ring

theorem back_sigmoid (h : Valid p alpha) {z : ℝ} (hz : z = 0 ∨ z = 1) : Real.sigmoid (backTheta alpha 0 + ∑ j : Fin 1, backTheta alpha j.succ * z) = 1 / 2 + alpha * z := by
  have h3 := h.2.1
  have h4 : 0 < 1 / 2 - alpha := by linarith [h.2.2]
  rcases hz with rfl | rfl
  · simp [backTheta, Real.sigmoid_def]; norm_num
  · simp only [backTheta, Matrix.cons_val_zero, zero_add, mul_one, Finset.univ_unique, Fin.default_eq_zero, Finset.sum_singleton]
    show Real.sigmoid (Real.log _) = _
    rw [sigmoid_log (by positivity)]
    have e : 1 / 2 + alpha + (1 / 2 - alpha) = 1 := by ring
    generalize 1 / 2 + alpha = a at *
    generalize 1 / 2 - alpha = c at *
    have : 1 + a / c = 1 / c := by
      field_simp
      linarith
    rw [this]
    field_simp

section
variable (hT : Measurable T) (hl : P.map T = unitLaw) (hv : Valid p alpha)
include hT hl hv

theorem back_measurable : Measurable fun ω => (backUnit p beta alpha (T ω)).point 1 := by
  simp only [backUnit_point]
  have h := (measurable_zx p alpha).comp hT
  have h1 : Measurable fun ω => (zx p alpha (T ω)).1 := measurable_fst.comp h
  have h2 : Measurable fun ω => (zx p alpha (T ω)).2 := measurable_snd.comp h
  exact (measurable_pi_lambda _ fun _ => h1).prodMk (h2.prodMk (((h2.const_mul 10).add (h1.const_mul beta)).add (measurable_snd.comp (measurable_snd.comp hT))))

theorem back_propensity : PropensityIs P (fun ω => (backUnit p beta alpha (T ω)).point 1) fun z => Real.sigmoid (backTheta alpha 0 + ∑ j, backTheta alpha j.succ * z j) := by
  unfold PropensityIs
  simp only [backUnit_point, fun ω => back_sigmoid hv (zx_cases p alpha (T ω)).1]
  have hz : Measurable fun ω => (zx p alpha (T ω)).1 := measurable_fst.comp ((measurable_zx p alpha).comp hT)
  have hzm : Measurable fun ω => (fun _ : Fin 1 => (zx p alpha (T ω)).1) := measurable_pi_lambda _ fun _ => hz
  have hX : Integrable (fun ω => (zx p alpha (T ω)).2) P := (table_memLp hT hl (fun _ x => x) 1).integrable le_rfl
  have hE : Integrable (fun ω => 1 / 2 + alpha * (zx p alpha (T ω)).1) P := (table_memLp hT hl (fun z _ => 1 / 2 + alpha * z) 1).integrable le_rfl
  symm
  refine ae_eq_condExp_of_forall_setIntegral_eq hzm.comap_le hX (fun s _ _ => hE.integrableOn) ?_ ?_
  · rintro s ⟨B, hB, rfl⟩ -
    have e : ∀ A : ℝ → ℝ → ℝ, ∫ ω in (fun ω => (fun _ : Fin 1 => (zx p alpha (T ω)).1)) ⁻¹' B, A (zx p alpha (T ω)).1 (zx p alpha (T ω)).2 ∂P =
        ∫ ω, (fun z x => B.indicator (fun _ => A z x) fun _ => z) (zx p alpha (T ω)).1 (zx p alpha (T ω)).2 ∂P := by
      intro A
      rw [← integral_indicator (hzm hB)]
      rfl
    rw [e fun z _ => 1 / 2 + alpha * z, e fun _ x => x, table_integral hT hl hv.le.1 hv.le.2 fun z _ => B.indicator (fun _ => 1 / 2 + alpha * z) fun _ => z,
      table_integral hT hl hv.le.1 hv.le.2 fun z x => B.indicator (fun _ => x) fun _ => z]
    by_cases b0 : (fun _ : Fin 1 => (0 : ℝ)) ∈ B <;> by_cases b1 : (fun _ : Fin 1 => (1 : ℝ)) ∈ B <;> simp only [b0, b1, Set.indicator_of_mem, Set.indicator_of_notMem, not_false_eq_true] <;> ring
  · have : Measurable fun z : Fin 1 → ℝ => 1 / 2 + alpha * z 0 := by fun_prop
    exact (this.comp (comap_measurable _)).stronglyMeasurable.aestronglyMeasurable

theorem back_binary (q : ℝ × ℝ × ℝ) : (backUnit p beta alpha q).Binary := by
  have h : ((backUnit p beta alpha q).point 1).2.1 = (zx p alpha q).2 := by rw [backUnit_point]
  show ((backUnit p beta alpha q).point 1).2.1 = 0 ∨ ((backUnit p beta alpha q).point 1).2.1 = 1
  rw [h]
  exact (zx_cases p alpha q).2

theorem back_logistic : LogisticRegression P (fun ω => (backUnit p beta alpha (T ω)).point 1) (backTheta alpha) :=
  logistic_correct (back_measurable hT hl hv) (Filter.Eventually.of_forall fun ω => back_binary (beta := beta) hT hl hv (T ω)) (fun j => (back_memLp_z hT hl hv j 1).integrable le_rfl)
    (back_withOne hT hl hv) (back_propensity hT hl hv)

theorem back_aipw {κ : ℝ} (h1 : κ ≤ 1 / 2 + alpha) (h2 : κ ≤ 1 / 2 - alpha) (q : ℝ × ℝ × ℝ) :
    aipwScore (fun x z => linearValue ![10, beta] (x :: z)) (fun z => min (max (logisticValue (backTheta alpha) z) κ) (1 - κ)) (backUnit p beta alpha q) =
      10 + ((zx p alpha q).2 / (1 / 2 + alpha * (zx p alpha q).1) - (1 - (zx p alpha q).2) / (1 - (1 / 2 + alpha * (zx p alpha q).1))) * q.2.2 := by
  rw [aipwScore_point (k := 1)]
  have hz := (zx_cases p alpha q).1
  have hc : clippedPropensity κ (backTheta alpha) ((backUnit p beta alpha q).point 1) = 1 / 2 + alpha * (zx p alpha q).1 := by
    unfold clippedPropensity
    have e : ∑ j, backTheta alpha j * withOne ((backUnit p beta alpha q).point 1) j = backTheta alpha 0 + ∑ j : Fin 1, backTheta alpha j.succ * (zx p alpha q).1 := by
      rw [Fin.sum_univ_succ, backUnit_point]
      simp [withOne]
    rw [e, back_sigmoid hv hz]
    rcases hz with h | h <;> rw [h]
    · rw [max_eq_left (by linarith), min_eq_left (by linarith)]
    · rw [max_eq_left (by linarith), min_eq_left (by linarith)]
  unfold aipwPoint
  rw [hc]
  simp only [regressor_back, Fin.sum_univ_two]
  rw [backUnit_point]
  simp
  ring

theorem back_aipw_moments {κ : ℝ} (h1 : κ ≤ 1 / 2 + alpha) (h2 : κ ≤ 1 / 2 - alpha) :
    ∫ ω, aipwScore (fun x z => linearValue ![10, beta] (x :: z)) (fun z => min (max (logisticValue (backTheta alpha) z) κ) (1 - κ)) (backUnit p beta alpha (T ω)) ∂P = 10 ∧
    Var[fun ω => aipwScore (fun x z => linearValue ![10, beta] (x :: z)) (fun z => min (max (logisticValue (backTheta alpha) z) κ) (1 - κ)) (backUnit p beta alpha (T ω)); P] =
      aipwVariance p alpha := by
  obtain ⟨e1, e2⟩ := affine_moments hT hl hv (A := fun _ _ => 10) (B := fun z x => x / (1 / 2 + alpha * z) - (1 - x) / (1 - (1 / 2 + alpha * z)))
    fun ω => back_aipw hT hl hv h1 h2 (T ω)
  rw [e1, e2]
  refine ⟨by ring, ?_⟩
  have h3 := hv.2.1
  have h4 : 0 < 1 / 2 - alpha := by linarith [hv.2.2]
  unfold aipwVariance
  have e : 1 - (1 / 2 + alpha * 1) = 1 / 2 - alpha := by ring
  rw [e]
  simp only [mul_one, mul_zero, add_zero, sub_self, zero_div, sub_zero, zero_sub]
  have e' : 1 / 2 - alpha = 1 - (1 / 2 + alpha) := by ring
  have h5 : 1 - (1 / 2 + alpha) ≠ 0 := by linarith
  rw [e']
  generalize 1 / 2 + alpha = a at *
  field_simp
  ring

end
end Example
end Verif
