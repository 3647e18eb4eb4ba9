import Verif.Lemmas.FrontUnit
import Verif.Lemmas.FrontDoorLimit2

/-!
# The population of the front-door example, as an arm sees it that is shown the mediator
-/

set_option linter.unusedSectionVars false
set_option linter.unusedSimpArgs false

namespace Verif
namespace Example
open MeasureTheory ProbabilityTheory Section5 Filter

/-- one unit of the front-door example, without the confounder -/
noncomputable def mediatorUnit (p beta gamma alpha1 alpha2 : ℝ) (q : (ℝ × ℝ) × ℝ × ℝ) : Obs ℝ :=
  ⟨[.int (trunc (uxz p beta alpha1 q).2.2)], .int (trunc (uxz p beta alpha1 q).2.1), .flt (gamma * (uxz p beta alpha1 q).2.2 + alpha2 * (uxz p beta alpha1 q).1 + q.2.2)⟩

variable {p beta gamma alpha1 alpha2 : ℝ}

theorem mediatorUnit_finite (q : (ℝ × ℝ) × ℝ × ℝ) : (mediatorUnit p beta gamma alpha1 alpha2 q).FiniteZ {0, 1} := by
  have hb : ∀ t : ℝ, t = 0 ∨ t = 1 → trunc t = 0 ∨ trunc t = 1 := by
    rintro t (rfl | rfl)
    · left; simp [trunc]
    · right; simp [trunc]
  obtain ⟨-, hx, hz⟩ := uxz_cases p beta alpha1 q
  refine ⟨?_, trunc (uxz p beta alpha1 q).2.2, ?_, rfl⟩
  · rcases hb _ hx with h | h
    · left; simp only [mediatorUnit, h]
    · right; simp only [mediatorUnit, h]
  · rcases hb _ hz with h | h <;> rw [h] <;> simp

theorem mediatorUnit_point (q : (ℝ × ℝ) × ℝ × ℝ) : (mediatorUnit p beta gamma alpha1 alpha2 q).point 1 =
    (fun _ => (uxz p beta alpha1 q).2.2, (uxz p beta alpha1 q).2.1, gamma * (uxz p beta alpha1 q).2.2 + alpha2 * (uxz p beta alpha1 q).1 + q.2.2) := by
  refine Prod.ext (funext fun j => ?_) (Prod.ext ?_ rfl)
  · rw [Subsingleton.elim j 0]
    exact trunc_bit _ _
  · exact trunc_bit _ _

theorem measurable_mediator : Measurable fun q => (mediatorUnit p beta gamma alpha1 alpha2 q).point 1 := by
  have h := measurable_uxz p beta alpha1
  have h1 : Measurable fun q => (uxz p beta alpha1 q).1 := measurable_fst.comp h
  have h2 : Measurable fun q => (uxz p beta alpha1 q).2.1 := (measurable_fst.comp measurable_snd).comp h
  have h3 : Measurable fun q => (uxz p beta alpha1 q).2.2 := (measurable_snd.comp measurable_snd).comp h
  simp only [mediatorUnit_point]
  fun_prop

theorem affine_mediator (q : (ℝ × ℝ) × ℝ × ℝ) (j : Fin 3) : affineRegressor ((mediatorUnit p beta gamma alpha1 alpha2 q).point 1) j =
    ![1, (uxz p beta alpha1 q).2.1, (uxz p beta alpha1 q).2.2] j := by
  rw [mediatorUnit_point]
  fin_cases j <;> rfl

theorem sum_mediator (v : Fin 3 → ℝ) (q : (ℝ × ℝ) × ℝ × ℝ) : ∑ l : Fin (1 + 2), v l * affineRegressor ((mediatorUnit p beta gamma alpha1 alpha2 q).point 1) l =
    v 0 + v 1 * (uxz p beta alpha1 q).2.1 + v 2 * (uxz p beta alpha1 q).2.2 := by
  refine (Fin.sum_univ_three fun l : Fin 3 => v l * affineRegressor (k := 1) ((mediatorUnit p beta gamma alpha1 alpha2 q).point 1) l).trans ?_
  simp only [affine_mediator]
  simp

/-- probability of exposure -/
noncomputable def expo (p alpha1 : ℝ) : ℝ := p * logistic alpha1 + (1 - p) / 2

theorem expo_mem (hp : 0 < p ∧ p < 1) (h1 : 1 / 4 < logistic alpha1 ∧ logistic alpha1 < 3 / 4) : 1 / 4 < expo p alpha1 ∧ expo p alpha1 < 3 / 4 := by
  unfold expo
  constructor <;> nlinarith [hp.1, hp.2]

theorem logistic_bounds {t : ℝ} (h0 : -1 ≤ t) (h1 : t ≤ 1) : 1 / 4 < logistic t ∧ logistic t < 3 / 4 := by
  have e3 : Real.exp 1 < 3 := lt_trans Real.exp_one_lt_d9 (by norm_num)
  have a1 : Real.exp (-t) ≤ Real.exp 1 := Real.exp_le_exp.2 (by linarith)
  have a2 : Real.exp (-1) ≤ Real.exp (-t) := Real.exp_le_exp.2 (by linarith)
  have a3 : 1 / 3 < Real.exp (-1) := by
    rw [Real.exp_neg, ← one_div]
    exact one_div_lt_one_div_of_lt (Real.exp_pos 1) e3
  unfold logistic
  constructor
  · exact one_div_lt_one_div_of_lt (by positivity) (by linarith)
  · rw [div_lt_iff₀ (by positivity)]
    linarith

theorem logistic_half {t : ℝ} : logistic t = 1 / 2 ↔ t = 0 := by
  constructor
  · intro h
    unfold logistic at h
    have hpos : (0 : ℝ) < 1 + Real.exp (-t) := by positivity
    rw [div_eq_div_iff hpos.ne' two_ne_zero] at h
    have : Real.exp (-t) = 1 := by linarith
    rw [Real.exp_eq_one_iff] at this
    linarith
  · rintro rfl
    exact logistic_zero

variable {Ω : Type} [MeasurableSpace Ω] {P : Measure Ω} [IsProbabilityMeasure P] {T : Ω → (ℝ × ℝ) × ℝ × ℝ}

section
variable (hT : Measurable T) (hl : P.map T = fourLaw) (hp : 0 < p ∧ p < 1)
include hT hl hp

theorem hp' : 0 ≤ p ∧ p ≤ 1 := ⟨hp.1.le, hp.2.le⟩

theorem mediator_row {x0 : ℝ} (hx : x0 = 0 ∨ x0 = 1) :
    P.real {ω | ((mediatorUnit p beta gamma alpha1 alpha2 (T ω)).point 1).2.1 = x0} = if x0 = 1 then expo p alpha1 else 1 - expo p alpha1 := by
  have h := integral_indicator_comp (P := P) (V := fun ω => (mediatorUnit p beta gamma alpha1 alpha2 (T ω)).point 1) (measurable_mediator.comp hT).aemeasurable (measurableSet_row x0)
  have e : (fun ω => (rowSet x0).indicator (fun _ => (1 : ℝ)) ((mediatorUnit p beta gamma alpha1 alpha2 (T ω)).point 1)) =
      fun ω => (fun _ x _ => if x = x0 then (1 : ℝ) else 0) (uxz p beta alpha1 (T ω)).1 (uxz p beta alpha1 (T ω)).2.1 (uxz p beta alpha1 (T ω)).2.2 := by
    funext ω
    rw [mediatorUnit_point]
    by_cases hc : (uxz p beta alpha1 (T ω)).2.1 = x0 <;> simp [rowSet, hc]
  rw [e, table3_integral (beta := beta) (alpha1 := alpha1) hT hl (hp' hT hl hp) fun _ x _ => if x = x0 then (1 : ℝ) else 0] at h
  refine Eq.trans h.symm ?_
  unfold expo
  rcases hx with rfl | rfl <;> simp <;> ring

theorem mediator_cell {x0 a0 : ℝ} (hx : x0 = 0 ∨ x0 = 1) (ha : a0 = 0 ∨ a0 = 1) :
    P.real {ω | ((mediatorUnit p beta gamma alpha1 alpha2 (T ω)).point 1).2.1 = x0 ∧ ((mediatorUnit p beta gamma alpha1 alpha2 (T ω)).point 1).1 0 = a0} =
      if x0 = 1 then expo p alpha1 * (if a0 = 1 then logistic beta else 1 - logistic beta) else (1 - expo p alpha1) / 2 := by
  have h := integral_indicator_comp (P := P) (V := fun ω => (mediatorUnit p beta gamma alpha1 alpha2 (T ω)).point 1) (measurable_mediator.comp hT).aemeasurable (measurableSet_cell x0 a0)
  have e : (fun ω => (cellSet x0 a0).indicator (fun _ => (1 : ℝ)) ((mediatorUnit p beta gamma alpha1 alpha2 (T ω)).point 1)) =
      fun ω => (fun _ x z => if x = x0 ∧ z = a0 then (1 : ℝ) else 0) (uxz p beta alpha1 (T ω)).1 (uxz p beta alpha1 (T ω)).2.1 (uxz p beta alpha1 (T ω)).2.2 := by
    funext ω
    rw [mediatorUnit_point]
    by_cases hc : (uxz p beta alpha1 (T ω)).2.1 = x0 <;> by_cases hz : (uxz p beta alpha1 (T ω)).2.2 = a0 <;> simp [cellSet, hc, hz]
  rw [e, table3_integral (beta := beta) (alpha1 := alpha1) hT hl (hp' hT hl hp) fun _ x z => if x = x0 ∧ z = a0 then (1 : ℝ) else 0] at h
  refine Eq.trans h.symm ?_
  unfold expo
  rcases hx with rfl | rfl <;> rcases ha with rfl | rfl <;> simp <;> ring

variable (h1 : 1 / 4 < logistic alpha1 ∧ logistic alpha1 < 3 / 4)
include h1

theorem mediator_cond {x0 a0 : ℝ} (hx : x0 = 0 ∨ x0 = 1) (ha : a0 = 0 ∨ a0 = 1) :
    condProb P (fun ω => (mediatorUnit p beta gamma alpha1 alpha2 (T ω)).point 1) x0 a0 =
      if x0 = 1 then (if a0 = 1 then logistic beta else 1 - logistic beta) else 1 / 2 := by
  obtain ⟨e1, e2⟩ := expo_mem hp h1
  unfold condProb
  rw [mediator_row hT hl hp hx, mediator_cell hT hl hp hx ha]
  have n1 : expo p alpha1 ≠ 0 := by linarith
  have n2 : 1 - expo p alpha1 ≠ 0 := by linarith
  rcases hx with rfl | rfl
  · simp only [zero_ne_one, if_false]
    field_simp
  · simp only [if_true]
    field_simp

/-- least-squares coefficients: the mean of the confounder given the exposure enters through intercept and exposure -/
noncomputable def mediatorCoef (p gamma alpha1 alpha2 : ℝ) : Fin 3 → ℝ :=
  ![alpha2 * (p * (1 - logistic alpha1) / (1 - expo p alpha1)),
    alpha2 * (p * logistic alpha1 / expo p alpha1 - p * (1 - logistic alpha1) / (1 - expo p alpha1)), gamma]

theorem mediator_leastSquares : LeastSquaresIntercept P (fun ω => (mediatorUnit p beta gamma alpha1 alpha2 (T ω)).point 1) (mediatorCoef p gamma alpha1 alpha2) := by
  obtain ⟨e1, e2⟩ := expo_mem hp h1
  have n1 : expo p alpha1 ≠ 0 := by linarith
  have n2 : 1 - expo p alpha1 ≠ 0 := by linarith
  intro j
  have h := affine3_integral (beta := beta) (alpha1 := alpha1) hT hl (hp' hT hl hp)
    (fun u x z => ![1, x, z] j * (alpha2 * u - mediatorCoef p gamma alpha1 alpha2 0 - mediatorCoef p gamma alpha1 alpha2 1 * x)) (fun _ x z => ![1, x, z] j)
  refine Eq.trans (integral_congr_ae (Eventually.of_forall fun ω => ?_)) (h.trans ?_)
  · show _ * (_ - _) = _
    rw [sum_mediator, affine_mediator]
    beta_reduce
    rw [mediatorUnit_point]
    simp only [mediatorCoef, Matrix.cons_val_zero, Matrix.cons_val_one, Matrix.cons_val_two, Matrix.tail_cons, Matrix.head_cons, Matrix.cons_val]
    ring
  · have hu1 : p * logistic alpha1 / expo p alpha1 * expo p alpha1 = p * logistic alpha1 := div_mul_cancel₀ _ n1
    have hu0 : p * (1 - logistic alpha1) / (1 - expo p alpha1) * (1 - expo p alpha1) = p * (1 - logistic alpha1) := div_mul_cancel₀ _ n2
    simp only [mediatorCoef, Matrix.cons_val_zero, Matrix.cons_val_one, Matrix.cons_val_two, Matrix.tail_cons, Matrix.head_cons, Matrix.cons_val]
    generalize p * logistic alpha1 / expo p alpha1 = u1 at hu1
    generalize p * (1 - logistic alpha1) / (1 - expo p alpha1) = u0 at hu0
    unfold expo at hu1 hu0
    fin_cases j
    · simp
      linear_combination (-alpha2) * hu1 + (-alpha2) * hu0
    · simp
      linear_combination (-alpha2) * hu1
    · simp
      linear_combination (-alpha2) * logistic beta * hu1 + (-alpha2) / 2 * hu0

theorem mediator_nondegenerate (h2 : 1 / 4 < logistic beta ∧ logistic beta < 3 / 4) :
    Nondegenerate P fun ω => affineRegressor ((mediatorUnit p beta gamma alpha1 alpha2 (T ω)).point 1) := by
  intro v hv0
  have h := table3_integral (beta := beta) (alpha1 := alpha1) hT hl (hp' hT hl hp) fun _ x z => (v 0 + v 1 * x + v 2 * z) ^ 2
  have e : ∫ ω, (v 0 + v 1 * (uxz p beta alpha1 (T ω)).2.1 + v 2 * (uxz p beta alpha1 (T ω)).2.2) ^ 2 ∂P = 0 := by
    rw [integral_congr_ae (g := fun _ => 0), integral_zero]
    filter_upwards [hv0] with ω hω
    rw [sum_mediator] at hω
    rw [hω]; ring
  rw [e] at h
  obtain ⟨p0, p1⟩ := hp
  have q1 : 0 < 1 - p := by linarith
  have t1 : 0 ≤ p * (logistic alpha1 * (logistic beta * (v 0 + v 1 * 1 + v 2 * 1) ^ 2 + (1 - logistic beta) * (v 0 + v 1 * 1 + v 2 * 0) ^ 2) +
      (1 - logistic alpha1) * (1 / 2 * (v 0 + v 1 * 0 + v 2 * 1) ^ 2 + 1 / 2 * (v 0 + v 1 * 0 + v 2 * 0) ^ 2)) := by
    have l1 : 0 ≤ 1 - logistic alpha1 := by linarith [h1.2]
    have l2 : 0 ≤ 1 - logistic beta := by linarith [h2.2]
    have l3 : 0 ≤ logistic alpha1 := by linarith [h1.1]
    have l4 : 0 ≤ logistic beta := by linarith [h2.1]
    positivity
  have s1 := sq_nonneg (v 0 + v 1 * 1 + v 2 * 1)
  have s2 := sq_nonneg (v 0 + v 1 * 1 + v 2 * 0)
  have s3 := sq_nonneg (v 0 + v 1 * 0 + v 2 * 1)
  have s4 := sq_nonneg (v 0 + v 1 * 0 + v 2 * 0)
  have b1 := mul_nonneg (show 0 ≤ logistic beta by linarith [h2.1]) s1
  have b2 := mul_nonneg (show 0 ≤ 1 - logistic beta by linarith [h2.2]) s2
  have t2 : 1 / 2 * (logistic beta * (v 0 + v 1 * 1 + v 2 * 1) ^ 2 + (1 - logistic beta) * (v 0 + v 1 * 1 + v 2 * 0) ^ 2) +
      1 / 2 * (1 / 2 * (v 0 + v 1 * 0 + v 2 * 1) ^ 2 + 1 / 2 * (v 0 + v 1 * 0 + v 2 * 0) ^ 2) = 0 := by
    have : (1 - p) * (1 / 2 * (logistic beta * (v 0 + v 1 * 1 + v 2 * 1) ^ 2 + (1 - logistic beta) * (v 0 + v 1 * 1 + v 2 * 0) ^ 2) +
      1 / 2 * (1 / 2 * (v 0 + v 1 * 0 + v 2 * 1) ^ 2 + 1 / 2 * (v 0 + v 1 * 0 + v 2 * 0) ^ 2)) ≤ 0 := by linarith
    have h3 := nonpos_of_mul_nonpos_right this q1
    linarith
  have z4 : (v 0 + v 1 * 0 + v 2 * 0) ^ 2 = 0 := by linarith
  have z3 : (v 0 + v 1 * 0 + v 2 * 1) ^ 2 = 0 := by linarith
  have z1 : logistic beta * (v 0 + v 1 * 1 + v 2 * 1) ^ 2 = 0 := by linarith
  have w4 := pow_eq_zero_iff two_ne_zero |>.1 z4
  have w3 := pow_eq_zero_iff two_ne_zero |>.1 z3
  have w1 := pow_eq_zero_iff two_ne_zero |>.1 ((mul_eq_zero.1 z1).resolve_left (by linarith [h2.1]))
  funext j
  fin_cases j
  · show v 0 = 0
    linarith
  · show v 1 = 0
    linarith
  · show v 2 = 0
    linarith

theorem mediator_memLp_y (r : ENNReal) (hr : r ≠ ⊤) : MemLp (fun ω => (mediatorUnit p beta gamma alpha1 alpha2 (T ω)).yv) r P :=
  (table3_memLp hT hl (fun u _ z => gamma * z + alpha2 * u) r).add (normal3_memLp hT hl r hr)

theorem clamp_id {κ t : ℝ} (h : κ ≤ 1 / 4) (h1 : 1 / 4 < t ∧ t < 3 / 4) : clamp κ t = t := by
  unfold clamp
  rw [max_eq_left (by linarith [h1.1]), min_eq_left (by linarith [h1.2])]

/-- the mean of the score of the code -/
theorem mediator_limit {κ : ℝ} (hκ : κ ≤ 1 / 4) (h2 : 1 / 4 < logistic beta ∧ logistic beta < 3 / 4) :
    ∫ ω, frontDoorLimit P (fun ω => (mediatorUnit p beta gamma alpha1 alpha2 (T ω)).point 1) κ (mediatorCoef p gamma alpha1 alpha2) {0, 1}
        ((mediatorUnit p beta gamma alpha1 alpha2 (T ω)).point 1) ∂P =
      2 * (gamma * (logistic beta - 1 / 2)) - 2 * (expo p alpha1 * gamma + 2 * alpha2 * p * logistic alpha1) * (logistic beta - 1 / 2) ^ 2 := by
  obtain ⟨e1, e2⟩ := expo_mem hp h1
  have n1 : expo p alpha1 ≠ 0 := by linarith
  have n2 : 1 - expo p alpha1 ≠ 0 := by linarith
  have n3 : logistic beta ≠ 0 := by linarith [h2.1]
  have n4 : 1 - logistic beta ≠ 0 := by linarith [h2.2]
  set c := condProb P (fun ω => (mediatorUnit p beta gamma alpha1 alpha2 (T ω)).point 1) with hc
  have c11 : c 1 1 = logistic beta := by rw [hc, mediator_cond hT hl hp h1 (Or.inr rfl) (Or.inr rfl)]; simp
  have c10 : c 1 0 = 1 - logistic beta := by rw [hc, mediator_cond hT hl hp h1 (Or.inr rfl) (Or.inl rfl)]; simp
  have c01 : c 0 1 = 1 / 2 := by rw [hc, mediator_cond hT hl hp h1 (Or.inl rfl) (Or.inr rfl)]; simp
  have c00 : c 0 0 = 1 / 2 := by rw [hc, mediator_cond hT hl hp h1 (Or.inl rfl) (Or.inl rfl)]; simp
  have hrow : P.real {ω | ((mediatorUnit p beta gamma alpha1 alpha2 (T ω)).point 1).2.1 = 1} = expo p alpha1 := by
    rw [mediator_row hT hl hp (Or.inr rfl)]; simp
  have h := affine3_integral (beta := beta) (alpha1 := alpha1) hT hl (hp' hT hl hp)
    (fun u x z => frontDoorPoint κ (expo p alpha1) (planeValue (mediatorCoef p gamma alpha1 alpha2)) c {0, 1} (fun _ => z, x, gamma * z + alpha2 * u))
    (fun _ x z => (clamp κ (c 1 z) - clamp κ (c 0 z)) / clamp κ (c x z))
  refine Eq.trans (integral_congr_ae (Eventually.of_forall fun ω => ?_)) (h.trans ?_)
  · simp only [frontDoorLimit]
    rw [hrow, clamp_id hT hl hp h1 hκ ⟨e1, e2⟩, mediatorUnit_point]
    unfold frontDoorPoint
    simp only
    ring
  · unfold frontDoorPoint
    have k1 := clamp_id hT hl hp h1 hκ h2
    have k2 := clamp_id (t := 1 - logistic beta) hT hl hp h1 hκ ⟨by linarith [h2.2], by linarith [h2.1]⟩
    have k3 := clamp_id (t := 1 / 2) hT hl hp h1 hκ ⟨by norm_num, by norm_num⟩
    simp only [Finset.sum_pair (zero_ne_one (α := ℤ)), Int.cast_zero, Int.cast_one, c11, c10, c01, c00, k1, k2, k3]
    have hu1 : p * logistic alpha1 / expo p alpha1 * expo p alpha1 = p * logistic alpha1 := div_mul_cancel₀ _ n1
    have hu0 : p * (1 - logistic alpha1) / (1 - expo p alpha1) * (1 - expo p alpha1) = p * (1 - logistic alpha1) := div_mul_cancel₀ _ n2
    simp only [planeValue, mediatorCoef, Matrix.cons_val_zero, Matrix.cons_val_one, Matrix.cons_val_two, Matrix.tail_cons, Matrix.head_cons, Matrix.cons_val]
    generalize p * logistic alpha1 / expo p alpha1 = u1 at hu1
    generalize p * (1 - logistic alpha1) / (1 - expo p alpha1) = u0 at hu0
    have hpe : (1 - p) * (1 / 2) = expo p alpha1 - p * logistic alpha1 := by unfold expo; ring
    have hpe2 : (1 - p) * (1 / 2) = 1 - expo p alpha1 - p * (1 - logistic alpha1) := by unfold expo; ring
    have split : ∀ E1 E2 E3 E4 : ℝ, p * (logistic alpha1 * E1 + (1 - logistic alpha1) * E2) + (1 - p) * (1 / 2 * E3 + 1 / 2 * E4) =
        u1 * expo p alpha1 * E1 + u0 * (1 - expo p alpha1) * E2 + expo p alpha1 * (1 - u1) * E3 + (1 - expo p alpha1) * (1 - u0) * E4 := by
      intro E1 E2 E3 E4
      linear_combination (-E1 + E3) * hu1 + (-E2 + E4) * hu0 + E3 * hpe + E4 * hpe2
    rw [split, show 2 * alpha2 * p * logistic alpha1 = 2 * alpha2 * (u1 * expo p alpha1) by rw [hu1]; ring]
    clear split hpe hpe2 hu1 hu0 h k1 k2 k3 c11 c10 c01 c00
    clear_value c
    generalize expo p alpha1 = e at *
    generalize logistic beta = b at *
    simp only [div_one, zero_div, sub_self, sub_zero, mul_zero, add_zero, zero_sub]
    have f1 : e * e⁻¹ = 1 := mul_inv_cancel₀ n1
    have f2 : (1 - e) * (1 - e)⁻¹ = 1 := mul_inv_cancel₀ n2
    have f3 : b * b⁻¹ = 1 := mul_inv_cancel₀ n3
    have f4 : (1 - b) * (1 - b)⁻¹ = 1 := mul_inv_cancel₀ n4
    field_simp
    ring

/-- the mean of the score of the paper -/
theorem mediator_paper (h2 : 1 / 4 < logistic beta ∧ logistic beta < 3 / 4) :
    ∫ ω, frontDoorPaper (P.real {ω | ((mediatorUnit p beta gamma alpha1 alpha2 (T ω)).point 1).2.1 = 1}) (planeValue (mediatorCoef p gamma alpha1 alpha2))
        (condProb P fun ω => (mediatorUnit p beta gamma alpha1 alpha2 (T ω)).point 1) {0, 1} ((mediatorUnit p beta gamma alpha1 alpha2 (T ω)).point 1) ∂P =
      gamma * (logistic beta - 1 / 2) := by
  obtain ⟨e1, e2⟩ := expo_mem hp h1
  have n1 : expo p alpha1 ≠ 0 := by linarith
  have n2 : 1 - expo p alpha1 ≠ 0 := by linarith
  have n3 : logistic beta ≠ 0 := by linarith [h2.1]
  have n4 : 1 - logistic beta ≠ 0 := by linarith [h2.2]
  set c := condProb P (fun ω => (mediatorUnit p beta gamma alpha1 alpha2 (T ω)).point 1) with hc
  have c11 : c 1 1 = logistic beta := by rw [hc, mediator_cond hT hl hp h1 (Or.inr rfl) (Or.inr rfl)]; simp
  have c10 : c 1 0 = 1 - logistic beta := by rw [hc, mediator_cond hT hl hp h1 (Or.inr rfl) (Or.inl rfl)]; simp
  have c01 : c 0 1 = 1 / 2 := by rw [hc, mediator_cond hT hl hp h1 (Or.inl rfl) (Or.inr rfl)]; simp
  have c00 : c 0 0 = 1 / 2 := by rw [hc, mediator_cond hT hl hp h1 (Or.inl rfl) (Or.inl rfl)]; simp
  have hrow : P.real {ω | ((mediatorUnit p beta gamma alpha1 alpha2 (T ω)).point 1).2.1 = 1} = expo p alpha1 := by
    rw [mediator_row hT hl hp (Or.inr rfl)]; simp
  have h := affine3_integral (beta := beta) (alpha1 := alpha1) hT hl (hp' hT hl hp)
    (fun u x z => frontDoorPaper (expo p alpha1) (planeValue (mediatorCoef p gamma alpha1 alpha2)) c {0, 1} (fun _ => z, x, gamma * z + alpha2 * u))
    (fun _ x z => (c 1 z - c 0 z) / c x z)
  refine Eq.trans (integral_congr_ae (Eventually.of_forall fun ω => ?_)) (h.trans ?_)
  · beta_reduce
    rw [hrow, mediatorUnit_point]
    unfold frontDoorPaper
    simp only
    ring
  · unfold frontDoorPaper
    simp only [Finset.sum_pair (zero_ne_one (α := ℤ)), Int.cast_zero, Int.cast_one, c11, c10, c01, c00]
    have hu1 : p * logistic alpha1 / expo p alpha1 * expo p alpha1 = p * logistic alpha1 := div_mul_cancel₀ _ n1
    have hu0 : p * (1 - logistic alpha1) / (1 - expo p alpha1) * (1 - expo p alpha1) = p * (1 - logistic alpha1) := div_mul_cancel₀ _ n2
    simp only [planeValue, mediatorCoef, Matrix.cons_val_zero, Matrix.cons_val_one, Matrix.cons_val_two, Matrix.tail_cons, Matrix.head_cons, Matrix.cons_val]
    generalize p * logistic alpha1 / expo p alpha1 = u1 at hu1
    generalize p * (1 - logistic alpha1) / (1 - expo p alpha1) = u0 at hu0
    have hpe : (1 - p) * (1 / 2) = expo p alpha1 - p * logistic alpha1 := by unfold expo; ring
    have hpe2 : (1 - p) * (1 / 2) = 1 - expo p alpha1 - p * (1 - logistic alpha1) := by unfold expo; ring
    have split : ∀ E1 E2 E3 E4 : ℝ, p * (logistic alpha1 * E1 + (1 - logistic alpha1) * E2) + (1 - p) * (1 / 2 * E3 + 1 / 2 * E4) =
        u1 * expo p alpha1 * E1 + u0 * (1 - expo p alpha1) * E2 + expo p alpha1 * (1 - u1) * E3 + (1 - expo p alpha1) * (1 - u0) * E4 := by
      intro E1 E2 E3 E4
      linear_combination (-E1 + E3) * hu1 + (-E2 + E4) * hu0 + E3 * hpe + E4 * hpe2
    rw [split]
    clear split hpe hpe2 hu1 hu0 h c11 c10 c01 c00
    clear_value c
    generalize expo p alpha1 = e at *
    generalize logistic beta = b at *
    simp only [div_one, zero_div, sub_self, sub_zero, mul_zero, add_zero, zero_sub]
    have f1 : e * e⁻¹ = 1 := mul_inv_cancel₀ n1
    have f2 : (1 - e) * (1 - e)⁻¹ = 1 := mul_inv_cancel₀ n2
    have f3 : b * b⁻¹ = 1 := mul_inv_cancel₀ n3
    have f4 : (1 - b) * (1 - b)⁻¹ = 1 := mul_inv_cancel₀ n4
    field_simp
    ring

end
end Example
end Verif
