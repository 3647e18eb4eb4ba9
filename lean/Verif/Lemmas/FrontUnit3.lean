import Verif.Lemmas.FrontUnit2
import Verif.Lemmas.PopLogistic2
import Verif.Lemmas.AipwStream

/-!
# The population of the front-door example, as arms see it that are shown the confounder
-/

set_option linter.unusedSectionVars false
set_option linter.unusedSimpArgs false

namespace Verif
namespace Example
open MeasureTheory ProbabilityTheory Section5 Filter

/-- one unit of the front-door example, without the mediator -/
noncomputable def confounderUnit (p beta gamma alpha1 alpha2 : ℝ) (q : (ℝ × ℝ) × ℝ × ℝ) : Obs ℝ :=
  ⟨[.int (trunc (uxz p beta alpha1 q).1)], .int (trunc (uxz p beta alpha1 q).2.1), .flt (gamma * (uxz p beta alpha1 q).2.2 + alpha2 * (uxz p beta alpha1 q).1 + q.2.2)⟩

/-- one unit of the front-door example, with all covariates -/
noncomputable def completeUnit (p beta gamma alpha1 alpha2 : ℝ) (q : (ℝ × ℝ) × ℝ × ℝ) : Obs ℝ :=
  ⟨[.int (trunc (uxz p beta alpha1 q).1), .int (trunc (uxz p beta alpha1 q).2.2)], .int (trunc (uxz p beta alpha1 q).2.1),
    .flt (gamma * (uxz p beta alpha1 q).2.2 + alpha2 * (uxz p beta alpha1 q).1 + q.2.2)⟩

variable {p beta gamma alpha1 alpha2 : ℝ}

theorem confounderUnit_point (q : (ℝ × ℝ) × ℝ × ℝ) : (confounderUnit p beta gamma alpha1 alpha2 q).point 1 =
    (fun _ => (uxz p beta alpha1 q).1, (uxz p beta alpha1 q).2.1, gamma * (uxz p beta alpha1 q).2.2 + alpha2 * (uxz p beta alpha1 q).1 + q.2.2) := by
  refine Prod.ext (funext fun j => ?_) (Prod.ext ?_ rfl)
  · rw [Subsingleton.elim j 0]
    exact trunc_bit _ _
  · exact trunc_bit _ _

theorem completeUnit_point (q : (ℝ × ℝ) × ℝ × ℝ) : (completeUnit p beta gamma alpha1 alpha2 q).point 2 =
    (![(uxz p beta alpha1 q).1, (uxz p beta alpha1 q).2.2], (uxz p beta alpha1 q).2.1, gamma * (uxz p beta alpha1 q).2.2 + alpha2 * (uxz p beta alpha1 q).1 + q.2.2) := by
  refine Prod.ext (funext fun j => ?_) (Prod.ext ?_ rfl)
  · fin_cases j
    · exact trunc_bit _ _
    · exact trunc_bit _ _
  · exact trunc_bit _ _

theorem confounder_binary (q : (ℝ × ℝ) × ℝ × ℝ) : (confounderUnit p beta gamma alpha1 alpha2 q).Binary := by
  have h : ((confounderUnit p beta gamma alpha1 alpha2 q).point 1).2.1 = (uxz p beta alpha1 q).2.1 := by rw [confounderUnit_point]
  show ((confounderUnit p beta gamma alpha1 alpha2 q).point 1).2.1 = 0 ∨ ((confounderUnit p beta gamma alpha1 alpha2 q).point 1).2.1 = 1
  rw [h]
  exact (uxz_cases p beta alpha1 q).2.1

theorem complete_binary (q : (ℝ × ℝ) × ℝ × ℝ) : (completeUnit p beta gamma alpha1 alpha2 q).Binary := by
  have h : ((completeUnit p beta gamma alpha1 alpha2 q).point 2).2.1 = (uxz p beta alpha1 q).2.1 := by rw [completeUnit_point]
  show ((completeUnit p beta gamma alpha1 alpha2 q).point 2).2.1 = 0 ∨ ((completeUnit p beta gamma alpha1 alpha2 q).point 2).2.1 = 1
  rw [h]
  exact (uxz_cases p beta alpha1 q).2.1

theorem measurable_confounder : Measurable fun q => (confounderUnit p beta gamma alpha1 alpha2 q).point 1 := by
  have h := measurable_uxz p beta alpha1
  have h1 : Measurable fun q => (uxz p beta alpha1 q).1 := measurable_fst.comp h
  have h2 : Measurable fun q => (uxz p beta alpha1 q).2.1 := (measurable_fst.comp measurable_snd).comp h
  have h3 : Measurable fun q => (uxz p beta alpha1 q).2.2 := (measurable_snd.comp measurable_snd).comp h
  simp only [confounderUnit_point]
  fun_prop

theorem measurable_complete : Measurable fun q => (completeUnit p beta gamma alpha1 alpha2 q).point 2 := by
  have h := measurable_uxz p beta alpha1
  have h1 : Measurable fun q => (uxz p beta alpha1 q).1 := measurable_fst.comp h
  have h2 : Measurable fun q => (uxz p beta alpha1 q).2.1 := (measurable_fst.comp measurable_snd).comp h
  have h3 : Measurable fun q => (uxz p beta alpha1 q).2.2 := (measurable_snd.comp measurable_snd).comp h
  simp only [completeUnit_point]
  refine (measurable_pi_lambda _ fun j => ?_).prodMk (h2.prodMk (by fun_prop))
  fin_cases j
  · exact h1
  · exact h3

theorem sum_confounder (v : Fin 2 → ℝ) (q : (ℝ × ℝ) × ℝ × ℝ) : ∑ j : Fin (1 + 1), v j * regressor ((confounderUnit p beta gamma alpha1 alpha2 q).point 1) j =
    v 0 * (uxz p beta alpha1 q).2.1 + v 1 * (uxz p beta alpha1 q).1 := by
  refine (Fin.sum_univ_two fun j : Fin 2 => v j * regressor (k := 1) ((confounderUnit p beta gamma alpha1 alpha2 q).point 1) j).trans ?_
  rw [confounderUnit_point]
  rfl

theorem sum_withOne_confounder (v : Fin 2 → ℝ) (q : (ℝ × ℝ) × ℝ × ℝ) : ∑ j : Fin (1 + 1), v j * withOne ((confounderUnit p beta gamma alpha1 alpha2 q).point 1) j =
    v 0 + v 1 * (uxz p beta alpha1 q).1 := by
  refine (Fin.sum_univ_two fun j : Fin 2 => v j * withOne (k := 1) ((confounderUnit p beta gamma alpha1 alpha2 q).point 1) j).trans ?_
  rw [confounderUnit_point]
  show v 0 * 1 + _ = _
  rw [mul_one]
  rfl

theorem sum_complete (v : Fin 3 → ℝ) (q : (ℝ × ℝ) × ℝ × ℝ) : ∑ j : Fin (2 + 1), v j * regressor ((completeUnit p beta gamma alpha1 alpha2 q).point 2) j =
    v 0 * (uxz p beta alpha1 q).2.1 + v 1 * (uxz p beta alpha1 q).1 + v 2 * (uxz p beta alpha1 q).2.2 := by
  refine (Fin.sum_univ_three fun j : Fin 3 => v j * regressor (k := 2) ((completeUnit p beta gamma alpha1 alpha2 q).point 2) j).trans ?_
  rw [completeUnit_point]
  rfl

theorem sum_withOne_complete (v : Fin 3 → ℝ) (q : (ℝ × ℝ) × ℝ × ℝ) : ∑ j : Fin (2 + 1), v j * withOne ((completeUnit p beta gamma alpha1 alpha2 q).point 2) j =
    v 0 + v 1 * (uxz p beta alpha1 q).1 + v 2 * (uxz p beta alpha1 q).2.2 := by
  refine (Fin.sum_univ_three fun j : Fin 3 => v j * withOne (k := 2) ((completeUnit p beta gamma alpha1 alpha2 q).point 2) j).trans ?_
  rw [completeUnit_point]
  show v 0 * 1 + _ + _ = _
  rw [mul_one]
  rfl

theorem sigmoid_logistic (t : ℝ) : Real.sigmoid t = logistic t := by
  rw [Real.sigmoid_def, logistic, one_div]

/-- the coefficients of the propensity -/
def confounderTheta (alpha1 : ℝ) : Fin (1 + 1) → ℝ := ![0, alpha1]

variable {Ω : Type} [MeasurableSpace Ω] {P : Measure Ω} [IsProbabilityMeasure P] {T : Ω → (ℝ × ℝ) × ℝ × ℝ}

section
variable (hT : Measurable T) (hl : P.map T = fourLaw) (hp : 0 < p ∧ p < 1)
include hT hl hp

/-- all combinations of confounder, exposure and mediator have positive probability -/
theorem cells_zero (h1 : 1 / 4 < logistic alpha1 ∧ logistic alpha1 < 3 / 4) (h2 : 1 / 4 < logistic beta ∧ logistic beta < 3 / 4) {A : ℝ → ℝ → ℝ → ℝ}
    (h : ∀ᵐ ω ∂P, A (uxz p beta alpha1 (T ω)).1 (uxz p beta alpha1 (T ω)).2.1 (uxz p beta alpha1 (T ω)).2.2 = 0) :
    (A 1 1 1 = 0 ∧ A 1 1 0 = 0 ∧ A 1 0 1 = 0 ∧ A 1 0 0 = 0) ∧ A 0 1 1 = 0 ∧ A 0 1 0 = 0 ∧ A 0 0 1 = 0 ∧ A 0 0 0 = 0 := by
  have e : ∫ ω, (fun u x z => A u x z ^ 2) (uxz p beta alpha1 (T ω)).1 (uxz p beta alpha1 (T ω)).2.1 (uxz p beta alpha1 (T ω)).2.2 ∂P = 0 := by
    rw [integral_congr_ae (g := fun _ => 0), integral_zero]
    filter_upwards [h] with ω hω
    simp [hω]
  rw [table3_integral hT hl (hp' hT hl hp) fun u x z => A u x z ^ 2] at e
  obtain ⟨p0, p1⟩ := hp
  obtain ⟨a0, a1⟩ := h1
  obtain ⟨b0, b1⟩ := h2
  generalize logistic alpha1 = la at *
  generalize logistic beta = lb at *
  have q1 : 0 < 1 - p := by linarith
  have qa : 0 < 1 - la := by linarith
  have qb : 0 < 1 - lb := by linarith
  have ra : 0 < la := by linarith
  have rb : 0 < lb := by linarith
  have w1 : 0 < p * la * lb := by positivity
  have w2 : 0 < p * la * (1 - lb) := by positivity
  have w3 : 0 < p * (1 - la) * (1 / 2) := by positivity
  have w5 : 0 < (1 - p) * (1 / 2) * lb := by positivity
  have w6 : 0 < (1 - p) * (1 / 2) * (1 - lb) := by positivity
  have w7 : 0 < (1 - p) * (1 / 2) * (1 / 2) := by positivity
  have t1 := mul_nonneg w1.le (sq_nonneg (A 1 1 1))
  have t2 := mul_nonneg w2.le (sq_nonneg (A 1 1 0))
  have t3 := mul_nonneg w3.le (sq_nonneg (A 1 0 1))
  have t4 := mul_nonneg w3.le (sq_nonneg (A 1 0 0))
  have t5 := mul_nonneg w5.le (sq_nonneg (A 0 1 1))
  have t6 := mul_nonneg w6.le (sq_nonneg (A 0 1 0))
  have t7 := mul_nonneg w7.le (sq_nonneg (A 0 0 1))
  have t8 := mul_nonneg w7.le (sq_nonneg (A 0 0 0))
  have e' : p * la * lb * A 1 1 1 ^ 2 + p * la * (1 - lb) * A 1 1 0 ^ 2 + p * (1 - la) * (1 / 2) * A 1 0 1 ^ 2 + p * (1 - la) * (1 / 2) * A 1 0 0 ^ 2 +
      (1 - p) * (1 / 2) * lb * A 0 1 1 ^ 2 + (1 - p) * (1 / 2) * (1 - lb) * A 0 1 0 ^ 2 + (1 - p) * (1 / 2) * (1 / 2) * A 0 0 1 ^ 2 +
      (1 - p) * (1 / 2) * (1 / 2) * A 0 0 0 ^ 2 = 0 := Eq.trans (by ring) e
  have z : ∀ {w a : ℝ}, 0 < w → w * a ^ 2 = 0 → a = 0 := fun hw h => by simpa [hw.ne'] using h
  refine ⟨⟨z w1 ?_, z w2 ?_, z w3 ?_, z w3 ?_⟩, z w5 ?_, z w6 ?_, z w7 ?_, z w7 ?_⟩ <;> linarith

theorem confounder_memLp_z (j : Fin 1) (r : ENNReal) : MemLp (fun ω => ((confounderUnit p beta gamma alpha1 alpha2 (T ω)).point 1).1 j) r P := by
  simp only [confounderUnit_point]
  exact table3_memLp (beta := beta) (alpha1 := alpha1) hT hl (fun u _ _ => u) r

theorem complete_memLp_z (j : Fin 2) (r : ENNReal) : MemLp (fun ω => ((completeUnit p beta gamma alpha1 alpha2 (T ω)).point 2).1 j) r P := by
  simp only [completeUnit_point]
  fin_cases j
  · exact table3_memLp (beta := beta) (alpha1 := alpha1) hT hl (fun u _ _ => u) r
  · exact table3_memLp hT hl (fun _ _ z => z) r

theorem confounder_memLp_regressor (j : Fin (1 + 1)) (r : ENNReal) : MemLp (fun ω => regressor ((confounderUnit p beta gamma alpha1 alpha2 (T ω)).point 1) j) r P := by
  simp only [confounderUnit_point]
  fin_cases j
  · exact table3_memLp (beta := beta) (alpha1 := alpha1) hT hl (fun _ x _ => x) r
  · exact table3_memLp (beta := beta) (alpha1 := alpha1) hT hl (fun u _ _ => u) r

theorem complete_memLp_regressor (j : Fin (2 + 1)) (r : ENNReal) : MemLp (fun ω => regressor ((completeUnit p beta gamma alpha1 alpha2 (T ω)).point 2) j) r P := by
  simp only [completeUnit_point]
  fin_cases j
  · exact table3_memLp (beta := beta) (alpha1 := alpha1) hT hl (fun _ x _ => x) r
  · exact table3_memLp (beta := beta) (alpha1 := alpha1) hT hl (fun u _ _ => u) r
  · exact table3_memLp hT hl (fun _ _ z => z) r

theorem front_memLp_y (r : ENNReal) (hr : r ≠ ⊤) :
    MemLp (fun ω => gamma * (uxz p beta alpha1 (T ω)).2.2 + alpha2 * (uxz p beta alpha1 (T ω)).1 + (T ω).2.2) r P :=
  (table3_memLp hT hl (fun u _ z => gamma * z + alpha2 * u) r).add (normal3_memLp hT hl r hr)

theorem confounder_memLp_prod (j : Fin (1 + 1)) (r : ENNReal) (hr : r ≠ ⊤) :
    MemLp (fun ω => regressor ((confounderUnit p beta gamma alpha1 alpha2 (T ω)).point 1) j * (confounderUnit p beta gamma alpha1 alpha2 (T ω)).yv) r P := by
  have hy := front_memLp_y (gamma := gamma) (alpha2 := alpha2) (beta := beta) (alpha1 := alpha1) hT hl hp r hr
  simp only [confounderUnit_point]
  fin_cases j
  · exact table3_mul_memLp (beta := beta) (alpha1 := alpha1) hT hl (fun _ x _ => x) hy
  · exact table3_mul_memLp (beta := beta) (alpha1 := alpha1) hT hl (fun u _ _ => u) hy

theorem complete_memLp_prod (j : Fin (2 + 1)) (r : ENNReal) (hr : r ≠ ⊤) :
    MemLp (fun ω => regressor ((completeUnit p beta gamma alpha1 alpha2 (T ω)).point 2) j * (completeUnit p beta gamma alpha1 alpha2 (T ω)).yv) r P := by
  have hy := front_memLp_y (gamma := gamma) (alpha2 := alpha2) (beta := beta) (alpha1 := alpha1) hT hl hp r hr
  simp only [completeUnit_point]
  fin_cases j
  · exact table3_mul_memLp (beta := beta) (alpha1 := alpha1) hT hl (fun _ x _ => x) hy
  · exact table3_mul_memLp (beta := beta) (alpha1 := alpha1) hT hl (fun u _ _ => u) hy
  · exact table3_mul_memLp (beta := beta) (alpha1 := alpha1) hT hl (fun _ _ z => z) hy

theorem confounder_withOne (h1 : 1 / 4 < logistic alpha1 ∧ logistic alpha1 < 3 / 4) (h2 : 1 / 4 < logistic beta ∧ logistic beta < 3 / 4) :
    Nondegenerate P fun ω => withOne ((confounderUnit p beta gamma alpha1 alpha2 (T ω)).point 1) := by
  intro v hv
  simp only [sum_withOne_confounder] at hv
  obtain ⟨⟨c1, -⟩, c2, -⟩ := cells_zero hT hl hp h1 h2 (A := fun u _ _ => v 0 + v 1 * u) hv
  have a0 : v 0 = 0 := by linarith
  have a1 : v 1 = 0 := by linarith
  funext j
  fin_cases j <;> assumption

theorem confounder_nondegenerate (h1 : 1 / 4 < logistic alpha1 ∧ logistic alpha1 < 3 / 4) (h2 : 1 / 4 < logistic beta ∧ logistic beta < 3 / 4) :
    Nondegenerate P fun ω => regressor ((confounderUnit p beta gamma alpha1 alpha2 (T ω)).point 1) := by
  intro v hv
  simp only [sum_confounder] at hv
  obtain ⟨⟨-, -, c1, -⟩, c2, -⟩ := cells_zero hT hl hp h1 h2 (A := fun u x _ => v 0 * x + v 1 * u) hv
  have a0 : v 0 = 0 := by linarith
  have a1 : v 1 = 0 := by linarith
  funext j
  fin_cases j <;> assumption

theorem complete_nondegenerate (h1 : 1 / 4 < logistic alpha1 ∧ logistic alpha1 < 3 / 4) (h2 : 1 / 4 < logistic beta ∧ logistic beta < 3 / 4) :
    Nondegenerate P fun ω => regressor ((completeUnit p beta gamma alpha1 alpha2 (T ω)).point 2) := by
  intro v hv
  simp only [sum_complete] at hv
  obtain ⟨⟨-, -, -, c1⟩, -, c2, c3, -⟩ := cells_zero hT hl hp h1 h2 (A := fun u x z => v 0 * x + v 1 * u + v 2 * z) hv
  have a0 : v 0 = 0 := by linarith
  have a1 : v 1 = 0 := by linarith
  have a2 : v 2 = 0 := by linarith
  funext j
  fin_cases j <;> assumption

theorem complete_notSeparable (h1 : 1 / 4 < logistic alpha1 ∧ logistic alpha1 < 3 / 4) (h2 : 1 / 4 < logistic beta ∧ logistic beta < 3 / 4) :
    NotSeparable P fun ω => (completeUnit p beta gamma alpha1 alpha2 (T ω)).point 2 := by
  intro v hv hc
  classical
  have e : ∀ ω, ((completeUnit p beta gamma alpha1 alpha2 (T ω)).point 2).2.1 = (uxz p beta alpha1 (T ω)).2.1 := fun ω => by rw [completeUnit_point]
  simp only [sum_withOne_complete, e] at hc
  have hc' := cells_zero hT hl hp h1 h2 (A := fun u x z => if (x = 1 → 0 ≤ v 0 + v 1 * u + v 2 * z) ∧ (x = 0 → v 0 + v 1 * u + v 2 * z ≤ 0) then 0 else 1) (by
    filter_upwards [hc] with ω hω
    exact if_pos hω)
  have one : ∀ {q : Prop} [Decidable q], (if q then (0 : ℝ) else 1) = 0 → q := by
    intro q _ h
    by_contra hq
    rw [if_neg hq] at h
    exact one_ne_zero h
  obtain ⟨⟨c1, c2, c3, c4⟩, c5, c6, c7, c8⟩ := hc'
  have d2 := (one c2).1 rfl
  have d4 := (one c4).2 rfl
  have d5 := (one c5).1 rfl
  have d6 := (one c6).1 rfl
  have d7 := (one c7).2 rfl
  have d8 := (one c8).2 rfl
  have a0 : v 0 = 0 := by linarith
  have a1 : v 1 = 0 := by linarith
  have a2 : v 2 = 0 := by linarith
  refine hv (funext fun j => ?_)
  fin_cases j <;> assumption

theorem confounder_propensity : PropensityIs P (fun ω => (confounderUnit p beta gamma alpha1 alpha2 (T ω)).point 1)
    fun z => Real.sigmoid (confounderTheta alpha1 0 + ∑ j, confounderTheta alpha1 j.succ * z j) := by
  unfold PropensityIs
  have hs : ∀ u : ℝ, Real.sigmoid (confounderTheta alpha1 0 + ∑ j : Fin 1, confounderTheta alpha1 j.succ * u) = logistic (alpha1 * u) := by
    intro u
    rw [sigmoid_logistic]
    simp [confounderTheta]
  simp only [confounderUnit_point, hs]
  have hz : Measurable fun ω => (uxz p beta alpha1 (T ω)).1 := measurable_fst.comp ((measurable_uxz p beta alpha1).comp hT)
  have hzm : Measurable fun ω => (fun _ : Fin 1 => (uxz p beta alpha1 (T ω)).1) := measurable_pi_lambda _ fun _ => hz
  have hX : Integrable (fun ω => (uxz p beta alpha1 (T ω)).2.1) P := (table3_memLp hT hl (fun _ x _ => x) 1).integrable le_rfl
  have hE : Integrable (fun ω => logistic (alpha1 * (uxz p beta alpha1 (T ω)).1)) P := (table3_memLp hT hl (fun u _ _ => logistic (alpha1 * u)) 1).integrable le_rfl
  symm
  refine ae_eq_condExp_of_forall_setIntegral_eq hzm.comap_le hX (fun s _ _ => hE.integrableOn) ?_ ?_
  · rintro s ⟨B, hB, rfl⟩ -
    have e : ∀ A : ℝ → ℝ → ℝ, ∫ ω in (fun ω => (fun _ : Fin 1 => (uxz p beta alpha1 (T ω)).1)) ⁻¹' B, A (uxz p beta alpha1 (T ω)).1 (uxz p beta alpha1 (T ω)).2.1 ∂P =
        ∫ ω, (fun u x _ => B.indicator (fun _ => A u x) fun _ => u) (uxz p beta alpha1 (T ω)).1 (uxz p beta alpha1 (T ω)).2.1 (uxz p beta alpha1 (T ω)).2.2 ∂P := by
      intro A
      rw [← integral_indicator (hzm hB)]
      rfl
    rw [e fun u _ => logistic (alpha1 * u), e fun _ x => x, table3_integral hT hl (hp' hT hl hp) fun u _ _ => B.indicator (fun _ => logistic (alpha1 * u)) fun _ => u,
      table3_integral hT hl (hp' hT hl hp) fun u x _ => B.indicator (fun _ => x) fun _ => u]
    by_cases b0 : (fun _ : Fin 1 => (0 : ℝ)) ∈ B <;> by_cases b1 : (fun _ : Fin 1 => (1 : ℝ)) ∈ B <;>
      simp only [b0, b1, Set.indicator_of_mem, Set.indicator_of_notMem, not_false_eq_true, mul_zero, mul_one, logistic_zero] <;> ring
  · have : Measurable fun z : Fin 1 → ℝ => logistic (alpha1 * z 0) := measurable_logistic.comp (by fun_prop)
    exact (this.comp (comap_measurable _)).stronglyMeasurable.aestronglyMeasurable

theorem confounder_logistic (h1 : 1 / 4 < logistic alpha1 ∧ logistic alpha1 < 3 / 4) (h2 : 1 / 4 < logistic beta ∧ logistic beta < 3 / 4) :
    LogisticRegression P (fun ω => (confounderUnit p beta gamma alpha1 alpha2 (T ω)).point 1) (confounderTheta alpha1) :=
  logistic_correct (measurable_confounder.comp hT) (Eventually.of_forall fun ω => confounder_binary (gamma := gamma) (alpha2 := alpha2) (T ω)) (fun j => (confounder_memLp_z hT hl hp j 1).integrable le_rfl)
    (confounder_withOne hT hl hp h1 h2) (confounder_propensity hT hl hp)

/-- the mean score of an arm that adjusts for the confounder is the effect, whatever line is fitted to the responses -/
theorem confounder_mean {κ : ℝ} (hκ : κ ≤ 1 / 4) (h1 : 1 / 4 < logistic alpha1 ∧ logistic alpha1 < 3 / 4) (b : Fin (1 + 1) → ℝ) :
    ∫ ω, aipwScore (fun x z => linearValue b (x :: z)) (fun z => min (max (logisticValue (confounderTheta alpha1) z) κ) (1 - κ)) (confounderUnit p beta gamma alpha1 alpha2 (T ω)) ∂P =
      gamma * (logistic beta - 1 / 2) := by
  have h := affine3_integral (beta := beta) (alpha1 := alpha1) hT hl (hp' hT hl hp)
    (fun u x z => b 0 + (gamma * z + alpha2 * u - (b 0 * x + b 1 * u)) * (x / logistic (alpha1 * u) - (1 - x) / (1 - logistic (alpha1 * u))))
    (fun u x _ => x / logistic (alpha1 * u) - (1 - x) / (1 - logistic (alpha1 * u)))
  refine Eq.trans (integral_congr_ae (Eventually.of_forall fun ω => ?_)) (h.trans ?_)
  · show aipwScore _ _ _ = _
    rw [aipwScore_point (k := 1)]
    have hc : clippedPropensity κ (confounderTheta alpha1) ((confounderUnit p beta gamma alpha1 alpha2 (T ω)).point 1) = logistic (alpha1 * (uxz p beta alpha1 (T ω)).1) := by
      unfold clippedPropensity
      rw [sum_withOne_confounder, sigmoid_logistic]
      have e : confounderTheta alpha1 0 + confounderTheta alpha1 1 * (uxz p beta alpha1 (T ω)).1 = alpha1 * (uxz p beta alpha1 (T ω)).1 := by simp [confounderTheta]
      rw [e]
      rcases (uxz_cases p beta alpha1 (T ω)).1 with h | h <;> rw [h]
      · rw [mul_zero, logistic_zero, max_eq_left (by linarith), min_eq_left (by linarith)]
      · rw [mul_one, max_eq_left (by linarith [h1.1]), min_eq_left (by linarith [h1.2])]
    unfold aipwPoint
    rw [hc, sum_confounder, confounderUnit_point]
    ring
  · have n1 : logistic alpha1 ≠ 0 := by linarith [h1.1]
    have n2 : 1 - logistic alpha1 ≠ 0 := by linarith [h1.2]
    simp only [mul_one, mul_zero, logistic_zero]
    field_simp
    ring

/-- the least-squares coefficients of the exposure and the confounder, without intercept -/
noncomputable def confounderCoef (p beta gamma alpha1 alpha2 : ℝ) : Fin 2 → ℝ :=
  ![confounderRegression p beta gamma alpha1, alpha2 + gamma * (logistic alpha1 * logistic beta + (1 - logistic alpha1) / 2) - logistic alpha1 * confounderRegression p beta gamma alpha1]

theorem confounder_leastSquares (h1 : 1 / 4 < logistic alpha1 ∧ logistic alpha1 < 3 / 4) :
    LeastSquares P (fun ω => (confounderUnit p beta gamma alpha1 alpha2 (T ω)).point 1) (confounderCoef p beta gamma alpha1 alpha2) := by
  intro j
  have h := affine3_integral (beta := beta) (alpha1 := alpha1) hT hl (hp' hT hl hp)
    (fun u x z => ![x, u] j * (gamma * z + alpha2 * u - (confounderCoef p beta gamma alpha1 alpha2 0 * x + confounderCoef p beta gamma alpha1 alpha2 1 * u))) (fun u x _ => ![x, u] j)
  refine Eq.trans (integral_congr_ae (Eventually.of_forall fun ω => ?_)) (h.trans ?_)
  · show _ * (_ - _) = _
    rw [sum_confounder]
    beta_reduce
    have e : regressor ((confounderUnit p beta gamma alpha1 alpha2 (T ω)).point 1) j = ![(uxz p beta alpha1 (T ω)).2.1, (uxz p beta alpha1 (T ω)).1] j := by
      rw [confounderUnit_point]
      fin_cases j <;> rfl
    rw [e, confounderUnit_point]
    ring
  · have c0 : confounderCoef p beta gamma alpha1 alpha2 0 = confounderRegression p beta gamma alpha1 := rfl
    have c1 : confounderCoef p beta gamma alpha1 alpha2 1 =
      alpha2 + gamma * (logistic alpha1 * logistic beta + (1 - logistic alpha1) / 2) - logistic alpha1 * confounderRegression p beta gamma alpha1 := rfl
    have hd : p * logistic alpha1 * (1 - logistic alpha1) + (1 - p) / 2 ≠ 0 := by
      have := mul_pos (mul_pos hp.1 (show 0 < logistic alpha1 by linarith [h1.1])) (show 0 < 1 - logistic alpha1 by linarith [h1.2])
      linarith [hp.2]
    have hw : confounderRegression p beta gamma alpha1 * (p * logistic alpha1 * (1 - logistic alpha1) + (1 - p) / 2) =
        gamma * (logistic beta * (p * logistic alpha1 * (1 - logistic alpha1) + (1 - p) / 2) - p * logistic alpha1 * (1 - logistic alpha1) / 2) := by
      unfold confounderRegression
      generalize p * logistic alpha1 * (1 - logistic alpha1) = q at hd ⊢
      generalize q + (1 - p) / 2 = r at hd ⊢
      field_simp
    rw [c0, c1]
    fin_cases j
    · simp
      linear_combination (-1) * hw
    · simp only [Fin.mk_one, Matrix.cons_val_one, Matrix.cons_val_zero]
      ring

/-- the least-squares coefficients when all covariates are shown: the exposure has none -/
def completeCoef (gamma alpha2 : ℝ) : Fin 3 → ℝ := ![0, alpha2, gamma]

theorem complete_leastSquares : LeastSquares P (fun ω => (completeUnit p beta gamma alpha1 alpha2 (T ω)).point 2) (completeCoef gamma alpha2) := by
  intro j
  have h := affine3_integral (beta := beta) (alpha1 := alpha1) hT hl (hp' hT hl hp) (fun _ _ _ => 0) (fun u x z => ![x, u, z] j)
  refine Eq.trans (integral_congr_ae (Eventually.of_forall fun ω => ?_)) (h.trans (by simp))
  show _ * (_ - _) = _
  rw [sum_complete]
  beta_reduce
  have e : regressor ((completeUnit p beta gamma alpha1 alpha2 (T ω)).point 2) j = ![(uxz p beta alpha1 (T ω)).2.1, (uxz p beta alpha1 (T ω)).1, (uxz p beta alpha1 (T ω)).2.2] j := by
    rw [completeUnit_point]
    fin_cases j <;> rfl
  rw [e, completeUnit_point]
  simp only [completeCoef, Matrix.cons_val_zero, Matrix.cons_val_one, Matrix.cons_val_two, Matrix.tail_cons, Matrix.head_cons, Matrix.cons_val]
  ring

/-- the mean score of an arm that adjusts for all covariates is 0, whatever propensities are fitted -/
theorem complete_mean {κ : ℝ} (θ : Fin (2 + 1) → ℝ) :
    ∫ ω, aipwScore (fun x z => linearValue (completeCoef gamma alpha2) (x :: z)) (fun z => min (max (logisticValue θ z) κ) (1 - κ)) (completeUnit p beta gamma alpha1 alpha2 (T ω)) ∂P = 0 := by
  have h := affine3_integral (beta := beta) (alpha1 := alpha1) hT hl (hp' hT hl hp) (fun _ _ _ => 0)
    (fun u x z => x / min (max (Real.sigmoid (θ 0 + θ 1 * u + θ 2 * z)) κ) (1 - κ) - (1 - x) / (1 - min (max (Real.sigmoid (θ 0 + θ 1 * u + θ 2 * z)) κ) (1 - κ)))
  refine Eq.trans (integral_congr_ae (Eventually.of_forall fun ω => ?_)) (h.trans (by simp))
  show aipwScore _ _ _ = _
  rw [aipwScore_point (k := 2)]
  unfold aipwPoint clippedPropensity
  rw [sum_withOne_complete, sum_complete, completeUnit_point]
  simp only [completeCoef, Matrix.cons_val_zero, Matrix.cons_val_one, Matrix.cons_val_two, Matrix.tail_cons, Matrix.head_cons, Matrix.cons_val]
  ring

end
end Example
end Verif
